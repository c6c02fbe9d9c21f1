import Verif.Lemmas.CutsceneMessage
import Verif.Props.Objects

/-! # Properties of cutscene libraries and their messages: C98 -/

namespace Verif.Props

open Verif.Ar Verif.Obj

/-! ### `get_message` and `set_message` -/

/-- C98: `get_message` gives the message of the atomic block inside, however deep it is. -/
theorem c98_get {M : Mem} {a p : Nat} {x : AtomicBlock Nat} (h : Contains M a p) (hx : M.atomic p = some x) :
    ∃ N, ∀ fuel ≥ N, getMessage M fuel a = .ok x.message := getMessage_of h hx

/-- C98: `set_message` sets the message of all blocks that share the atomic block, and of no others; no other object changes. -/
theorem c98_set {M : Mem} {a p : Nat} (h : Contains M a p) (msg : Option Nat) :
    ∃ N M', (∀ fuel ≥ N, setMessage M fuel a msg = .ok M') ∧ (∀ q, q ≠ p → M' q = M q) ∧
      (∀ b, Contains M b p → ∃ N, ∀ fuel ≥ N, getMessage M' fuel b = .ok msg) ∧
      ∀ b q, q ≠ p → Contains M b q → ∃ N, ∀ fuel ≥ N, getMessage M' fuel b = getMessage M fuel b := by
  obtain ⟨x, hx⟩ := h.atomic
  obtain ⟨N, hN⟩ := setMessage_of h hx msg
  refine ⟨N, _, hN, fun q hq => if_neg hq, ?_, ?_⟩
  · intro b hb
    exact getMessage_of (x := { x with message := msg }) (hb.update hx) (by rw [atomic_update, if_pos rfl])
  · intro b q hq hb
    obtain ⟨z, hz⟩ := hb.atomic
    obtain ⟨N1, h1⟩ := getMessage_of hb hz
    obtain ⟨N2, h2⟩ := getMessage_of (M := fun q => if q = p then some (.AtomicBlock { x with message := msg }) else M q)
      (x := z) (hb.update hx) (by rw [atomic_update, if_neg hq]; exact hz)
    exact ⟨N1 + N2, fun fuel hf => by rw [h1 fuel (by omega), h2 fuel (by omega)]⟩

/-- C98 is false for a block whose inner block is null: `set_message` says nothing and the message is lost. -/
theorem c98_null_violation (M : Mem) (a : Nat) (b : Block Nat) (hb : M.block a = some b) (h1 : b.atomic = false) (h2 : b.block = none)
    (msg : Option Nat) (fuel : Nat) :
    setMessage M (fuel + 1) a msg = .ok M ∧ getMessage M (fuel + 1) a = .ok none := by
  have : innermost M (fuel + 1) a = .ok .nowhere := by simp [innermost, hb, h1, h2]
  constructor
  · unfold setMessage; rw [this]; rfl
  · unfold getMessage; rw [this]; rfl

/-- A block without an atomic block is dereferenced. -/
theorem c98_no_atomic_violation (M : Mem) (a : Nat) (b : Block Nat) (hb : M.block a = some b) (h1 : b.atomic = true)
    (h2 : b.block = none) (fuel : Nat) : getMessage M (fuel + 1) a = .error .ub := by
  have : innermost M (fuel + 1) a = .ok (.at none) := by simp [innermost, hb, h1, h2]
  unfold getMessage; rw [this]; rfl

/-- A block that contains itself has no message, and asking for it does not end. -/
theorem hangs {M : Mem} {a : Nat} {b : Block Nat} (hb : M.block a = some b) (h1 : b.atomic = false) (h2 : b.block = some a) (fuel : Nat) :
    getMessage M fuel a = .error .hang := by
  have : innermost M fuel a = .error .hang := by
    induction fuel with
    | zero => rfl
    | succ fuel ih => simp only [innermost, hb, h1, h2, Bool.false_eq_true, if_false]; exact ih
  unfold getMessage
  rw [this]
  rfl

def cycleCtx : Ctx := ⟨.g2, false, true⟩

/-- A file with a block that is a reference to itself. -/
def cycleFile : Bytes :=
  (Bs.calls ⟨⟨[], 0⟩, 0, []⟩
    [.begin b!"%" b!"zCCSBlock" 0, .val b!"blockName" (.string b!"A"), .val b!"numOfBlocks" (.int 1), .val b!"subBlock0" (.float 0),
     .ref b!"%" 0, .finish]).ws.data

/-- C98 is false: there are files that can be loaded without an exception, with a block whose message cannot be asked for: the loop does
not end. -/
theorem c98_cycle_violation : ∃ s' g, readPtr Bs.reader (schema cycleCtx) 9 ⟨cycleFile, 0⟩ ⟨[], []⟩ = .ok (some 0, s', g) ∧
    ∀ fuel, getMessage (memOf cycleCtx (readEnv g.heap) g.heap) fuel 0 = .error .hang := by
  have h : ∃ s', readPtr Bs.reader (schema cycleCtx) 9 ⟨cycleFile, 0⟩ ⟨[], []⟩ = .ok (some 0, s',
      ⟨[(.zCCSBlock, [.val (.string b!"A"), .val (.int 1), .val (.float 0), .ptr (some 0)])], [(0, 0)]⟩) := by
    have : (match readPtr Bs.reader (schema cycleCtx) 9 ⟨cycleFile, 0⟩ ⟨[], []⟩ with
      | .ok (p, _, g) => some (p, g)
      | .error _ => none) = some (some 0,
        ⟨[(.zCCSBlock, [.val (.string b!"A"), .val (.int 1), .val (.float 0), .ptr (some 0)])], [(0, 0)]⟩) := by
      decide +kernel
    split at this
    · rename_i h
      cases this
      exact ⟨_, h⟩
    · cases this
  obtain ⟨s', h⟩ := h
  exact ⟨s', _, h, hangs (b := ⟨b!"A", false, some 0⟩) (by decide +kernel) rfl rfl⟩

/-! ### Whole libraries -/

/-- C98 for BINARY archives: a library that is saved and loaded answers as before. Missing: null pointers among the blocks
(`c51_null_violation`), names of several blocks, of which one is found, names that are not in the library (`c51_violation`). -/
theorem c98_binary_partial (c : Ctx) (T : Heap) (H : GHeap) (roots : List Field) (dom : List Nat) (top : List Seen → Option Want)
    (hg : T.Ok c H roots dom (fun _ v => Bin.OkVal v) (fun n c _ _ => NoEol n ∧ NoEol c)) (htop : Follows top roots)
    (l : Nat) (x : Library Nat) (hl : T.mem l = some (.Library x)) (hnull : none ∉ x.blocks)
    (w : Bin.Wr) (hw : w.ws.pos ≤ w.ws.data.length) (post : Bytes) (tail : List Nat) :
    ∃ cs g w', writeFields (writePtr H (dom.length + 1)) roots ⟨w.index, []⟩ = .ok (cs, g) ∧ Bin.calls w cs = some w' ∧
      (w'.ws.pos - w.ws.pos < 2 ^ 32 →
        ∃ N s' heap cache φ, (∀ f1 ≥ N, ∀ f2 ≥ N,
            readFields Bin.reader (readPtr Bin.reader (schema c) f1) top f2 [] ⟨⟨w'.ws.data ++ post, w.ws.pos⟩, tail⟩ ⟨[], []⟩ =
              .ok (roots.map (Field.got φ), s', ⟨heap, cache⟩)) ∧ x.Kept T.mem (memOf c (readEnv heap) heap) (φ l) φ) := by
  obtain ⟨cs, g, w', h1, h2, h3⟩ := c76_binary_partial c T H roots dom top hg htop w hw post tail
  refine ⟨cs, g, w', h1, h2, fun hs => ?_⟩
  obtain ⟨N, s', heap, cache, φ, hN, hc, hr⟩ := h3 hs
  exact ⟨N, s', heap, cache, φ, hN, library_kept hg hr hl hnull⟩

/-- C98 for BINSAFE archives. -/
theorem c98_binsafe_partial (c : Ctx) (T : Heap) (H : GHeap) (roots : List Field) (dom : List Nat) (top : List Seen → Option Want)
    (hg : T.Ok c H roots dom (fun _ v => Bs.OkVal v) (fun n c _ _ => Bs.OkName n ∧ Bs.OkName c)) (htop : Follows top roots)
    (l : Nat) (x : Library Nat) (hl : T.mem l = some (.Library x)) (hnull : none ∉ x.blocks)
    (w : Bs.Wr) (hw : w.ws.pos ≤ w.ws.data.length) (post : Bytes) :
    ∃ cs g, writeFields (writePtr H (dom.length + 1)) roots ⟨w.index, []⟩ = .ok (cs, g) ∧
      ∃ N s' heap cache φ, (∀ f1 ≥ N, ∀ f2 ≥ N,
          readFields Bs.reader (readPtr Bs.reader (schema c) f1) top f2 [] ⟨(Bs.calls w cs).ws.data ++ post, w.ws.pos⟩ ⟨[], []⟩ =
            .ok (roots.map (Field.got φ), s', ⟨heap, cache⟩)) ∧ x.Kept T.mem (memOf c (readEnv heap) heap) (φ l) φ := by
  obtain ⟨cs, g, h1, N, s', heap, cache, φ, hN, hc, hr⟩ := c76_binsafe_partial c T H roots dom top hg htop w hw post
  exact ⟨cs, g, h1, N, s', heap, cache, φ, hN, library_kept hg hr hl hnull⟩

/-- C98 for ASCII archives: names and texts as in C17. -/
theorem c98_ascii_partial (c : Ctx) (T : Heap) (H : GHeap) (roots : List Field) (dom : List Nat) (top : List Seen → Option Want)
    (hg : T.Ok c H roots dom (fun n v => Asc.OkKey n ∧ Asc.OkVal v) (fun n c _ _ => Asc.OkName n ∧ Asc.OkName c))
    (htop : Follows top roots) (l : Nat) (x : Library Nat) (hl : T.mem l = some (.Library x)) (hnull : none ∉ x.blocks)
    (w : Asc.Wr) (hw : w.ws.pos = w.ws.data.length) (hi : w.indent = 0) (post : Bytes) (hpost : Solid post) :
    ∃ cs g, writeFields (writePtr H (dom.length + 1)) roots ⟨w.index, []⟩ = .ok (cs, g) ∧
      ∃ N s' heap cache φ, (∀ f1 ≥ N, ∀ f2 ≥ N,
          readFields Asc.reader (readPtr Asc.reader (schema c) f1) top f2 [] ⟨(Asc.calls w cs).ws.data ++ post, w.ws.pos⟩ ⟨[], []⟩ =
            .ok (roots.map (Field.got φ), s', ⟨heap, cache⟩)) ∧ x.Kept T.mem (memOf c (readEnv heap) heap) (φ l) φ := by
  obtain ⟨cs, g, h1, N, s', heap, cache, φ, hN, hc, hr⟩ := c76_ascii_partial c T H roots dom top hg htop w hw hi post hpost
  exact ⟨cs, g, h1, N, s', heap, cache, φ, hN, library_kept hg hr hl hnull⟩

/-- C98 is false for a library that is loaded into an object that has blocks already: they stay. -/
theorem c98_reuse_violation {P} (env : Env P) (φ : Nat → P) (o : Library P) (x : Library Nat) (hn : Fits31 x.blocks)
    (h : ∀ p ∈ x.blocks, Typed env φ .zCCSBlock p) :
    ∃ y, (Library.load o).run env (x.save.map (Field.item φ)) = .ok (y, []) ∧ y.blocks = o.blocks ++ x.blocks.map (Option.map φ) := by
  have := Library.loads (o := o) hn h []
  rw [List.append_nil] at this
  exact ⟨_, this, rfl⟩

/-- A negative number of blocks is not a `ParserError`. -/
theorem c98_negative_violation {P} (env : Env P) (o : Library P) (n : BitVec 32) (hn : n.msb = true) (rest : List (Item P)) :
    (Library.load o).run env (.val (.int n) :: rest) = .error (.throw .lengthError) := by
  show (if (Val.int n).kind = .int then Ld.run env _ rest else _) = _
  rw [if_pos (show (Val.int n).kind = .int from rfl)]
  show Ld.run env ((if n.msb = true then Ld.fail _ else _ : Ld P (Library P))) rest = _
  rw [if_pos hn]
  rfl

/-! ### A library with two blocks, one of them with a block inside -/

def libHeap : Heap
  | 10 => some ⟨.zCCSLib, 0, .Library ⟨[some 20, some 30]⟩⟩
  | 20 => some ⟨.zCCSBlock, 0, .Block ⟨b!"B", true, some 40⟩⟩
  | 30 => some ⟨.zCCSBlock, 0, .Block ⟨b!"A", false, some 50⟩⟩
  | 40 => some ⟨.zCCSAtomicBlock, 0, .AtomicBlock ⟨some 60, false⟩⟩
  | 50 => some ⟨.zCCSBlock, 0, .Block ⟨b!"C", true, some 40⟩⟩
  | 60 => some ⟨.oCMsgConversation, 0, .ConversationMessage { text := b!"Hi", name := b!"HI.WAV" }⟩
  | _ => none

def libCalls : GHeap
  | 10 => some ⟨.zCCSLib, 0, Library.save ⟨[some 20, some 30]⟩⟩
  | 20 => some ⟨.zCCSBlock, 0, Block.save ⟨b!"B", true, some 40⟩⟩
  | 30 => some ⟨.zCCSBlock, 0, Block.save ⟨b!"A", false, some 50⟩⟩
  | 40 => some ⟨.zCCSAtomicBlock, 0, AtomicBlock.save ⟨some 60, false⟩⟩
  | 50 => some ⟨.zCCSBlock, 0, Block.save ⟨b!"C", true, some 40⟩⟩
  | 60 => some ⟨.oCMsgConversation, 0, ConversationMessage.save cycleCtx { text := b!"Hi", name := b!"HI.WAV" }⟩
  | _ => none

theorem lib_ok (pv : Bytes → Val → Prop) (q : Bytes → Prop) (hq' : ∀ t c, tableFind classNamesTable t = some c → q c)
    (hr : q refClass) (hn : q nullClass)
    (hv : ∀ a ∈ [10, 20, 30, 40, 50, 60], ∀ o, libCalls a = some o → ∀ p ∈ vals o.fields, pv p.1 p.2)
    (hp : ∀ n ∈ [b!"x", b!"%"], q n) :
    libHeap.Ok cycleCtx libCalls objRoots [10, 20, 30, 40, 50, 60] pv (fun n c _ _ => q n ∧ q c) := by
  have hcases : ∀ a n, libHeap a = some n → a ∈ [10, 20, 30, 40, 50, 60] := by
    intro a n h
    unfold libHeap at h
    split at h <;> simp_all
  have hcases' : ∀ a n, libCalls a = some n → a ∈ [10, 20, 30, 40, 50, 60] := by
    intro a n h
    unfold libCalls at h
    split at h <;> simp_all
  have r10 : Reach libCalls objRoots 10 := .root (n := b!"x") (by decide)
  have r20 : Reach libCalls objRoots 20 := .step (n := b!"%") r10 rfl (by decide +kernel)
  have r30 : Reach libCalls objRoots 30 := .step (n := b!"%") r10 rfl (by decide +kernel)
  have r40 : Reach libCalls objRoots 40 := .step (n := b!"%") r20 rfl (by decide +kernel)
  have r50 : Reach libCalls objRoots 50 := .step (n := b!"%") r30 rfl (by decide +kernel)
  have r60 : Reach libCalls objRoots 60 := .step (n := b!"%") r40 rfl (by decide +kernel)
  have hin : ∀ a, a ∈ [10, 20, 30, 40, 50, 60] → a = 10 ∨ a = 20 ∨ a = 30 ∨ a = 40 ∨ a = 50 ∨ a = 60 := by
    intro a h
    simpa using h
  constructor
  · intro a
    by_cases h : a ∈ [10, 20, 30, 40, 50, 60]
    · rcases hin a h with rfl | rfl | rfl | rfl | rfl | rfl <;> exact .inr ⟨_, _, rfl, rfl, rfl⟩
    · refine .inl ⟨?_, ?_⟩
      · cases h' : libHeap a with
        | none => rfl
        | some n => exact absurd (hcases a n h') h
      · cases h' : libCalls a with
        | none => rfl
        | some n => exact absurd (hcases' a n h') h
  · exact hcases
  · decide
  · intro a n h
    rcases hin a (hcases a n h) with rfl | rfl | rfl | rfl | rfl | rfl <;> assumption
  · intro n a h
    simp only [objRoots, List.mem_cons, Field.ptr.injEq, Option.some.injEq, List.not_mem_nil, or_false] at h
    rw [h.2]; rfl
  · intro a o h n b hb
    have hall : ∀ a ∈ [10, 20, 30, 40, 50, 60], (match libCalls a with
        | some o => o.fields.all (fun f => match f with | .ptr _ (some b) => (libHeap b).isSome | _ => true)
        | none => true) = true := by decide +kernel
    have := hall a (hcases' a o h)
    rw [h] at this
    exact List.all_eq_true.1 this _ hb
  · intro a n h
    rcases hin a (hcases a n h) with rfl | rfl | rfl | rfl | rfl | rfl <;> cases h <;> rfl
  · intro a n h
    rcases hin a (hcases a n h) with rfl | rfl | rfl | rfl | rfl | rfl <;> cases h
    · refine ⟨by unfold Fits31; decide, ?_⟩
      intro p hp a ha
      subst ha
      simp only [List.mem_cons, Option.some.injEq, List.not_mem_nil, or_false] at hp
      rcases hp with rfl | rfl <;> rfl
    · exact ⟨40, rfl, .inl rfl⟩
    · exact ⟨50, rfl, .inr rfl⟩
    · intro a ha
      cases ha
      rfl
    · exact ⟨40, rfl, .inl rfl⟩
    · trivial
  · intro a
    unfold Heap.flag
    split
    · rename_i h
      rcases hin a (hcases a _ h) with rfl | rfl | rfl | rfl | rfl | rfl <;> cases h
    · rfl
  · exact fields_ok _ hq' hr hn (fun _ h => by cases h) (fun n h => hp n (by revert n; decide))
  · intro a o h
    have hnames : ∀ a ∈ [10, 20, 30, 40, 50, 60], (match libCalls a with
        | some o => (ptrNames o.fields).all fun n => n == b!"%"
        | none => true) = true := by decide +kernel
    have hnm := hnames a (hcases' a o h)
    rw [h] at hnm
    refine fields_ok _ hq' hr hn (hv a (hcases' a o h) o h) ?_
    intro n hm
    have := List.all_eq_true.1 hnm n hm
    have : n = b!"%" := by simpa using this
    exact hp n (by rw [this]; decide)

/-- The library meets the hypotheses, for each kind of archive. -/
example : libHeap.Ok cycleCtx libCalls objRoots [10, 20, 30, 40, 50, 60] (fun _ v => Bin.OkVal v) (fun n c _ _ => NoEol n ∧ NoEol c) :=
  lib_ok _ _ (fun t c h => (classNames_ok t c h).1) (by decide) (by decide)
    (by
      intro a ha o ho
      rcases (by simpa using ha : a = 10 ∨ a = 20 ∨ a = 30 ∨ a = 40 ∨ a = 50 ∨ a = 60) with rfl | rfl | rfl | rfl | rfl | rfl <;>
        cases ho <;> decide +kernel) (by decide)

example : libHeap.Ok cycleCtx libCalls objRoots [10, 20, 30, 40, 50, 60] (fun n v => Asc.OkKey n ∧ Asc.OkVal v)
    (fun n c _ _ => Asc.OkName n ∧ Asc.OkName c) :=
  lib_ok _ _ (fun t c h => (classNames_ok t c h).2.2) (by decide) (by decide)
    (by
      intro a ha o ho
      rcases (by simpa using ha : a = 10 ∨ a = 20 ∨ a = 30 ∨ a = 40 ∨ a = 50 ∨ a = 60) with rfl | rfl | rfl | rfl | rfl | rfl <;>
        cases ho <;> decide +kernel) (by decide)

example : libHeap.mem 10 = some (.Library ⟨[some 20, some 30]⟩) ∧ none ∉ [some 20, some 30] := ⟨rfl, by decide⟩

/-- Its block `A` has the message, through the block `C`. -/
example : Says libHeap.mem 30 { text := b!"Hi", name := b!"HI.WAV" } :=
  ⟨40, ⟨some 60, false⟩, 60, .inside (a' := 50) rfl rfl rfl (.here rfl rfl rfl rfl), rfl, rfl, rfl⟩

end Verif.Props
