import Verif.Lemmas.ArchiveGraphFmt

/-! # C19: object graphs in archives -/

namespace Verif.Props

open Verif.Ar

/-- C19 for BINARY archives: any finite object graph - with shared, null and cyclic references, of any types that have a class name -
is written, and reading it gives a copy: every pointer read denotes the copy of the object it denoted when it was written. Strings and
names as in C10, less than 4 GiB, less than 2^32 objects. -/
theorem c19_binary (H : GHeap) (roots : List Field) (dom : List Nat) (S : Schema) (top : List Seen → Option Want)
    (hg : GraphOk H roots dom S (fun _ v => Bin.OkVal v) (fun n c _ _ => NoEol n ∧ NoEol c)) (htop : Follows top roots)
    (w : Bin.Wr) (hw : w.ws.pos ≤ w.ws.data.length) (post : Bytes) (tail : List Nat) :
    ∃ cs g w', writeFields (writePtr H (dom.length + 1)) roots ⟨w.index, []⟩ = .ok (cs, g) ∧ Bin.calls w cs = some w' ∧
      (w'.ws.pos - w.ws.pos < 2 ^ 32 →
        ∃ N s' heap cache φ, (∀ f1 ≥ N, ∀ f2 ≥ N,
            readFields Bin.reader (readPtr Bin.reader S f1) top f2 [] ⟨⟨w'.ws.data ++ post, w.ws.pos⟩, tail⟩ ⟨[], []⟩ =
              .ok (roots.map (Field.got φ), s', ⟨heap, cache⟩)) ∧ IsCopy H roots heap φ) := by
  obtain ⟨cs, g, w', h1, h2, h3⟩ := bin_graph H roots dom S top hg htop w hw post tail
  refine ⟨cs, g, w', h1, h2, fun hs => ?_⟩
  obtain ⟨N, s', heap, cache, φ, hN, hc, _⟩ := h3 hs
  exact ⟨N, s', heap, cache, φ, hN, hc⟩

/-- C19 for BINSAFE archives. Strings and names as in C11. -/
theorem c19_binsafe (H : GHeap) (roots : List Field) (dom : List Nat) (S : Schema) (top : List Seen → Option Want)
    (hg : GraphOk H roots dom S (fun _ v => Bs.OkVal v) (fun n c _ _ => Bs.OkName n ∧ Bs.OkName c)) (htop : Follows top roots)
    (w : Bs.Wr) (hw : w.ws.pos ≤ w.ws.data.length) (post : Bytes) :
    ∃ cs g, writeFields (writePtr H (dom.length + 1)) roots ⟨w.index, []⟩ = .ok (cs, g) ∧
      ∃ N s' heap cache φ, (∀ f1 ≥ N, ∀ f2 ≥ N,
          readFields Bs.reader (readPtr Bs.reader S f1) top f2 [] ⟨(Bs.calls w cs).ws.data ++ post, w.ws.pos⟩ ⟨[], []⟩ =
            .ok (roots.map (Field.got φ), s', ⟨heap, cache⟩)) ∧ IsCopy H roots heap φ := by
  obtain ⟨cs, g, h1, N, s', heap, cache, φ, hN, hc, _⟩ := bs_graph H roots dom S top hg htop w hw post
  exact ⟨cs, g, h1, N, s', heap, cache, φ, hN, hc⟩

/-- C19 for ASCII archives, part: names and values as in C17 (`c17_ascii_round_trip_partial` lists what is missing). -/
theorem c19_ascii_partial (H : GHeap) (roots : List Field) (dom : List Nat) (S : Schema) (top : List Seen → Option Want)
    (hg : GraphOk H roots dom S (fun n v => Asc.OkKey n ∧ Asc.OkVal v) (fun n c _ _ => Asc.OkName n ∧ Asc.OkName c))
    (htop : Follows top roots) (w : Asc.Wr) (hw : w.ws.pos = w.ws.data.length) (hi : w.indent = 0) (post : Bytes)
    (hpost : Solid post) :
    ∃ cs g, writeFields (writePtr H (dom.length + 1)) roots ⟨w.index, []⟩ = .ok (cs, g) ∧
      ∃ N s' heap cache φ, (∀ f1 ≥ N, ∀ f2 ≥ N,
          readFields Asc.reader (readPtr Asc.reader S f1) top f2 [] ⟨(Asc.calls w cs).ws.data ++ post, w.ws.pos⟩ ⟨[], []⟩ =
            .ok (roots.map (Field.got φ), s', ⟨heap, cache⟩)) ∧ IsCopy H roots heap φ := by
  obtain ⟨cs, g, h1, N, s', heap, cache, φ, hN, hc, _⟩ := asc_graph H roots dom S top hg htop w hw hi post hpost
  exact ⟨cs, g, h1, N, s', heap, cache, φ, hN, hc⟩
/-- C19, in the words of the property: two references that were read denote the same object iff they did when written. -/
theorem c19_sharing {H : GHeap} {roots : List Field} {heap : List (ObjectType × List Got)} {φ : Nat → Nat}
    (h : IsCopy H roots heap φ) (p q : Option Nat) (hp : ∀ a, p = some a → Reach H roots a)
    (hq : ∀ a, q = some a → Reach H roots a) : p.map φ = q.map φ ↔ p = q := by
  cases p with
  | none => cases q <;> simp
  | some a =>
    cases q with
    | none => simp
    | some b =>
      simp only [Option.map_some, Option.some.injEq]
      exact ⟨h.inj a b (hp a rfl) (hq b rfl), fun e => by rw [e]⟩

/-! ### A graph with a cycle, a shared object and a null pointer -/

/-- Two virtual objects pointing to each other, one of them twice. -/
def demoHeap : GHeap
  | 100 => some ⟨.zCVob, 3, [.val b!"v" (.int 5), .ptr b!"a" (some 200), .ptr b!"b" (some 200)]⟩
  | 200 => some ⟨.oCNpc, 4, [.ptr b!"c" (some 100), .ptr b!"d" none, .ptr b!"e" (some 200)]⟩
  | _ => none

def demoSchema : Schema
  | .zCVob, [] => some (.val .int)
  | .zCVob, [_] => some .ptr
  | .zCVob, [_, _] => some .ptr
  | .oCNpc, [] => some .ptr
  | .oCNpc, [_] => some .ptr
  | .oCNpc, [_, _] => some .ptr
  | _, _ => none

def demoTop : List Seen → Option Want
  | [] => some .ptr
  | [_] => some .ptr
  | _ => none

def demoRoots : List Field := [.ptr b!"x" (some 200), .ptr b!"y" (some 100)]

/-- The class names suit all archives. -/
theorem classNames_ok : ∀ t c, tableFind classNamesTable t = some c → (NoEol c ∧ Bs.OkName c ∧ Asc.OkName c) := by
  intro t
  cases t <;> decide +kernel

theorem demo_ok (pv : Bytes → Val → Prop) (q : Bytes → Prop) (hv : pv b!"v" (.int 5))
    (hq : ∀ n ∈ [b!"a", b!"b", b!"c", b!"d", b!"e", b!"x", b!"y", refClass, nullClass], q n)
    (hq' : ∀ t c, tableFind classNamesTable t = some c → q c) :
    GraphOk demoHeap demoRoots [100, 200] demoSchema pv (fun n c _ _ => q n ∧ q c) := by
  have hcases : ∀ a o, demoHeap a = some o → (a = 100 ∧ some o = demoHeap 100) ∨ (a = 200 ∧ some o = demoHeap 200) := by
    intro a o h
    unfold demoHeap at h
    split at h
    · exact .inl ⟨rfl, h.symm⟩
    · exact .inr ⟨rfl, h.symm⟩
    · cases h
  have hcls : ∀ c, c = refClass ∨ c = nullClass ∨ (∃ t, tableFind classNamesTable t = some c) → q c := by
    rintro c (rfl | rfl | ⟨t, h⟩)
    · exact hq _ (by decide)
    · exact hq _ (by decide)
    · exact hq' t c h
  refine ⟨?_, by decide, ?_, ?_, ?_, ?_, ?_, ?_⟩
  · intro a o h
    rcases hcases a o h with ⟨rfl, _⟩ | ⟨rfl, _⟩ <;> decide
  · intro n a h
    simp only [demoRoots, List.mem_cons, Field.ptr.injEq, Option.some.injEq, List.not_mem_nil, or_false] at h
    rcases h with ⟨_, rfl⟩ | ⟨_, rfl⟩ <;> rfl
  · intro a o h n b hb
    rcases hcases a o h with ⟨_, e⟩ | ⟨_, e⟩ <;> cases e <;>
      simp only [List.mem_cons, Field.ptr.injEq, Option.some.injEq, List.not_mem_nil, or_false, reduceCtorEq, false_or,
        and_false] at hb
    · rcases hb with ⟨_, rfl⟩ | ⟨_, rfl⟩ <;> rfl
    · rcases hb with ⟨_, rfl⟩ | ⟨_, rfl⟩ <;> rfl
  · intro a o h
    rcases hcases a o h with ⟨_, e⟩ | ⟨_, e⟩ <;> cases e <;> decide
  · intro a o h
    rcases hcases a o h with ⟨_, e⟩ | ⟨_, e⟩ <;> cases e <;> (unfold Follows; decide)
  · intro f hf
    simp only [demoRoots, List.mem_cons, List.not_mem_nil, or_false] at hf
    rcases hf with rfl | rfl <;> exact fun c _ _ hc => ⟨hq _ (by decide), hcls c hc⟩
  · intro a o h f hf
    rcases hcases a o h with ⟨_, e⟩ | ⟨_, e⟩ <;> cases e <;>
      simp only [List.mem_cons, List.not_mem_nil, or_false] at hf
    · rcases hf with rfl | rfl | rfl
      · exact hv
      all_goals exact fun c _ _ hc => ⟨hq _ (by decide), hcls c hc⟩
    · rcases hf with rfl | rfl | rfl <;> exact fun c _ _ hc => ⟨hq _ (by decide), hcls c hc⟩

example : GraphOk demoHeap demoRoots [100, 200] demoSchema (fun _ v => Bin.OkVal v) (fun n c _ _ => NoEol n ∧ NoEol c) :=
  demo_ok _ _ trivial (by decide) fun t c h => (classNames_ok t c h).1

example : GraphOk demoHeap demoRoots [100, 200] demoSchema (fun _ v => Bs.OkVal v) (fun n c _ _ => Bs.OkName n ∧ Bs.OkName c) :=
  demo_ok _ _ trivial (by decide) fun t c h => (classNames_ok t c h).2.1

example : GraphOk demoHeap demoRoots [100, 200] demoSchema (fun n v => Asc.OkKey n ∧ Asc.OkVal v)
    (fun n c _ _ => Asc.OkName n ∧ Asc.OkName c) :=
  demo_ok _ _ (by decide) (by decide) fun t c h => (classNames_ok t c h).2.2

example : Follows demoTop demoRoots := by unfold Follows; decide

example : (do
    let (cs, _) ← writeFields (writePtr demoHeap 3) demoRoots ⟨0, []⟩
    let (out, _, g) ← readFields Bs.reader (readPtr Bs.reader demoSchema 9) demoTop 9 []
      ⟨(Bs.calls ⟨⟨[], 0⟩, 0, []⟩ cs).ws.data, 0⟩ ⟨[], []⟩
    return (out, g.heap)) =
    Except.ok ([.ptr (some 0), .ptr (some 1)],
      [(.oCNpc, [.ptr (some 1), .ptr none, .ptr (some 0)]), (.zCVob, [.val (.int 5), .ptr (some 0), .ptr (some 0)])]) := by
  decide +kernel

/-- C19 is false when memory is reused: the writer knows objects by their address only. An object that is made at the address of
one that was written and destroyed is written as a reference to it; two objects become one. -/
theorem c19_address_reuse_violation : ∃ H1 H2 : GHeap, H1 7 ≠ H2 7 ∧ ∃ cs1 cs2 g1 g2,
    writePtr H1 2 b!"%" (some 7) ⟨0, []⟩ = .ok (cs1, g1) ∧ writePtr H2 2 b!"%" (some 7) g1 = .ok (cs2, g2) ∧
    (do
      let s : Rs := ⟨(Bs.calls ⟨⟨[], 0⟩, 0, []⟩ (cs1 ++ cs2)).ws.data, 0⟩
      let (p, s, g) ← readPtr Bs.reader (fun t l => if t = .zCVob ∧ l = [] then some (.val .int) else none) 5 s ⟨[], []⟩
      let (q, _, g) ← readPtr Bs.reader (fun t l => if t = .zCVob ∧ l = [] then some (.val .int) else none) 5 s g
      return (p, q, g.heap)) = Except.ok (some 0, some 0, [(.zCVob, [.val (.int 1)])]) := by
  refine ⟨fun a => if a = 7 then some ⟨.zCVob, 0, [.val b!"v" (.int 1)]⟩ else none,
    fun a => if a = 7 then some ⟨.zCVob, 0, [.val b!"v" (.int 2)]⟩ else none, by decide,
    [.begin b!"%" b!"zCVob" 0, .val b!"v" (.int 1), .finish], [.ref b!"%" 0], ⟨1, [(7, 0)]⟩, ⟨1, [(7, 0)]⟩, rfl, rfl, by decide +kernel⟩

/-- C19: an object of a type without a class name cannot be written; the archive is left half written. -/
theorem c19_unknown_type_violation (H : GHeap) (a : Nat) (o : GObj) (ha : H a = some o) (ht : o.type = .unknown) (n : Bytes) (w : GWr)
    (hw : w.cache.lookup a = none) (fuel : Nat) : writePtr H (fuel + 1) n (some a) w = .error (.throw .outOfRange) := by
  unfold writePtr
  rw [hw, ha]
  dsimp only
  rw [ht]
  rfl

end Verif.Props
