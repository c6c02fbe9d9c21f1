import Verif.Lemmas.ObjAny
import Verif.Props.Cutscene
import Verif.Spec.CutsceneMessage

/-! # Lemmas about messages of cutscene libraries -/

namespace Verif.Obj

open Verif.Ar

theorem innermost_of {M : Mem} {a p : Nat} (h : Contains M a p) : ∃ N, ∀ fuel ≥ N, innermost M fuel a = .ok (.at (some p)) := by
  induction h with
  | @here a p b x h1 h2 h3 h4 =>
    refine ⟨1, fun fuel hf => ?_⟩
    obtain ⟨k, rfl⟩ : ∃ k, fuel = k + 1 := ⟨fuel - 1, by omega⟩
    simp [innermost, h1, h2, h3]
  | @inside a a' p b h1 h2 h3 _ ih =>
    obtain ⟨N, ih⟩ := ih
    refine ⟨N + 1, fun fuel hf => ?_⟩
    obtain ⟨k, rfl⟩ : ∃ k, fuel = k + 1 := ⟨fuel - 1, by omega⟩
    simp only [innermost, h1, h2, h3, Bool.false_eq_true, if_false]
    exact ih k (by omega)

theorem Contains.atomic {M : Mem} {a p : Nat} (h : Contains M a p) : ∃ x, M.atomic p = some x := by
  induction h with
  | here _ _ _ h => exact ⟨_, h⟩
  | inside _ _ _ _ ih => exact ih

/-- Changing the message of an atomic block leaves the blocks as they are. -/
theorem block_update {M : Mem} {p : Nat} {x y : AtomicBlock Nat} (h : M.atomic p = some x) (a : Nat) :
    Mem.block (fun q => if q = p then some (.AtomicBlock y) else M q) a = M.block a := by
  unfold Mem.block
  by_cases e : a = p
  · subst e
    simp only [if_true]
    unfold Mem.atomic at h
    split at h
    · rename_i h'
      rw [h']
    · cases h
  · simp only [e, if_false]

theorem atomic_update {M : Mem} {p : Nat} {y : AtomicBlock Nat} (q : Nat) :
    Mem.atomic (fun q => if q = p then some (.AtomicBlock y) else M q) q = if q = p then some y else M.atomic q := by
  unfold Mem.atomic
  by_cases e : q = p
  · simp [e]
  · simp [e]

theorem Contains.update {M : Mem} {p : Nat} {x y : AtomicBlock Nat} (h : M.atomic p = some x) {a q : Nat} (hc : Contains M a q) :
    Contains (fun q => if q = p then some (.AtomicBlock y) else M q) a q := by
  induction hc with
  | @here a r b z h1 h2 h3 h4 =>
    by_cases e : r = p
    · exact .here (x := y) ((block_update h a).trans h1) h2 h3 (by rw [atomic_update, if_pos e])
    · exact .here (x := z) ((block_update h a).trans h1) h2 h3 (by rw [atomic_update, if_neg e]; exact h4)
  | @inside a a' r b h1 h2 h3 _ ih => exact .inside ((block_update h a).trans h1) h2 h3 ih

theorem getMessage_of {M : Mem} {a p : Nat} {x : AtomicBlock Nat} (h : Contains M a p) (hx : M.atomic p = some x) :
    ∃ N, ∀ fuel ≥ N, getMessage M fuel a = .ok x.message := by
  obtain ⟨N, hN⟩ := innermost_of h
  refine ⟨N, fun fuel hf => ?_⟩
  unfold getMessage
  rw [hN fuel hf]
  show (match M.atomic p with | some x => _ | none => _) = _
  rw [hx]
  rfl

theorem setMessage_of {M : Mem} {a p : Nat} {x : AtomicBlock Nat} (h : Contains M a p) (hx : M.atomic p = some x) (msg : Option Nat) :
    ∃ N, ∀ fuel ≥ N, setMessage M fuel a msg =
      .ok fun q => if q = p then some (.AtomicBlock { x with message := msg }) else M q := by
  obtain ⟨N, hN⟩ := innermost_of h
  refine ⟨N, fun fuel hf => ?_⟩
  unfold setMessage
  rw [hN fuel hf]
  show (match M.atomic p with | some x => _ | none => _) = _
  rw [hx]
  rfl

/-! ### Libraries -/

theorem mapM_entry {M : Mem} {l : List Nat} (f : Nat → CsBlock) (h : ∀ a ∈ l, M.entry (some a) = .ok (some (f a))) :
    (l.map some).mapM M.entry = .ok ((l.map f).map some) := by
  induction l with
  | nil => rfl
  | cons a l ih =>
    rw [List.map_cons, List.mapM_cons, h a (List.mem_cons_self ..), ih fun b hb => h b (List.mem_cons_of_mem _ hb)]
    rfl

/-- Sorting a library of blocks that are there, and looking for a name in it. -/
theorem library_lookup {M : Mem} {l : List Nat} {f : Nat → Block Nat} (h : ∀ a ∈ l, M.block a = some (f a)) :
    ∃ l' : List Nat, Library.sort M ⟨l.map some⟩ = .ok ⟨l'.map some⟩ ∧ l'.Perm l ∧
      ∀ a ∈ l, ∃ a' ∈ l, (f a').name = (f a).name ∧ Library.blockByName M ⟨l'.map some⟩ (f a).name = .ok (some a') := by
  have he : ∀ a ∈ l, M.entry (some a) = .ok (some ⟨(f a).name, a⟩) := by
    intro a ha
    simp only [Mem.entry, h a ha]
  obtain ⟨out, h1, h2, h3⟩ := Props.c51_load_sorts (l.map fun a => ⟨(f a).name, a⟩)
  refine ⟨out.map CsBlock.val, ?_, ?_, ?_⟩
  · unfold Library.sort
    dsimp only
    rw [mapM_entry _ he]
    show (sortBlocks _ >>= _) = _
    rw [h1]
    show Except.ok _ = _
    simp only [List.map_map]
    rfl
  · have := h3.map CsBlock.val
    rwa [List.map_map, show CsBlock.val ∘ (fun a => (⟨(f a).name, a⟩ : CsBlock)) = id from rfl, List.map_id] at this
  · have hout : ∀ c ∈ out, c.val ∈ l ∧ c = ⟨(f c.val).name, c.val⟩ := by
      intro c hc
      obtain ⟨a, ha, rfl⟩ := List.mem_map.1 (h3.mem_iff.1 hc)
      exact ⟨ha, rfl⟩
    intro a ha
    obtain ⟨c, hc, hn, hl⟩ := Props.c51_partial out h2 (f a).name
      ⟨_, h3.mem_iff.2 (List.mem_map.2 ⟨a, ha, rfl⟩), rfl⟩
    obtain ⟨hv, hc'⟩ := hout c hc
    refine ⟨c.val, hv, by rw [← hn]; exact (congrArg CsBlock.name hc').symm, ?_⟩
    unfold Library.blockByName
    dsimp only
    rw [mapM_entry (fun a => ⟨(f a).name, a⟩) (fun a ha => by
      obtain ⟨c, hc, rfl⟩ := List.mem_map.1 ha
      exact he _ (hout c hc).1)]
    have e : (out.map CsBlock.val).map (fun a => (⟨(f a).name, a⟩ : CsBlock)) = out := by
      rw [List.map_map]
      conv => rhs; rw [← List.map_id out]
      exact List.map_congr_left fun c hc => (hout c hc).2.symm
    rw [e]
    show (Verif.blockByName _ _ >>= _) = _
    rw [hl]
    rfl

/-! ### What was loaded -/

section
variable {c : Ctx} {T : Heap} {H : GHeap} {roots : List Field} {dom : List Nat} {pv : Bytes → Val → Prop}
  {po : Bytes → Bytes → BitVec 16 → BitVec 32 → Prop} {heap : List (ObjectType × List Got)} {φ : Nat → Nat}

theorem memOf_restored (hr : Restored c T heap φ) {a : Nat} {n : Node} (ha : T a = some n) :
    memOf c (readEnv heap) heap (φ a) = some (n.obj.copy c (readEnv heap) φ) := by
  obtain ⟨k, gs, h1, h2, h3⟩ := hr a n ha
  unfold memOf
  simp only [h1, h2]
  have e : gs.map itemOf = gs.map Got.item :=
    List.map_congr_left fun g _ => by cases g <;> rfl
  rw [e, h3]

theorem readEnv_is (hr : Restored c T heap φ) {a : Nat} {n : Node} (ha : T a = some n) (t : ObjectType) :
    (readEnv heap).is t (φ a) = decide (n.type = t) := by
  obtain ⟨k, gs, h1, h2, h3⟩ := hr a n ha
  simp only [readEnv, Env.of, h1]

/-- The copy of a block. -/
theorem block_restored (hr : Restored c T heap φ) {a : Nat} {b : Block Nat} (h : T.mem.block a = some b) :
    Mem.block (memOf c (readEnv heap) heap) (φ a) = some (b.copy (readEnv heap) φ) := by
  unfold Mem.block Heap.mem at h
  cases hT : T a with
  | none => rw [hT] at h; cases h
  | some n =>
    rw [hT] at h
    unfold Mem.block
    rw [memOf_restored hr hT]
    obtain ⟨t, v, o⟩ := n
    cases o <;> first
      | (cases h; done)
      | (cases h; rfl)

theorem atomic_restored (hr : Restored c T heap φ) {a : Nat} {b : AtomicBlock Nat} (h : T.mem.atomic a = some b) :
    Mem.atomic (memOf c (readEnv heap) heap) (φ a) = some (b.copy φ {}) := by
  unfold Mem.atomic Heap.mem at h
  cases hT : T a with
  | none => rw [hT] at h; cases h
  | some n =>
    rw [hT] at h
    unfold Mem.atomic
    rw [memOf_restored hr hT]
    obtain ⟨t, v, o⟩ := n
    cases o <;> first
      | (cases h; done)
      | (cases h; rfl)

theorem clsOf_atomic {t : ObjectType} : clsOf t = some .AtomicBlock ↔ t = .zCCSAtomicBlock := by
  constructor
  · intro h
    cases t <;> first | rfl | cases h
  · rintro rfl; rfl

theorem contains_restored (hg : T.Ok c H roots dom pv po) (hr : Restored c T heap φ) {a p : Nat} (h : Contains T.mem a p) :
    Contains (memOf c (readEnv heap) heap) (φ a) (φ p) := by
  have key : ∀ q n, T q = some n → ((readEnv heap).is .zCCSAtomicBlock (φ q) = true ↔ n.obj.cls = .AtomicBlock) := by
    intro q n hq
    rw [readEnv_is hr hq, decide_eq_true_eq, ← clsOf_atomic, hg.types q n hq, Option.some.injEq]
  induction h with
  | @here a p b x h1 h2 h3 h4 =>
    refine .here (x := x.copy φ {}) (block_restored hr h1) ?_ (by simp [Block.copy, h3]) (atomic_restored hr h4)
    simp only [Block.copy, h3]
    unfold Mem.atomic Heap.mem at h4
    cases hT : T p with
    | none => rw [hT] at h4; cases h4
    | some n =>
      rw [hT] at h4
      refine (key p n hT).2 ?_
      obtain ⟨t, v, o⟩ := n
      cases o <;> first
        | (cases h4; done)
        | rfl
  | @inside a a' p b h1 h2 h3 hc ih =>
    refine .inside (block_restored hr h1) ?_ (by simp [Block.copy, h3]) ih
    simp only [Block.copy, h3]
    have hb : ∃ b', T.mem.block a' = some b' := by
      cases hc with
      | here h _ _ _ => exact ⟨_, h⟩
      | inside h _ _ _ => exact ⟨_, h⟩
    obtain ⟨b', hb⟩ := hb
    unfold Mem.block Heap.mem at hb
    cases hT : T a' with
    | none => rw [hT] at hb; cases hb
    | some n =>
      rw [hT] at hb
      rw [Bool.eq_false_iff]
      intro ht
      have ht := (key a' n hT).1 ht
      obtain ⟨t, v, o⟩ := n
      cases o <;> first
        | (cases hb; done)
        | cases ht

/-- What the application asks a library that was loaded. -/
theorem library_restored (hg : T.Ok c H roots dom pv po) (hr : Restored c T heap φ) {l : Nat} {x : Library Nat} (hl : T.mem l = some (.Library x))
    (hnull : none ∉ x.blocks) :
    ∃ y y', memOf c (readEnv heap) heap (φ l) = some (.Library y) ∧ y.sort (memOf c (readEnv heap) heap) = .ok y' ∧
      y'.blocks.Perm (x.blocks.map (Option.map φ)) ∧
      ∀ n a, x.Has T.mem n a → ∃ a', x.Has T.mem n a' ∧ y'.blockByName (memOf c (readEnv heap) heap) n = .ok (some (φ a')) ∧
        ∀ m, Says T.mem a' m → y'.Answers (memOf c (readEnv heap) heap) n m := by
  obtain ⟨nd, hT, hnd⟩ : ∃ nd, T l = some nd ∧ nd.obj = .Library x := by
    unfold Heap.mem at hl
    cases hT : T l with
    | none => rw [hT] at hl; cases hl
    | some nd => rw [hT] at hl; exact ⟨nd, rfl, by simpa using hl⟩
  have hmem := memOf_restored hr hT
  rw [hnd] at hmem
  obtain ⟨as, has⟩ : ∃ as : List Nat, x.blocks = as.map some := by
    clear hl hnd hmem
    generalize x.blocks = l at hnull
    induction l with
    | nil => exact ⟨[], rfl⟩
    | cons p l ih =>
      cases p with
      | none => exact absurd (List.mem_cons_self ..) hnull
      | some a =>
        obtain ⟨as, rfl⟩ := ih fun h => hnull (List.mem_cons_of_mem _ h)
        exact ⟨a :: as, rfl⟩
  have hread := hg.readable l nd hT
  rw [hnd] at hread
  have hb : ∀ a ∈ as, ∃ b, T.mem.block a = some b := by
    intro a ha
    have ht := hread.2 (some a) (by rw [has]; exact List.mem_map_of_mem ha) a rfl
    simp only [Heap.env, id] at ht
    unfold Mem.block Heap.mem
    cases hTa : T a with
    | none => rw [hTa] at ht; cases ht
    | some n =>
      rw [hTa] at ht
      have h1 := hg.types a n hTa
      obtain ⟨t, v, o⟩ := n
      have ht : t = .zCCSBlock := by simpa using ht
      subst ht
      have h1 : o.cls = .Block := (Option.some.inj h1).symm
      cases o <;> first
        | (cases h1; done)
        | exact ⟨_, rfl⟩
  let f : Nat → Block Nat := fun a => (Mem.block (memOf c (readEnv heap) heap) a).getD {}
  have hf : ∀ a b, T.mem.block a = some b → f (φ a) = b.copy (readEnv heap) φ := by
    intro a b h
    show (Mem.block _ (φ a)).getD {} = _
    rw [block_restored hr h]
    rfl
  obtain ⟨l', s1, s2, s3⟩ := library_lookup (M := memOf c (readEnv heap) heap) (l := as.map φ) (f := f) (by
    intro k hk
    obtain ⟨a, ha, rfl⟩ := List.mem_map.1 hk
    obtain ⟨b, hb⟩ := hb a ha
    rw [block_restored hr hb, hf a b hb])
  have hy : x.copy φ {} = ⟨(as.map φ).map some⟩ := by
    simp [Library.copy, has, Function.comp_def]
  refine ⟨x.copy φ {}, ⟨l'.map some⟩, hmem, by rw [hy]; exact s1, ?_, ?_⟩
  · have := s2.map some
    rw [has]
    simpa [Function.comp_def] using this
  · rintro n a ⟨ha, b, hb1, rfl⟩
    rw [has] at ha
    have ha : a ∈ as := by simpa using ha
    obtain ⟨a2, ha2, hn, hq⟩ := s3 (φ a) (List.mem_map_of_mem ha)
    obtain ⟨a', ha', rfl⟩ := List.mem_map.1 ha2
    obtain ⟨b', hb'⟩ := hb a' ha'
    rw [hf a b hb1, hf a' b' hb'] at hn
    rw [hf a b hb1] at hq
    refine ⟨a', ⟨by rw [has]; exact List.mem_map_of_mem ha', b', hb', hn⟩, hq, ?_⟩
    rintro m ⟨p, z, q, h1, h2, h3, h4⟩
    obtain ⟨N, hN⟩ := getMessage_of (contains_restored hg hr h1) (atomic_restored hr h2)
    refine ⟨φ a', hq, N, fun fuel hfu => ⟨φ q, m.copy c (readEnv heap) φ {}, ?_, ?_, rfl, rfl, rfl⟩⟩
    · rw [hN fuel hfu]
      simp [AtomicBlock.copy, h3]
    · unfold Heap.mem at h4
      cases hTq : T q with
      | none => rw [hTq] at h4; cases h4
      | some nq =>
        rw [hTq] at h4
        have h4 : nq.obj = .ConversationMessage m := by simpa using h4
        rw [memOf_restored hr hTq, h4]
        rfl

theorem library_kept (hg : T.Ok c H roots dom pv po) (hr : Restored c T heap φ) {l : Nat} {x : Library Nat}
    (hl : T.mem l = some (.Library x)) (hnull : none ∉ x.blocks) :
    x.Kept T.mem (memOf c (readEnv heap) heap) (φ l) φ := by
  obtain ⟨y, y', h1, h2, h3, h4⟩ := library_restored hg hr hl hnull
  refine ⟨y, y', h1, h2, h3, ?_, ?_⟩
  · intro n a h
    obtain ⟨a', h5, h6, _⟩ := h4 n a h
    exact ⟨a', h5, h6⟩
  · intro n a m h hu hs
    obtain ⟨a', h5, _, h7⟩ := h4 n a h
    rw [hu a' h5] at h7
    exact h7 m hs

end

end Verif.Obj
