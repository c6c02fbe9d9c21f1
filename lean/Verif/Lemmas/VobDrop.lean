import Verif.Spec.VobDrop
import Verif.Lemmas.DocFmt
import Verif.Lemmas.WayNetGraph

/-! # Loading trees in which objects cannot be loaded -/

namespace Verif.VobTree

open Ar

theorem Stored.count_prune (f : Stored) : f.prune.count ≤ f.count := by
  induction f with
  | nil => exact Nat.le_refl _
  | cons it cn k r _ ihr =>
    simp only [prune]
    split
    · simp only [count]; omega
    · simp only [count]; omega

theorem Stored.size_prune (f : Stored) : f.prune.size ≤ f.size := by
  induction f with
  | nil => exact Nat.le_refl _
  | cons it cn k r ihk ihr =>
    simp only [prune]
    split
    · simp only [size]; omega
    · simp only [size]; omega

theorem Stored.count_size (f : Stored) : f.count ≤ f.size := by
  induction f with
  | nil => exact Nat.le_refl _
  | cons it cn k r ihk ihr => simp only [count, size]; omega

theorem toNat_small {n : Nat} (h : n < 2 ^ 31) : (BitVec.ofNat 32 n).toNat = n := by simp; omega

theorem toInt_small {n : Nat} (h : n < 2 ^ 31) : ¬ (BitVec.ofNat 32 n).toInt < 0 := by
  rw [BitVec.toInt_eq_toNat_cond, toNat_small h, if_pos (by omega)]
  omega

theorem skipCount_small {n : Nat} (h : n < 2 ^ 31) : skipCount (BitVec.ofNat 32 n) = some n := by
  rw [skipCount, if_neg (toInt_small h), toNat_small h]

theorem readInt_doc (n : Bytes) (v : BitVec 32) (rest : Doc) (L : List Doc) :
    readInt docReader (.val n (.int v) rest :: L) = .ok (v, rest :: L) := rfl

theorem Item.skip (it : Item) (rest : Doc) (L : List Doc) : docReader.skipObj false (it.doc rest :: L) = .ok ((), rest :: L) := by
  cases it <;> rfl

theorem skipAll_doc (f : Stored) : ∀ (e : Doc) (L : List Doc) (fuel : Nat), 2 * f.size < fuel → f.size < 2 ^ 31 →
    skipAll docReader fuel (some f.count) (f.doc e :: L) = .ok (e :: L) := by
  induction f with
  | nil =>
    intro e L fuel h _
    obtain ⟨fuel, rfl⟩ : ∃ k, fuel = k + 1 := ⟨fuel - 1, by omega⟩
    rfl
  | cons it cn k r ihk ihr =>
    intro e L fuel h hs
    simp only [Stored.size] at h hs
    obtain ⟨fuel, rfl⟩ : ∃ k, fuel = k + 1 := ⟨fuel - 1, by omega⟩
    have hk := k.count_size
    rw [skipAll, if_neg (by simp [Stored.count])]
    simp only [Stored.doc, Item.skip, bind, Except.bind]
    rw [readInt_doc]
    simp only
    rw [skipCount_small (by omega), ihk _ _ _ (by omega) (by omega)]
    simp only [Stored.count, Option.map_some, Nat.add_sub_cancel]
    exact ihr _ _ _ (by omega) (by omega)

theorem Item.frame (S : Schema) (pf : Nat) (it : Item) (rest : Doc) (L : List Doc) (g : GRd) (p : Option Nat) (L1 : List Doc) (g' : GRd)
    (h : readPtr docReader S pf (it.doc rest :: L) g = .ok (p, L1, g')) : L1 = rest :: L ∧
      ∀ rest' L', readPtr docReader S pf (it.doc rest' :: L') g = .ok (p, rest' :: L', g') := by
  cases it with
  | obj n c ver ix ch => exact (readPtr_local S pf).2.1 n c ver ix ch rest L g p L1 g' h
  | ref n ix => exact (readPtr_local S pf).2.2 n ix rest L g p L1 g' h

theorem Item.lost (S : Schema) (pf : Nat) (it : Item) (hl : it.Lost) (rest : Doc) (L : List Doc) (g : GRd) :
    readPtr docReader S (pf + 1) (it.doc rest :: L) g = .ok (none, rest :: L, g) := by
  cases it with
  | ref n ix => cases hl
  | obj n c ver ix ch =>
    obtain ⟨h1, h2⟩ := hl
    unfold readPtr
    have hb : docReader.objBegin (Item.doc (.obj n c ver ix ch) rest :: L) = .ok (some ⟨n, c, ver, ix⟩, ch :: rest :: L) := rfl
    rw [hb]
    simp only [bind, Except.bind]
    rw [if_neg h1]
    by_cases h3 : c = nullClass
    · rw [if_pos h3]; rfl
    · rw [if_neg h3]
      rcases h2 with h2 | h2
      · exact absurd h2 h3
      · rw [h2]
        dsimp only
        rw [endOrSkip_doc]
        rfl

/-- One object with its tree; `hk` is about its children. -/
theorem parse_prune {S : Schema} {pf : Nat} {it : Item} {cn : Bytes} {k : Stored} {e e' : Doc} {L L1 : List Doc} {fuel fuel' : Nat}
    {g g' : GRd} {K K' : Pushes} {p : Option Nat} (hf : 2 * k.size < fuel) (hf' : 2 * k.size < fuel') (hs : k.size < 2 ^ 31)
    (hk : ∀ n g, parseAll docReader S pf n fuel k.prune.count (k.prune.doc e :: L) g K = .ok (L1, g', K') →
      L1 = e :: L ∧ parseAll docReader S pf n fuel' k.count (k.doc e' :: L) g K = .ok (e' :: L, g', K'))
    (h : parse docReader S pf (fuel + 1) (it.doc (.val cn (.int (BitVec.ofNat 32 k.prune.count)) (k.prune.doc e)) :: L) g K =
      .ok (p, L1, g', K')) :
    L1 = e :: L ∧ parse docReader S pf (fuel' + 1) (it.doc (.val cn (.int (BitVec.ofNat 32 k.count)) (k.doc e')) :: L) g K =
      .ok (p, e' :: L, g', K') := by
  have hc := k.count_size
  have hc' := k.prune.count_size
  have hsz := k.size_prune
  rw [parse] at h ⊢
  obtain ⟨⟨q, L2, g2⟩, h1, h2⟩ := except_bind_ok h
  obtain ⟨rfl, h3⟩ := Item.frame S pf it _ L g q L2 g2 h1
  rw [h3]
  simp only [bind, Except.bind, readInt_doc] at h2 ⊢
  generalize Option.filter (fun n => (g2.heap[n]?).any fun o => o.1.isVobject) q = q' at h2 ⊢
  cases q' with
  | none =>
    simp only [skipCount_small (n := k.prune.count) (by omega), skipCount_small (n := k.count) (by omega)] at h2 ⊢
    rw [skipAll_doc k.prune e L fuel (by omega) (by omega)] at h2
    rw [skipAll_doc k e' L fuel' (by omega) (by omega)]
    cases h2
    exact ⟨rfl, rfl⟩
  | some n =>
    simp only [reserve, if_neg (toInt_small (n := k.prune.count) (by omega)), if_neg (toInt_small (n := k.count) (by omega)),
      toNat_small (n := k.prune.count) (by omega), toNat_small (n := k.count) (by omega)] at h2 ⊢
    cases hp : parseAll docReader S pf n fuel k.prune.count (k.prune.doc e :: L) g2 K with
    | error x => rw [hp] at h2; cases h2
    | ok x =>
      obtain ⟨L3, g3, K3⟩ := x
      rw [hp] at h2
      cases h2
      obtain ⟨a, b⟩ := hk n g2 hp
      rw [b]
      exact ⟨a, rfl⟩

theorem parseAll_prune (S : Schema) (pf : Nat) (f : Stored) : ∀ (e e' : Doc) (L L1 : List Doc) (parent fuel fuel' : Nat) (g g' : GRd)
    (K K' : Pushes), 2 * f.size < fuel → 2 * f.size < fuel' → f.size < 2 ^ 31 →
    parseAll docReader S (pf + 1) parent fuel f.prune.count (f.prune.doc e :: L) g K = .ok (L1, g', K') →
      L1 = e :: L ∧ parseAll docReader S (pf + 1) parent fuel' f.count (f.doc e' :: L) g K = .ok (e' :: L, g', K') := by
  induction f with
  | nil =>
    intro e e' L L1 parent fuel fuel' g g' K K' hf hf' hs h
    obtain ⟨fuel, rfl⟩ : ∃ k, fuel = k + 1 := ⟨fuel - 1, by omega⟩
    obtain ⟨fuel', rfl⟩ : ∃ k, fuel' = k + 1 := ⟨fuel' - 1, by omega⟩
    cases h
    exact ⟨rfl, rfl⟩
  | cons it cn k r ihk ihr =>
    intro e e' L L1 parent fuel fuel' g g' K K' hf hf' hs h
    simp only [Stored.size] at hf hf' hs
    obtain ⟨fuel', rfl⟩ : ∃ k, fuel' = k + 2 := ⟨fuel' - 2, by omega⟩
    have hck := k.count_size
    simp only [Stored.prune] at h
    by_cases hl : it.Lost
    · rw [if_pos hl] at h
      obtain ⟨a, b⟩ := ihr e e' L L1 parent fuel (fuel' + 1) g g' K K' (by omega) (by omega) (by omega) h
      refine ⟨a, ?_⟩
      simp only [Stored.count, Stored.doc]
      rw [parseAll, parse, Item.lost S pf it hl]
      simp only [bind, Except.bind, readInt_doc, Option.filter, skipCount_small (n := k.count) (by omega)]
      rw [skipAll_doc k _ L fuel' (by omega) (by omega)]
      exact b
    · rw [if_neg hl] at h
      obtain ⟨fuel, rfl⟩ : ∃ k, fuel = k + 2 := ⟨fuel - 2, by omega⟩
      simp only [Stored.count, Stored.doc] at h ⊢
      rw [parseAll] at h ⊢
      obtain ⟨⟨p, L2, g2, K2⟩, h1, h2⟩ := except_bind_ok h
      obtain ⟨rfl, hp⟩ := parse_prune (fuel := fuel) (fuel' := fuel') (k := k) (e := r.prune.doc e) (e' := r.doc e') (by omega)
        (by omega) (by omega)
        (fun n g h => ihk _ (r.doc e') L L2 n fuel fuel' g g2 K K2 (by omega) (by omega) (by omega) h) h1
      rw [hp]
      exact ihr e e' L L1 parent (fuel + 1) (fuel' + 1) g2 g' _ K' (by omega) (by omega) (by omega) h2

/-- A whole tree. -/
theorem tree_prune (S : Schema) (pf : Nat) (it : Item) (cn : Bytes) (k : Stored) (hs : k.size < 2 ^ 31) (e : Doc) (L L1 : List Doc)
    (fuel : Nat) (hf : 2 * k.size + 1 < fuel) (g g' : GRd) (K K' : Pushes) (p : Option Nat)
    (h : parse docReader S (pf + 1) fuel ((Stored.cons it cn k.prune .nil).doc e :: L) g K = .ok (p, L1, g', K')) :
    L1 = e :: L ∧ parse docReader S (pf + 1) fuel ((Stored.cons it cn k .nil).doc e :: L) g K = .ok (p, e :: L, g', K') := by
  obtain ⟨fuel, rfl⟩ : ∃ k, fuel = k + 1 := ⟨fuel - 1, by omega⟩
  simp only [Stored.doc] at h ⊢
  exact parse_prune (by omega) (by omega) hs
    (fun n g h => parseAll_prune S pf k e e L L1 n fuel fuel g g' K K' (by omega) (by omega) hs h) h

/-! ## Other readers -/

section
variable {σ : Type} {r : Reader σ} (M : Refines r)

theorem refines_readInt {L L' : List Doc} {s : σ} {v : BitVec 32} (h : readInt docReader L = .ok (v, L')) (hR : M.R L s) :
    ∃ s', readInt r s = .ok (v, s') ∧ M.R L' s' := by
  unfold readInt at h ⊢
  obtain ⟨⟨x, L1⟩, h1, h2⟩ := except_bind_ok h
  obtain ⟨s1, e1, r1⟩ := M.val _ _ _ _ _ h1 hR
  rw [e1]
  cases x <;> first | cases h2 | skip
  exact ⟨s1, rfl, r1⟩

theorem refines_skipAll (fuel : Nat) : ∀ (c : Option Nat) (L L' : List Doc) (s : σ), skipAll docReader fuel c L = .ok L' → M.R L s →
    ∃ s', skipAll r fuel c s = .ok s' ∧ M.R L' s' := by
  induction fuel with
  | zero => intro c L L' s h; cases h
  | succ fuel ih =>
    intro c L L' s h hR
    rw [skipAll] at h ⊢
    by_cases hc : c = some 0
    · rw [if_pos hc] at h ⊢
      cases h
      exact ⟨s, rfl, hR⟩
    · rw [if_neg hc] at h ⊢
      obtain ⟨⟨_, L1⟩, h1, h2⟩ := except_bind_ok h
      obtain ⟨s1, e1, r1⟩ := M.skipObj _ _ _ _ _ h1 hR
      obtain ⟨⟨n, L2⟩, h3, h4⟩ := except_bind_ok h2
      obtain ⟨s2, e2, r2⟩ := refines_readInt M h3 r1
      obtain ⟨L3, h5, h6⟩ := except_bind_ok h4
      obtain ⟨s3, e3, r3⟩ := ih _ _ _ _ h5 r2
      obtain ⟨s4, e4, r4⟩ := ih _ _ _ _ h6 r3
      refine ⟨s4, ?_, r4⟩
      rw [e1]
      simp only [bind, Except.bind]
      rw [e2]
      simp only
      rw [e3]
      exact e4

theorem refines_parse (S : Schema) (pf fuel : Nat) :
    (∀ L s g K p L' g' K', parse docReader S pf fuel L g K = .ok (p, L', g', K') → M.R L s →
      ∃ s', parse r S pf fuel s g K = .ok (p, s', g', K') ∧ M.R L' s') ∧
    (∀ parent c L s g K L' g' K', parseAll docReader S pf parent fuel c L g K = .ok (L', g', K') → M.R L s →
      ∃ s', parseAll r S pf parent fuel c s g K = .ok (s', g', K') ∧ M.R L' s') := by
  induction fuel with
  | zero =>
    refine ⟨?_, ?_⟩
    · intro L s g K p L' g' K' h; cases h
    · intro parent c L s g K L' g' K' h; cases h
  | succ fuel ih =>
    refine ⟨?_, ?_⟩
    · intro L s g K p L' g' K' h hR
      rw [parse] at h ⊢
      obtain ⟨⟨q, L1, g1⟩, h1, h2⟩ := except_bind_ok h
      obtain ⟨s1, e1, r1⟩ := M.readPtr S pf _ _ _ _ _ _ h1 hR
      rw [e1]
      obtain ⟨⟨c, L2⟩, h3, h4⟩ := except_bind_ok h2
      obtain ⟨s2, e2, r2⟩ := refines_readInt M h3 r1
      simp only [bind, Except.bind]
      rw [e2]
      simp only
      generalize Option.filter (fun n => (g1.heap[n]?).any fun o => o.1.isVobject) q = q' at h4 ⊢
      cases q' with
      | none =>
        obtain ⟨L3, h5, h6⟩ := except_bind_ok h4
        obtain ⟨s3, e3, r3⟩ := refines_skipAll M _ _ _ _ _ h5 r2
        cases h6
        simp only
        rw [e3]
        exact ⟨s3, rfl, r3⟩
      | some n =>
        obtain ⟨c', h5, h6⟩ := except_bind_ok h4
        obtain ⟨⟨L3, g3, K3⟩, h7, h8⟩ := except_bind_ok h6
        obtain ⟨s3, e3, r3⟩ := ih.2 _ _ _ _ _ _ _ _ _ h7 r2
        cases h8
        simp only
        rw [h5]
        simp only
        rw [e3]
        exact ⟨s3, rfl, r3⟩
    · intro parent c L s g K L' g' K' h hR
      cases c with
      | zero => cases h; exact ⟨s, rfl, hR⟩
      | succ c =>
        rw [parseAll] at h ⊢
        obtain ⟨⟨p, L1, g1, K1⟩, h1, h2⟩ := except_bind_ok h
        obtain ⟨s1, e1, r1⟩ := ih.1 _ _ _ _ _ _ _ _ h1 hR
        rw [e1]
        exact ih.2 _ _ _ _ _ _ _ _ _ h2 r1

end

end Verif.VobTree
