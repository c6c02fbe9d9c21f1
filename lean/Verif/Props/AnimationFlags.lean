import Verif.Lemmas.AnimationFlags

/-! # C122: flags of animations -/

namespace Verif.Props

open Spec Mds Mds.Flags

/-- **C122** — an animation has a flag if the letter of the flag is in the text, wherever and however often. -/
theorem c122_letter (s : Bytes) (x : AniFlag) : test (flagsOf s) x.value = true ↔ x.letter ∈ s := by
  have := aniFold_test x s 0
  have z : test 0 x.value = false := by cases x <;> decide
  rw [z, Bool.false_or] at this
  show test (s.foldl aniStep 0) x.value = true ↔ _
  rw [this, decide_eq_true_iff]

/-- **C122** — and nothing else is set. -/
theorem c122_only (s : Bytes) : flagsOf s < 64 := aniFold_low s 0 (by decide)

/-- **C122** — texts with the same letters give the same flags: order, repetition and other characters do not matter. -/
theorem c122_same (s t : Bytes) (h : ∀ x : AniFlag, x.letter ∈ s ↔ x.letter ∈ t) : flagsOf s = flagsOf t := by
  refine flags_ext _ _ (c122_only s) (c122_only t) fun x _ => ?_
  rw [Bool.eq_iff_iff, c122_letter, c122_letter]
  exact h x

/-- `RM.M` and `MR` -/
example : flagsOf [82, 77, 46, 77] = flagsOf [77, 82] := c122_same _ _ (by intro x; cases x <;> simp [AniFlag.letter])
example : flagsOf [82, 77, 46, 77] = 3 := by decide

/-- **C122** — the flags of two texts, combined, are those of the texts one after the other. -/
theorem c122_append (s t : Bytes) : flagsOf (s ++ t) = union (flagsOf s) (flagsOf t) := by
  have low : ∀ a b : BitVec 8, a < 64 → b < 64 → a ||| b < 64 := by
    intro a b ha hb
    have ha' : a.toNat < 2 ^ 6 := by simpa [BitVec.lt_def] using ha
    have hb' : b.toNat < 2 ^ 6 := by simpa [BitVec.lt_def] using hb
    rw [BitVec.lt_def, BitVec.toNat_or]
    exact Nat.or_lt_two_pow ha' hb'
  refine flags_ext _ _ (c122_only _) (low _ _ (c122_only s) (c122_only t)) fun x _ => ?_
  rw [union, test_or, Bool.eq_iff_iff, Bool.or_eq_true, c122_letter, c122_letter, c122_letter, List.mem_append]

/-- **C122** — `a & b` is true if a bit is set in both. -/
theorem c122_test (a b : BitVec 8) : test a b = true ↔ ∃ i < 8, a.getLsbD i = true ∧ b.getLsbD i = true := by
  rw [test, bne_iff_ne]
  constructor
  · intro h
    by_contra hn
    apply h
    apply BitVec.eq_of_getLsbD_eq
    intro i hi
    have := fun ha hb => hn ⟨i, hi, ha, hb⟩
    rw [BitVec.getLsbD_and]
    cases ha : a.getLsbD i <;> cases hb : b.getLsbD i <;> simp_all
  · rintro ⟨i, hi, ha, hb⟩ h
    have : (a &&& b).getLsbD i = true := by rw [BitVec.getLsbD_and, ha, hb]; rfl
    rw [h] at this
    simp at this

/-- **C122** — `a | b` has the bits of both. -/
theorem c122_union (a b : BitVec 8) (i : Nat) : (union a b).getLsbD i = true ↔ a.getLsbD i = true ∨ b.getLsbD i = true := by
  simp [union]

/-- **C122** — where it surprises: asking for two flags at once is answered by one of them, asking for `NONE` is never
answered, not even by `NONE`, and letters in lower case are ignored (`"mr"`). -/
theorem c122_limits :
    test AniFlag.move.value (union AniFlag.move.value AniFlag.rotate.value) = true ∧ (∀ a, test a 0 = false) ∧ flagsOf [109, 114] = 0 :=
  ⟨by decide, fun a => by simp [test], by decide⟩

end Verif.Props
