import Verif.Spec.AnimationFlags
import Verif.Model.AnimationFlags

/-! # Lemmas for C122 -/

namespace Verif.Mds.Flags

open Spec

/-- One turn of the loop of `Mds.flagsOf`. -/
def aniStep (f : BitVec 8) (c : Byte) : BitVec 8 :=
  if c = 77 then f ||| 1 else if c = 82 then f ||| 2 else if c = 69 then f ||| 4 else if c = 70 then f ||| 8
  else if c = 73 then f ||| 16 else if c = 80 then f ||| 32 else f

theorem test_or (a b c : BitVec 8) : test (a ||| b) c = (test a c || test b c) := by
  have z : ∀ p q : BitVec 8, p ||| q = 0 ↔ p = 0 ∧ q = 0 := fun p q => BitVec.or_eq_zero_iff
  have d : (a ||| b) &&& c = (a &&& c) ||| (b &&& c) := by
    ext i hi
    simp [Bool.and_or_distrib_right]
  rw [Bool.eq_iff_iff]
  simp only [test, d, bne_iff_ne, ne_eq, z, Bool.or_eq_true]
  exact not_and_or

theorem aniStep_test (x : AniFlag) (f : BitVec 8) (c : Byte) :
    test (aniStep f c) x.value = (test f x.value || decide (c = x.letter)) := by
  have key : ∀ (y x : AniFlag) (f : BitVec 8), test (f ||| y.value) x.value = (test f x.value || decide (y = x)) := by
    intro y x f
    rw [test_or]
    congr 1
    cases y <;> cases x <;> decide
  by_cases h : ∃ y : AniFlag, c = y.letter
  · obtain ⟨y, rfl⟩ := h
    have e : aniStep f y.letter = f ||| y.value := by cases y <;> rfl
    rw [e, key]
    congr 1
    cases y <;> cases x <;> decide
  · have e : aniStep f c = f := by
      have n : ∀ y : AniFlag, c ≠ y.letter := fun y hy => h ⟨y, hy⟩
      have h1 := n .move; have h2 := n .rotate; have h3 := n .queue
      have h4 := n .fly; have h5 := n .idle; have h6 := n .inplace
      simp only [AniFlag.letter] at h1 h2 h3 h4 h5 h6
      simp [aniStep, h1, h2, h3, h4, h5, h6]
    have n : c ≠ x.letter := fun hx => h ⟨x, hx⟩
    simp [e, n]

theorem aniFold_test (x : AniFlag) : ∀ (s : Bytes) (f : BitVec 8),
    test (s.foldl aniStep f) x.value = (test f x.value || decide (x.letter ∈ s))
  | [], f => by simp
  | c :: s, f => by
    rw [List.foldl_cons, aniFold_test x s, aniStep_test, Bool.or_assoc]
    congr 1
    by_cases h : c = x.letter <;> simp [h, eq_comm]

theorem aniStep_low (f : BitVec 8) (c : Byte) (h : f < 64) : aniStep f c < 64 := by
  have k : ∀ f : BitVec 8, f < 64 → f ||| 1 < 64 ∧ f ||| 2 < 64 ∧ f ||| 4 < 64 ∧ f ||| 8 < 64 ∧ f ||| 16 < 64 ∧ f ||| 32 < 64 := by
    decide
  obtain ⟨h1, h2, h3, h4, h5, h6⟩ := k f h
  unfold aniStep
  repeat' split
  all_goals assumption

theorem aniFold_low : ∀ (s : Bytes) (f : BitVec 8), f < 64 → s.foldl aniStep f < 64
  | [], _, h => h
  | c :: s, f, h => aniFold_low s _ (aniStep_low f c h)

theorem flags_ext : ∀ a b : BitVec 8, a < 64 → b < 64 → (∀ x ∈ AniFlag.all, test a x.value = test b x.value) → a = b := by
  intro a b ha hb h
  have h1 := h .move (by simp [AniFlag.all])
  have h2 := h .rotate (by simp [AniFlag.all])
  have h3 := h .queue (by simp [AniFlag.all])
  have h4 := h .fly (by simp [AniFlag.all])
  have h5 := h .idle (by simp [AniFlag.all])
  have h6 := h .inplace (by simp [AniFlag.all])
  have k : ∀ a : BitVec 8, a < 64 → a = (if test a 1 then 1 else 0) ||| (if test a 2 then 2 else 0) ||| (if test a 4 then 4 else 0)
      ||| (if test a 8 then 8 else 0) ||| (if test a 16 then 16 else 0) ||| (if test a 32 then 32 else 0) := by decide
  simp only [AniFlag.value] at h1 h2 h3 h4 h5 h6
  rw [k a ha, k b hb, h1, h2, h3, h4, h5, h6]

end Verif.Mds.Flags
