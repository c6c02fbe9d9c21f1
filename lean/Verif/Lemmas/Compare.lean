import Verif.Model.Compare
import Verif.Spec.Compare
import Mathlib.Tactic.Ring

/-! # Lemmas about the comparison of numbers -/

namespace Verif.Cmp

open Spec

theorem fields (a : F32) : a.toNat = (if negative a then 2 ^ 31 else 0) + exponent a * 2 ^ 23 + fraction a ∧ exponent a < 256 ∧ fraction a < 2 ^ 23 := by
  have := a.isLt
  refine ⟨?_, Nat.mod_lt _ (by omega), Nat.mod_lt _ (by omega)⟩
  simp only [negative, exponent, fraction, decide_eq_true_eq]
  split <;> omega

theorem isNan_iff (a : F32) : isNan a = true ↔ ¬ Number a := by
  unfold isNan Number exponent fraction
  simp only [Bool.and_eq_true, beq_iff_eq, bne_iff_ne, ne_eq, not_or, not_not, ← BitVec.toNat_inj, BitVec.extractLsb'_toNat,
    Nat.shiftRight_eq_div_pow, BitVec.toNat_ofNat, Nat.pow_zero, Nat.div_one, Nat.zero_mod]

theorem isZero_iff (a : F32) : isZero a = true ↔ exponent a = 0 ∧ fraction a = 0 := by
  unfold isZero exponent fraction
  simp only [beq_iff_eq, ← BitVec.toNat_inj, BitVec.extractLsb'_toNat, Nat.shiftRight_eq_div_pow, BitVec.toNat_ofNat, Nat.pow_zero, Nat.div_one,
    Nat.zero_mod]
  have := a.isLt
  omega

/-- The magnitude determines exponent and fraction. -/
theorem size_inj {e f e' f' : Nat} (hf : f < 2 ^ 23) (hf' : f' < 2 ^ 23)
    (h : (if e = 0 then f else (2 ^ 23 + f) * 2 ^ (e - 1)) = if e' = 0 then f' else (2 ^ 23 + f') * 2 ^ (e' - 1)) : e = e' ∧ f = f' := by
  have low : ∀ k n : Nat, n ≤ n * 2 ^ k := fun k n => Nat.le_mul_of_pos_right n (Nat.two_pow_pos k)
  have less : ∀ {e e' f f' : Nat}, e < e' → f < 2 ^ 23 → 0 < e → (2 ^ 23 + f) * 2 ^ (e - 1) < (2 ^ 23 + f') * 2 ^ (e' - 1) := by
    intro e e' f f' hlt hf he
    obtain ⟨d, rfl⟩ : ∃ d, e' = e + 1 + d := ⟨e' - (e + 1), by omega⟩
    have e1 : 2 ^ (e + 1 + d - 1) = 2 ^ (e - 1) * 2 * 2 ^ d := by
      rw [← Nat.pow_succ, ← Nat.pow_add]; congr 1; omega
    calc (2 ^ 23 + f) * 2 ^ (e - 1) < (2 ^ 23 + 2 ^ 23) * 2 ^ (e - 1) := Nat.mul_lt_mul_of_pos_right (by omega) (Nat.two_pow_pos _)
      _ = 2 ^ 23 * (2 ^ (e - 1) * 2) := by ring
      _ ≤ 2 ^ 23 * (2 ^ (e - 1) * 2) * 2 ^ d := low _ _
      _ = 2 ^ 23 * 2 ^ (e + 1 + d - 1) := by rw [e1]; ring
      _ ≤ (2 ^ 23 + f') * 2 ^ (e + 1 + d - 1) := Nat.mul_le_mul_right _ (by omega)
  by_cases h0 : e = 0
  · by_cases h0' : e' = 0
    · rw [if_pos h0, if_pos h0'] at h
      exact ⟨by omega, h⟩
    · rw [if_pos h0, if_neg h0'] at h
      have := low (e' - 1) (2 ^ 23 + f')
      omega
  · by_cases h0' : e' = 0
    · rw [if_neg h0, if_pos h0'] at h
      have := low (e - 1) (2 ^ 23 + f)
      omega
    · rw [if_neg h0, if_neg h0'] at h
      rcases Nat.lt_trichotomy e e' with hl | hl | hl
      · have := less (f' := f') hl hf (by omega)
        omega
      · subst hl
        have := Nat.eq_of_mul_eq_mul_right (Nat.two_pow_pos _) h
        omega
      · have := less (f' := f) hl hf' (by omega)
        omega

theorem magnitude_zero (a : F32) : magnitude a = 0 ↔ exponent a = 0 ∧ fraction a = 0 := by
  unfold magnitude
  constructor
  · intro h
    split at h
    · exact ⟨by assumption, h⟩
    · have := Nat.two_pow_pos (exponent a - 1)
      rcases Nat.mul_eq_zero.1 h with h | h <;> omega
  · rintro ⟨h1, h2⟩
    rw [if_pos h1, h2]

theorem number_eq_iff (a b : F32) : number a = number b ↔ a = b ∨ magnitude a = 0 ∧ magnitude b = 0 := by
  constructor
  · intro h
    by_cases hz : magnitude a = 0 ∧ magnitude b = 0
    · exact .inr hz
    · left
      have hs : negative a = negative b ∧ magnitude a = magnitude b := by
        unfold number at h
        cases ha : negative a <;> cases hb : negative b <;> simp only [ha, hb, if_true, if_false, Bool.false_eq_true] at h <;>
          refine ⟨?_, ?_⟩ <;> first | rfl | omega
      have ⟨a1, a2, a3⟩ := fields a
      have ⟨b1, b2, b3⟩ := fields b
      have := size_inj a3 b3 hs.2
      apply BitVec.eq_of_toNat_eq
      rw [a1, b1, hs.1, this.1, this.2]
  · rintro (rfl | ⟨h1, h2⟩)
    · rfl
    · simp [number, h1, h2]

theorem eqF_iff (a b : F32) : eqF a b = true ↔ SameNumber a b := by
  have ha := isNan_iff a
  have hb := isNan_iff b
  unfold eqF SameNumber
  rw [number_eq_iff, magnitude_zero, magnitude_zero, ← isZero_iff, ← isZero_iff]
  cases h1 : isNan a <;> cases h2 : isNan b <;> simp_all

end Verif.Cmp
