import Verif.Spec.Daedalus
import Verif.Model.DaedalusVm

/-!
# Lemmas about the integer operators
-/

namespace Verif.Daedalus

open Verif.Spec.Daedalus

theorem toInt_signed (a : BitVec 32) : a.toInt = signed a.toNat := by
  have := a.isLt
  rw [BitVec.toInt_eq_toNat_cond]
  unfold signed
  split <;> split <;> omega

theorem bits_toInt (a : BitVec 32) : bits a.toInt = a.toNat := by
  have := a.isLt
  rw [toInt_signed]
  unfold bits signed
  split <;> omega

theorem toInt_range (a : BitVec 32) : InInt a.toInt := by
  have := a.isLt
  rw [toInt_signed]
  unfold InInt signed
  split <;> omega

theorem i32_ok {x : Int} (h : InInt x) : ∃ r, i32 x = .ok r ∧ r.toInt = x := by
  unfold InInt at h
  refine ⟨BitVec.ofInt 32 x, ?_, ?_⟩
  · unfold i32
    rw [if_pos (by omega)]
  · rw [BitVec.toInt_ofInt]
    apply Int.bmod_eq_of_le <;> omega

theorem i32_ub {x : Int} (h : ¬ InInt x) : i32 x = .error .ub := by
  unfold InInt at h
  unfold i32
  rw [if_neg (by omega)]

theorem bool32_toInt (p : Prop) [Decidable p] : (bool32 (decide p)).toInt = truth p := by
  unfold bool32 truth
  by_cases h : p
  · simp [h]
  · simp [h]

theorem tdiv_range {a b : Int} (ha : InInt a) (hb : b ≠ 0) (hmin : ¬ (a = -2147483648 ∧ b = -1)) : InInt (a.tdiv b) := by
  have h := Int.natAbs_tdiv a b
  unfold InInt at *
  have hb1 : 1 ≤ b.natAbs := by omega
  have h2 : a.natAbs / b.natAbs ≤ a.natAbs := Nat.div_le_self _ _
  change _ = a.natAbs / b.natAbs at h
  by_cases hm : a = -2147483648
  · by_cases h1 : b = 1
    · subst h1; rw [Int.tdiv_one]; omega
    · have hb2 : 2 ≤ b.natAbs := by omega
      have : a.natAbs / b.natAbs ≤ a.natAbs / 2 := Nat.div_le_div_left hb2 (by decide)
      omega
  · omega

theorem tmod_range {a b : Int} (hbr : InInt b) (hb : b ≠ 0) : InInt (a.tmod b) := by
  have h := Int.natAbs_tmod a b
  have h2 : a.natAbs % b.natAbs < b.natAbs := Nat.mod_lt _ (by omega)
  unfold InInt at *
  omega

theorem toInt_eq_zero (a : BitVec 32) : a.toInt = 0 ↔ a = 0 := by
  rw [← BitVec.toInt_inj]; simp

theorem nonneg_toNat {b : BitVec 32} (h : 0 ≤ b.toInt) : b.toInt.toNat = b.toNat := by
  have := b.isLt
  rw [toInt_signed] at *
  unfold signed at *
  split at h <;> split <;> omega

theorem binop_ok {op : Op} (hop : op ∈ binaryOps) (a b : BitVec 32) (h : OpDefined op a.toInt b.toInt) :
    ∃ r, binop op a b = .ok r ∧ r.toInt = opValue op a.toInt b.toInt := by
  simp only [binaryOps, List.mem_cons, List.not_mem_nil, or_false] at hop
  rcases hop with rfl | rfl | rfl | rfl | rfl | rfl | rfl | rfl | rfl | rfl | rfl | rfl | rfl | rfl | rfl | rfl | rfl
  · exact i32_ok h
  · exact i32_ok h
  · exact i32_ok h
  · obtain ⟨hb, hm⟩ := h
    have hb' : ¬ b = 0 := fun he => hb ((toInt_eq_zero b).mpr he)
    simp only [binop, if_neg hb']
    exact i32_ok (tdiv_range (toInt_range a) hb hm)
  · obtain ⟨hb, hm⟩ := h
    have hb' : ¬ b = 0 := fun he => hb ((toInt_eq_zero b).mpr he)
    simp only [binop, if_neg hb', if_neg hm]
    exact i32_ok (tmod_range (toInt_range b) hb)
  · refine ⟨a ||| b, rfl, ?_⟩
    simp only [opValue, bits_toInt]
    rw [toInt_signed, BitVec.toNat_or]
  · refine ⟨a &&& b, rfl, ?_⟩
    simp only [opValue, bits_toInt]
    rw [toInt_signed, BitVec.toNat_and]
  · exact ⟨_, rfl, bool32_toInt _⟩
  · exact ⟨_, rfl, bool32_toInt _⟩
  · exact ⟨_, rfl, bool32_toInt _⟩
  · exact ⟨_, rfl, bool32_toInt _⟩
  · refine ⟨_, rfl, ?_⟩
    rw [bool32_toInt]
    simp only [opValue, truth, BitVec.toInt_inj]
  · refine ⟨_, rfl, ?_⟩
    rw [bool32_toInt]
    simp only [opValue, truth, ne_eq, BitVec.toInt_inj]
  · refine ⟨_, rfl, ?_⟩
    rw [bool32_toInt]
    simp only [opValue, truth, ne_eq, toInt_eq_zero]
  · refine ⟨_, rfl, ?_⟩
    rw [bool32_toInt]
    simp only [opValue, truth, ne_eq, toInt_eq_zero]
  · obtain ⟨h0, h1⟩ := h
    refine ⟨a <<< b.toNat, ?_, ?_⟩
    · simp only [binop]
      rw [if_neg (by omega)]
    · simp only [opValue]
      rw [toInt_signed, BitVec.toNat_shiftLeft, nonneg_toNat h0, Nat.shiftLeft_eq]
      congr 1
      unfold bits
      have : a.toInt = (a.toNat : Int) ∨ a.toInt = (a.toNat : Int) - 4294967296 := by
        rw [toInt_signed]; unfold signed; split <;> simp
      have e : (a.toInt * 2 ^ b.toNat) % 4294967296 = ((a.toNat : Int) * 2 ^ b.toNat) % 4294967296 := by
        rcases this with h | h
        · rw [h]
        · rw [h, Int.sub_mul, Int.sub_emod, Int.mul_emod_right]
          simp
      rw [e]
      have : ((a.toNat : Int) * 2 ^ b.toNat) % 4294967296 = ((a.toNat * 2 ^ b.toNat % 2 ^ 32 : Nat) : Int) := by
        rw [Int.natCast_emod, Int.natCast_mul, Int.natCast_pow]
        rfl
      rw [this, Int.toNat_natCast]
  · obtain ⟨h0, h1⟩ := h
    refine ⟨a.sshiftRight b.toNat, ?_, ?_⟩
    · simp only [binop]
      rw [if_neg (by omega)]
    · simp only [opValue]
      rw [BitVec.toInt_sshiftRight, nonneg_toNat h0, Int.shiftRight_eq_div_pow]
      push_cast
      rfl

theorem unop_ok {op : Op} (hop : op ∈ unaryOps) (a : BitVec 32) (b : Int) (h : OpDefined op a.toInt b) :
    ∃ r, unop op a = .ok r ∧ r.toInt = opValue op a.toInt b := by
  simp only [unaryOps, List.mem_cons, List.not_mem_nil, or_false] at hop
  rcases hop with rfl | rfl | rfl | rfl
  · exact ⟨a, rfl, rfl⟩
  · exact i32_ok h
  · refine ⟨_, rfl, ?_⟩
    rw [bool32_toInt]
    simp only [opValue, truth, toInt_eq_zero]
  · refine ⟨~~~a, rfl, ?_⟩
    have := a.isLt
    simp only [opValue]
    rw [toInt_signed, toInt_signed, BitVec.toNat_not]
    unfold signed
    split <;> split <;> omega

/-- Division and remainder by zero. -/
theorem binop_zero {op : Op} (hop : op = .div ∨ op = .mod) (a : BitVec 32) :
    binop op a 0 = .error (.throw .daedalusVm) := by
  rcases hop with rfl | rfl <;> simp [binop]

/-- All other undefined results. -/
theorem binop_ub {op : Op} (hop : op ∈ binaryOps) (a b : BitVec 32) (h : ¬ OpDefined op a.toInt b.toInt)
    (hz : (op = .div ∨ op = .mod) → b ≠ 0) : binop op a b = .error .ub := by
  simp only [binaryOps, List.mem_cons, List.not_mem_nil, or_false] at hop
  rcases hop with rfl | rfl | rfl | rfl | rfl | rfl | rfl | rfl | rfl | rfl | rfl | rfl | rfl | rfl | rfl | rfl | rfl
  · exact i32_ub h
  · exact i32_ub h
  · exact i32_ub h
  · have hb := hz (Or.inl rfl)
    have : a.toInt = -2147483648 ∧ b.toInt = -1 := by
      refine Classical.byContradiction fun hc => h ⟨fun he => hb ((toInt_eq_zero b).mp he), hc⟩
    simp only [binop, if_neg hb]
    rw [this.1, this.2]
    decide
  · have hb := hz (Or.inr rfl)
    have : a.toInt = -2147483648 ∧ b.toInt = -1 := by
      refine Classical.byContradiction fun hc => h ⟨fun he => hb ((toInt_eq_zero b).mp he), hc⟩
    simp only [binop, if_neg hb, if_pos this]
  all_goals first
    | exact absurd trivial h
    | (simp only [OpDefined] at h
       simp only [binop]
       rw [if_pos (by omega)])

end Verif.Daedalus
