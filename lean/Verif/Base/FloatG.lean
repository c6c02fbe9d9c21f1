import Verif.Base.Float

/-!
# Single precision numbers as text: `%g`

Printing with `%.Pg`, correctly rounded, as `snprintf` and `std::ostream::operator<<(float)` (with `P = 6`) do it, and reading it
back with `>>`.
-/

namespace Verif.FText

/-- The number of decimal digits of a positive number, minus one. -/
def log10 (n : Nat) : Nat := (dec n).length - 1

/-- The decimal exponent of `u * 2 ^ -149`, plus 45. -/
def dexp (u : Nat) : Nat := log10 (u * 10 ^ 45 / 2 ^ 149)

/-- The first `P` digits of `u * 2 ^ -149`, rounded. -/
def lead (P u : Nat) : Nat := roundDiv (u * 10 ^ (P + 44 - dexp u)) (2 ^ 149 * 10 ^ (dexp u - (P + 44)))

/-- The digits and the decimal exponent plus 45, as `%e` with `P - 1` digits behind the point prints them: rounding up may make the
number longer. -/
def sci (P u : Nat) : Nat × Nat := if lead P u = 10 ^ P then (10 ^ (P - 1), dexp u + 1) else (lead P u, dexp u)

/-- Without zeros at the end. -/
def noZeros (l : Bytes) : Bytes := (l.reverse.dropWhile (· = 48)).reverse

/-- Digits before and behind the point; without zeros at the end, and without the point if nothing is behind it. -/
def pointed (i f : Bytes) : Bytes := if noZeros f = [] then i else i ++ 46 :: noZeros f

/-- An exponent, with at least two digits. -/
def expText (x : Nat) : Bytes :=
  let two := fun n => if n < 10 then 48 :: dec n else dec n
  if x < 45 then b!"e-" ++ two (45 - x) else b!"e+" ++ two (x - 45)

/-- `%.Pg` of a positive number with the digits `d` and the decimal exponent `x - 45`. -/
def body (P d x : Nat) : Bytes :=
  if x < 41 ∨ P + 45 ≤ x then pointed ((dec d).take 1) ((dec d).drop 1) ++ expText x
  else if 45 ≤ x then pointed ((dec d).take (x - 44)) ((dec d).drop (x - 44))
  else pointed [48] (List.replicate (44 - x) 48 ++ dec d)

/-- `%.Pg`. -/
def printG (P : Nat) (v : BitVec 32) : Bytes :=
  (if v.msb then [45] else []) ++
    (if mag v = 0 then [48]
     else if mag v < infMag then body P (sci P (units (mag v))).1 (sci P (units (mag v))).2
     else if mag v = infMag then b!"inf" else b!"nan")

/-- 1.5, 0.1, 100000, 1000000, 1e-5, -0, 123456789 -/
example : printG 6 0x3FC00000 = b!"1.5" ∧ printG 6 0x3DCCCCCD = b!"0.1" ∧ printG 9 0x3DCCCCCD = b!"0.100000001" ∧
    printG 6 0x47C35000 = b!"100000" ∧ printG 6 0x49742400 = b!"1e+06" ∧ printG 6 0x3727C5AC = b!"1e-05" ∧
    printG 6 0x80000000 = b!"-0" ∧ printG 6 0x4CEB79A3 = b!"1.23457e+08" ∧ printG 9 0x4CEB79A3 = b!"123456792" ∧
    printG 9 1 = b!"1.40129846e-45" ∧ printG 9 0xFF7FFFFF = b!"-3.40282347e+38" ∧ printG 6 0x497423F8 = b!"1e+06" := by decide +kernel

/-! ## Rounding -/

theorem roundDiv_scale (a b c : Nat) (hc : 0 < c) : roundDiv (a * c) (b * c) = roundDiv a b := by
  unfold roundDiv
  rw [Nat.mul_div_mul_right _ _ hc, Nat.mul_mod_mul_right]
  have h1 : 2 * (a % b * c) < b * c ↔ 2 * (a % b) < b := by
    rw [← Nat.mul_assoc]; exact Nat.mul_lt_mul_right hc
  have h2 : b * c < 2 * (a % b * c) ↔ b < 2 * (a % b) := by
    rw [← Nat.mul_assoc]; exact Nat.mul_lt_mul_right hc
  simp only [h1, h2]

theorem nearest_scale (a b c : Nat) (hc : 0 < c) : nearest (a * c) (b * c) = nearest a b := by
  have h1 : a * c * 2 ^ 149 / (b * c) = a * 2 ^ 149 / b := by
    rw [Nat.mul_right_comm, Nat.mul_div_mul_right _ _ hc]
  have h2 : ∀ k, roundDiv (a * c * 2 ^ 149) (b * c * 2 ^ k) = roundDiv (a * 2 ^ 149) (b * 2 ^ k) := by
    intro k
    rw [Nat.mul_right_comm, Nat.mul_right_comm b, roundDiv_scale _ _ _ hc]
  unfold nearest pickExpo
  rw [h1, h2]

/-- Equal fractions are rounded to the same number. -/
theorem nearest_congr (a b a' b' : Nat) (hb : 0 < b) (hb' : 0 < b') (h : a * b' = a' * b) : nearest a b = nearest a' b' := by
  rw [← nearest_scale a b b' hb', ← nearest_scale a' b' b hb, h, Nat.mul_comm b b']

theorem units_pos (p : Nat) (h : 0 < p) : 0 < units p := by
  unfold units
  refine Nat.mul_pos ?_ (Nat.two_pow_pos _)
  unfold sig; split <;> omega

/-- A fraction whose relative distance to a number is at most 10⁻⁸ / 2 is rounded to it. `Q` is `2 ^ 149`, and `E` twice the
distance. -/
theorem nearest_within (a b p E Q : Nat) (hQ : Q = 2 ^ 149) (hb : 0 < b) (hp : 0 < p)
    (h1 : 2 * (units p * b) ≤ 2 * (a * Q) + E) (h2 : 2 * (a * Q) ≤ 2 * (units p * b) + E) (hE : E * 10 ^ 8 ≤ units p * b) :
    nearest a b = p := by
  obtain ⟨hps, hs, hk⟩ := mag_split p
  have hu0 := units_pos p hp
  have hsp : 0 < sig p := by unfold sig; split <;> omega
  have hu : units p * b = sig p * (b * 2 ^ expo p) := by rw [units, Nat.mul_assoc, Nat.mul_comm (2 ^ expo p)]
  rw [hu] at h1 h2 hE
  generalize hX : b * 2 ^ expo p = X at *
  have hXp : 0 < X := by rw [← hX]; exact Nat.mul_pos hb (Nat.two_pow_pos _)
  have hEX : E * 5 < X := by
    have : sig p * X ≤ 2 ^ 24 * X := Nat.mul_le_mul_right _ (by omega)
    omega
  by_cases hlow : sig p ≠ 2 ^ 23 ∨ expo p = 0 ∨ sig p * X ≤ a * Q
  · refine (nearest_eq a b (sig p) (expo p) hs hk hb ?_ ?_ ?_).trans hps.symm
    · rw [← hQ, hX, Nat.mul_assoc]; omega
    · rw [← hQ, hX, Nat.mul_assoc]; omega
    · rw [hX, ← hQ]; exact hlow
  · have hsig : sig p = 2 ^ 23 := by
      apply Classical.byContradiction; intro h; exact hlow (.inl h)
    have hk0 : expo p ≠ 0 := fun h => hlow (.inr (.inl h))
    have hlt : a * Q < sig p * X := by
      apply Classical.byContradiction; intro h; exact hlow (.inr (.inr (by omega)))
    obtain ⟨k, hkk⟩ : ∃ k, expo p = k + 1 := ⟨expo p - 1, by omega⟩
    have hXY : X = 2 * (b * 2 ^ k) := by rw [← hX, hkk, Nat.pow_succ]; ring
    generalize hY : b * 2 ^ k = Y at hXY
    rw [hsig] at h1 h2 hE hlt
    have hE2 : E * 2 < Y := by
      omega
    have hpick : pickExpo a b = k := by
      unfold pickExpo
      rw [← hQ]
      apply log2_pick
      · rw [Nat.div_lt_iff_lt_mul hb]
        have : 2 ^ (24 + k) * b = 2 ^ 24 * Y := by rw [← hY, Nat.pow_add]; ring
        rw [this]; omega
      · right
        rw [Nat.le_div_iff_mul_le hb]
        have : 2 ^ (23 + k) * b = 2 ^ 23 * Y := by rw [← hY, Nat.pow_add]; ring
        rw [this]; omega
    unfold nearest
    rw [hpick, hY, ← hQ, roundDiv_eq (a * Q) Y (2 ^ 24) (by omega) (by omega)]
    omega

theorem nearest_exact' (a b p : Nat) (hb : 0 < b) (h : a * 2 ^ 149 = units p * b) : nearest a b = p := by
  obtain ⟨hp, hs, hk⟩ := mag_split p
  have hu : a * 2 ^ 149 = sig p * (b * 2 ^ expo p) := by
    rw [h, units, Nat.mul_assoc, Nat.mul_comm (2 ^ expo p)]
  have hpos : 0 < b * 2 ^ expo p := Nat.mul_pos hb (Nat.two_pow_pos _)
  refine (nearest_eq a b (sig p) (expo p) hs hk hb ?_ ?_ (.inr (.inr (Nat.le_of_eq hu.symm)))).trans hp.symm
  · rw [hu, Nat.mul_assoc]; exact Nat.lt_add_of_pos_right hpos
  · rw [hu, Nat.mul_assoc]; exact Nat.lt_add_of_pos_right hpos

/-! ## Digits -/

theorem pow_log10_le (n : Nat) (h : 0 < n) : 10 ^ log10 n ≤ n := by
  apply Classical.byContradiction
  intro hlt
  unfold log10 at hlt
  by_cases h1 : (dec n).length = 1
  · rw [h1] at hlt; simp at hlt; omega
  · have hp := dec_length_pos n
    have := dec_length_le n ((dec n).length - 1) (by omega) (by omega)
    omega

theorem lt_pow_log10 (n : Nat) : n < 10 ^ (log10 n + 1) := by
  have hp := dec_length_pos n
  have := lt_pow_dec_length n
  unfold log10
  rwa [Nat.sub_add_cancel hp]

/-- The decimal exponent is right. -/
theorem dexp_bounds (u : Nat) (h : 0 < u) : 2 ^ 149 * 10 ^ dexp u ≤ u * 10 ^ 45 ∧ u * 10 ^ 45 < 2 ^ 149 * 10 ^ (dexp u + 1) := by
  have hq : 0 < u * 10 ^ 45 / 2 ^ 149 := by
    apply Nat.div_pos
    · calc 2 ^ 149 ≤ 1 * 10 ^ 45 := by decide
        _ ≤ u * 10 ^ 45 := Nat.mul_le_mul_right _ h
    · exact Nat.two_pow_pos _
  constructor
  · have := pow_log10_le _ hq
    rw [Nat.le_div_iff_mul_le (Nat.two_pow_pos _)] at this
    rw [Nat.mul_comm]; exact this
  · have := lt_pow_log10 (u * 10 ^ 45 / 2 ^ 149)
    rw [Nat.div_lt_iff_lt_mul (Nat.two_pow_pos _)] at this
    rw [Nat.mul_comm (2 ^ 149)]; exact this

theorem sci_value (P u : Nat) (hP : 0 < P) : (sci P u).1 * 10 ^ (sci P u).2 = lead P u * 10 ^ dexp u := by
  unfold sci
  split
  · rename_i h
    rw [h]
    show 10 ^ (P - 1) * 10 ^ (dexp u + 1) = _
    rw [← Nat.pow_add, ← Nat.pow_add]; congr 1; omega
  · rfl

theorem le_roundDiv (a b c : Nat) (hb : 0 < b) (h : c * b ≤ a) : c ≤ roundDiv a b := by
  obtain ⟨h1, _⟩ := roundDiv_bounds a b hb
  apply Classical.byContradiction
  intro hlt
  have : (roundDiv a b + 1) * b ≤ c * b := Nat.mul_le_mul_right _ (by omega)
  rw [Nat.add_mul, Nat.one_mul] at this
  omega

theorem roundDiv_le (a b c : Nat) (hb : 0 < b) (h : a ≤ c * b) : roundDiv a b ≤ c := by
  obtain ⟨_, h1⟩ := roundDiv_bounds a b hb
  apply Classical.byContradiction
  intro hlt
  have : (c + 1) * b ≤ roundDiv a b * b := Nat.mul_le_mul_right _ (by omega)
  rw [Nat.add_mul, Nat.one_mul] at this
  omega

theorem lead_bounds (P u : Nat) (hP : 0 < P) (hu : 0 < u) : 10 ^ (P - 1) ≤ lead P u ∧ lead P u ≤ 10 ^ P := by
  obtain ⟨h1, h2⟩ := dexp_bounds u hu
  have hden : 0 < 2 ^ 149 * 10 ^ (dexp u - (P + 44)) := Nat.mul_pos (Nat.two_pow_pos _) (Nat.pow_pos (by decide))
  unfold lead
  generalize (2 : Nat) ^ 149 = Q at *
  generalize dexp u = x at *
  rcases Nat.le_total x (P + 44) with hx | hx
  · obtain ⟨e, he⟩ := Nat.exists_eq_add_of_le hx
    have e1 : P + 44 - x = e := by omega
    have e2 : x - (P + 44) = 0 := by omega
    rw [e2] at hden
    rw [e1, e2]
    have hx0 : 0 < 10 ^ x := Nat.pow_pos (by decide)
    constructor
    · apply le_roundDiv _ _ _ hden
      apply Nat.le_of_mul_le_mul_right _ hx0
      calc 10 ^ (P - 1) * (Q * 10 ^ 0) * 10 ^ x = 10 ^ (P - 1) * (Q * 10 ^ x) := by ring
        _ ≤ 10 ^ (P - 1) * (u * 10 ^ 45) := Nat.mul_le_mul_left _ h1
        _ = u * (10 ^ (P - 1) * 10 ^ 45) := by ring
        _ = u * (10 ^ e * 10 ^ x) := by rw [← Nat.pow_add, ← Nat.pow_add]; congr 2; omega
        _ = u * 10 ^ e * 10 ^ x := by ring
    · apply roundDiv_le _ _ _ hden
      apply Nat.le_of_mul_le_mul_right _ hx0
      calc u * 10 ^ e * 10 ^ x = u * (10 ^ e * 10 ^ x) := by ring
        _ = u * (10 ^ (P - 1) * 10 ^ 45) := by rw [← Nat.pow_add, ← Nat.pow_add]; congr 2; omega
        _ = 10 ^ (P - 1) * (u * 10 ^ 45) := by ring
        _ ≤ 10 ^ (P - 1) * (Q * 10 ^ (x + 1)) := Nat.mul_le_mul_left _ (Nat.le_of_lt h2)
        _ = Q * (10 ^ (P - 1) * 10 ^ (x + 1)) := by ring
        _ = Q * (10 ^ P * 10 ^ x) := by rw [← Nat.pow_add, ← Nat.pow_add]; congr 2; omega
        _ = 10 ^ P * (Q * 10 ^ 0) * 10 ^ x := by ring
  · obtain ⟨e, he⟩ := Nat.exists_eq_add_of_le hx
    have e1 : P + 44 - x = 0 := by omega
    have e2 : x - (P + 44) = e := by omega
    rw [e2] at hden
    rw [e1, e2]
    have hx0 : 0 < 10 ^ 45 := by decide
    constructor
    · apply le_roundDiv _ _ _ hden
      apply Nat.le_of_mul_le_mul_right _ hx0
      calc 10 ^ (P - 1) * (Q * 10 ^ e) * 10 ^ 45 = Q * (10 ^ (P - 1) * 10 ^ e * 10 ^ 45) := by ring
        _ = Q * 10 ^ x := by rw [← Nat.pow_add, ← Nat.pow_add]; congr 2; omega
        _ ≤ u * 10 ^ 45 := h1
        _ = u * 10 ^ 0 * 10 ^ 45 := by ring
    · apply roundDiv_le _ _ _ hden
      apply Nat.le_of_mul_le_mul_right _ hx0
      calc u * 10 ^ 0 * 10 ^ 45 = u * 10 ^ 45 := by ring
        _ ≤ Q * 10 ^ (x + 1) := Nat.le_of_lt h2
        _ = Q * (10 ^ P * 10 ^ e * 10 ^ 45) := by rw [← Nat.pow_add, ← Nat.pow_add]; congr 2; omega
        _ = 10 ^ P * (Q * 10 ^ e) * 10 ^ 45 := by ring

theorem sci_bounds (P u : Nat) (hP : 0 < P) (hu : 0 < u) : 10 ^ (P - 1) ≤ (sci P u).1 ∧ (sci P u).1 < 10 ^ P := by
  obtain ⟨h1, h2⟩ := lead_bounds P u hP hu
  unfold sci
  split
  · exact ⟨Nat.le_refl _, Nat.pow_lt_pow_right (by decide) (by omega)⟩
  · exact ⟨h1, by omega⟩

/-- The distance of the printed number to the number, relative to the last digit. -/
theorem lead_close (P u : Nat) : 2 * (u * 10 ^ (P + 44)) ≤ 2 * (lead P u * 10 ^ dexp u * 2 ^ 149) + 2 ^ 149 * 10 ^ dexp u ∧
    2 * (lead P u * 10 ^ dexp u * 2 ^ 149) ≤ 2 * (u * 10 ^ (P + 44)) + 2 ^ 149 * 10 ^ dexp u := by
  have hden : 0 < 2 ^ 149 * 10 ^ (dexp u - (P + 44)) := Nat.mul_pos (Nat.two_pow_pos _) (Nat.pow_pos (by decide))
  have hb := roundDiv_bounds (u * 10 ^ (P + 44 - dexp u)) _ hden
  unfold lead
  generalize (2 : Nat) ^ 149 = Q at *
  generalize dexp u = x at *
  rcases Nat.le_total x (P + 44) with hx | hx
  · obtain ⟨e, he⟩ := Nat.exists_eq_add_of_le hx
    have e1 : P + 44 - x = e := by omega
    have e2 : x - (P + 44) = 0 := by omega
    rw [e1, e2] at hb ⊢
    generalize roundDiv (u * 10 ^ e) (Q * 10 ^ 0) = D at hb ⊢
    have hA : D * 10 ^ x * Q = D * (Q * 10 ^ 0) * 10 ^ x := by ring
    have hU : u * 10 ^ (P + 44) = u * 10 ^ e * 10 ^ x := by rw [he, Nat.pow_add]; ring
    have hQ : Q * 10 ^ x = Q * 10 ^ 0 * 10 ^ x := by ring
    rw [hA, hU, hQ]
    have g1 := Nat.mul_le_mul_right (10 ^ x) hb.1
    have g2 := Nat.mul_le_mul_right (10 ^ x) hb.2
    simp only [Nat.add_mul, Nat.mul_assoc 2] at g1 g2
    exact ⟨g1, g2⟩
  · obtain ⟨e, he⟩ := Nat.exists_eq_add_of_le hx
    have e1 : P + 44 - x = 0 := by omega
    have e2 : x - (P + 44) = e := by omega
    rw [e1, e2] at hb ⊢
    generalize roundDiv (u * 10 ^ 0) (Q * 10 ^ e) = D at hb ⊢
    have hA : D * 10 ^ x * Q = D * (Q * 10 ^ e) * 10 ^ (P + 44) := by rw [he, Nat.pow_add 10 (P + 44)]; ring
    have hU : u * 10 ^ (P + 44) = u * 10 ^ 0 * 10 ^ (P + 44) := by ring
    have hQ : Q * 10 ^ x = Q * 10 ^ e * 10 ^ (P + 44) := by rw [he, Nat.pow_add 10 (P + 44)]; ring
    rw [hA, hU, hQ]
    have g1 := Nat.mul_le_mul_right (10 ^ (P + 44)) hb.1
    have g2 := Nat.mul_le_mul_right (10 ^ (P + 44)) hb.2
    simp only [Nat.add_mul, Nat.mul_assoc 2] at g1 g2
    exact ⟨g1, g2⟩

/-- Nine digits are enough for every number. -/
theorem nearest_nine (p : Nat) (hp : 0 < p) :
    nearest ((sci 9 (units p)).1 * 10 ^ (sci 9 (units p)).2) (10 ^ 53) = p := by
  rw [sci_value 9 _ (by decide)]
  obtain ⟨h1, h2⟩ := lead_close 9 (units p)
  have hd := (dexp_bounds (units p) (units_pos p hp)).1
  refine nearest_within _ _ p (2 ^ 149 * 10 ^ dexp (units p)) (2 ^ 149) rfl (by decide) hp h1 h2 ?_
  calc 2 ^ 149 * 10 ^ dexp (units p) * 10 ^ 8 ≤ units p * 10 ^ 45 * 10 ^ 8 := Nat.mul_le_mul_right _ hd
    _ = units p * 10 ^ 53 := by rw [Nat.mul_assoc, ← Nat.pow_add]

/-- The number has at most `P` significant decimal digits: it is `n * 10 ^ j / 10 ^ i`. -/
def Short (P p : Nat) : Prop := ∃ n i j, n < 10 ^ P ∧ units p * 10 ^ i = n * 10 ^ j * 2 ^ 149

theorem nearest_short (P p : Nat) (hP : 0 < P) (hp : 0 < p) (h : Short P p) :
    nearest ((sci P (units p)).1 * 10 ^ (sci P (units p)).2) (10 ^ (P + 44)) = p := by
  obtain ⟨n, i, j, hn, hs⟩ := h
  rw [sci_value P _ hP]
  obtain ⟨h1, h2⟩ := dexp_bounds (units p) (units_pos p hp)
  have hu := units_pos p hp
  apply nearest_exact' _ _ _ (Nat.pow_pos (by decide))
  have hden : 0 < 2 ^ 149 * 10 ^ (dexp (units p) - (P + 44)) := Nat.mul_pos (Nat.two_pow_pos _) (Nat.pow_pos (by decide))
  have hQ0 : 0 < (2 : Nat) ^ 149 := Nat.two_pow_pos _
  unfold lead
  generalize (2 : Nat) ^ 149 = Q at *
  generalize units p = u at *
  generalize dexp u = x at *
  have hij : x + i ≤ P + 44 + j := by
    apply Classical.byContradiction
    intro hlt
    have a1 : Q * 10 ^ x * 10 ^ i ≤ u * 10 ^ 45 * 10 ^ i := Nat.mul_le_mul_right _ h1
    have a2 : u * 10 ^ 45 * 10 ^ i = n * (10 ^ j * 10 ^ 45) * Q := by
      rw [Nat.mul_right_comm, hs]; ring
    have a3 : n * (10 ^ j * 10 ^ 45) * Q < 10 ^ P * (10 ^ j * 10 ^ 45) * Q :=
      Nat.mul_lt_mul_of_pos_right (Nat.mul_lt_mul_of_pos_right hn (Nat.mul_pos (Nat.pow_pos (by decide)) (by decide))) hQ0
    have a4 : 10 ^ P * (10 ^ j * 10 ^ 45) * Q = 10 ^ (P + (j + 45)) * Q := by rw [← Nat.pow_add, ← Nat.pow_add]
    have a5 : 10 ^ (P + (j + 45)) * Q ≤ 10 ^ (x + i) * Q := Nat.mul_le_mul_right _ (Nat.pow_le_pow_right (by decide) (by omega))
    have a6 : Q * 10 ^ x * 10 ^ i = 10 ^ (x + i) * Q := by rw [Nat.pow_add]; ring
    omega
  obtain ⟨d, hd⟩ := Nat.exists_eq_add_of_le hij
  have hi0 : 0 < 10 ^ i := Nat.pow_pos (by decide)
  rcases Nat.le_total x (P + 44) with hx | hx
  · obtain ⟨e, he⟩ := Nat.exists_eq_add_of_le hx
    have e1 : P + 44 - x = e := by omega
    have e2 : x - (P + 44) = 0 := by omega
    rw [e2] at hden
    rw [e1, e2]
    have hdvd : Q * 10 ^ 0 ∣ u * 10 ^ e := by
      refine ⟨n * 10 ^ d, ?_⟩
      apply Nat.eq_of_mul_eq_mul_right hi0
      calc u * 10 ^ e * 10 ^ i = u * 10 ^ i * 10 ^ e := by ring
        _ = n * (10 ^ j * 10 ^ e) * Q := by rw [hs]; ring
        _ = n * (10 ^ d * 10 ^ i) * Q := by rw [← Nat.pow_add, ← Nat.pow_add]; congr 3; omega
        _ = _ := by ring
    have := roundDiv_exact _ _ hden hdvd
    calc roundDiv (u * 10 ^ e) (Q * 10 ^ 0) * 10 ^ x * Q = roundDiv (u * 10 ^ e) (Q * 10 ^ 0) * (Q * 10 ^ 0) * 10 ^ x := by ring
      _ = u * 10 ^ (P + 44) := by rw [this, he, Nat.pow_add]; ring
  · obtain ⟨e, he⟩ := Nat.exists_eq_add_of_le hx
    have e1 : P + 44 - x = 0 := by omega
    have e2 : x - (P + 44) = e := by omega
    rw [e2] at hden
    rw [e1, e2]
    have hdvd : Q * 10 ^ e ∣ u * 10 ^ 0 := by
      refine ⟨n * 10 ^ d, ?_⟩
      apply Nat.eq_of_mul_eq_mul_right hi0
      calc u * 10 ^ 0 * 10 ^ i = u * 10 ^ i := by ring
        _ = n * 10 ^ j * Q := hs
        _ = n * (10 ^ e * 10 ^ d * 10 ^ i) * Q := by rw [← Nat.pow_add, ← Nat.pow_add]; congr 3; omega
        _ = _ := by ring
    have := roundDiv_exact _ _ hden hdvd
    calc roundDiv (u * 10 ^ 0) (Q * 10 ^ e) * 10 ^ x * Q =
        roundDiv (u * 10 ^ 0) (Q * 10 ^ e) * (Q * 10 ^ e) * 10 ^ (P + 44) := by rw [he, Nat.pow_add 10 (P + 44)]; ring
      _ = u * 10 ^ (P + 44) := by rw [this]; ring

/-! ## Text -/

theorem noZeros_split (f : Bytes) : ∃ z, f = noZeros f ++ List.replicate z 48 := by
  refine ⟨(f.reverse.takeWhile (· = 48)).length, ?_⟩
  have h1 : f.reverse = f.reverse.takeWhile (· = 48) ++ f.reverse.dropWhile (· = 48) := List.takeWhile_append_dropWhile.symm
  have h2 : f.reverse.takeWhile (· = 48) = List.replicate (f.reverse.takeWhile (· = 48)).length 48 := by
    rw [List.eq_replicate_iff]
    exact ⟨rfl, fun c hc => by simpa using (List.all_takeWhile (p := fun c : Byte => decide (c = 48)) (l := f.reverse)) |> fun h => List.all_eq_true.1 h c hc⟩
  calc f = f.reverse.reverse := (List.reverse_reverse f).symm
    _ = _ := by
      conv_lhs => rw [h1, List.reverse_append, h2, List.reverse_replicate]
      rfl

theorem noZeros_mem (f : Bytes) : ∀ c ∈ noZeros f, c ∈ f := by
  intro c hc
  obtain ⟨z, hz⟩ := noZeros_split f
  rw [hz]
  exact List.mem_append_left _ hc

theorem digitsVal_zeros (z : Nat) : digitsVal (List.replicate z 48) = 0 := by
  induction z with
  | zero => rfl
  | succ z ih =>
    rw [List.replicate_succ', digitsVal_append, ih]; rfl

/-- Text that does not continue digits before an exponent. -/
def NoDigit (rest : Bytes) : Prop := ∀ c, rest.head? = some c → isDigit c = false ∧ c ≠ 46

theorem parseDec_pointed (i f rest : Bytes) (hi : i ≠ []) (hid : ∀ c ∈ i, isDigit c = true) (hfd : ∀ c ∈ f, isDigit c = true)
    (hr : NoDigit rest) :
    parseDec (pointed i f ++ rest) = some (digitsVal (i ++ noZeros f) * 10 ^ (parseExp rest).1.toNat,
      10 ^ (noZeros f).length * 10 ^ (-(parseExp rest).1).toNat, (parseExp rest).2) := by
  have hie : i.isEmpty = false := by simp [hi]
  unfold pointed
  split
  · rename_i hz
    have h1 : (i ++ rest).takeWhile isDigit = i := takeWhile_append_stop _ _ _ hid (fun c hc => (hr c hc).1)
    have h2 : (i ++ rest).dropWhile isDigit = rest := dropWhile_append_stop _ _ _ hid (fun c hc => (hr c hc).1)
    unfold parseDec
    simp only [h1, h2, hie, Bool.false_and, Bool.false_eq_true, if_false, hz]
    cases rest with
    | nil => simp
    | cons c r => simp [(hr c rfl).2]
  · have hfd' : ∀ c ∈ noZeros f, isDigit c = true := fun c hc => hfd c (noZeros_mem f c hc)
    rw [List.append_assoc, List.cons_append]
    have h1 : (i ++ 46 :: (noZeros f ++ rest)).takeWhile isDigit = i :=
      takeWhile_append_stop _ _ _ hid (by intro c hc; simp at hc; subst hc; rfl)
    have h2 : (i ++ 46 :: (noZeros f ++ rest)).dropWhile isDigit = 46 :: (noZeros f ++ rest) :=
      dropWhile_append_stop _ _ _ hid (by intro c hc; simp at hc; subst hc; rfl)
    have h3 : (noZeros f ++ rest).takeWhile isDigit = noZeros f :=
      takeWhile_append_stop _ _ _ hfd' (fun c hc => (hr c hc).1)
    have h4 : (noZeros f ++ rest).dropWhile isDigit = rest :=
      dropWhile_append_stop _ _ _ hfd' (fun c hc => (hr c hc).1)
    unfold parseDec
    simp only [h1, h2, if_true, h3, h4, hie, Bool.false_and, Bool.false_eq_true, if_false]

/-- The digits, with the zeros at the end. -/
theorem pointed_value (i f : Bytes) : digitsVal (i ++ noZeros f) * 10 ^ f.length = digitsVal (i ++ f) * 10 ^ (noZeros f).length := by
  obtain ⟨z, hz⟩ := noZeros_split f
  have hl : f.length = (noZeros f).length + z := by
    conv_lhs => rw [hz]
    simp
  have hv : digitsVal (i ++ f) = digitsVal (i ++ noZeros f) * 10 ^ z := by
    conv_lhs => rw [hz, ← List.append_assoc, digitsVal_app, digitsVal_zeros, List.length_replicate, Nat.add_zero]
  rw [hl, hv, Nat.pow_add]; ring

theorem parseExp_none (rest : Bytes) (hr : NumEnd rest) : parseExp rest = (0, rest) := by
  unfold parseExp
  cases rest with
  | nil => rfl
  | cons c r => simp [(hr c rfl).2]

/-- The exponent, with two digits. -/
theorem parseExp_expText (x : Nat) (rest : Bytes) (hr : NumEnd rest) :
    parseExp (expText x ++ rest) = ((x : Int) - 45, rest) := by
  have hx : ∀ n : Nat, (∀ c ∈ (if n < 10 then 48 :: dec n else dec n), isDigit c = true) ∧
      digitsVal (if n < 10 then 48 :: dec n else dec n) = n ∧ (if n < 10 then 48 :: dec n else dec n) ≠ [] := by
    intro n
    split
    · refine ⟨?_, ?_, by simp⟩
      · intro c hc
        rcases List.mem_cons.1 hc with rfl | hc
        · rfl
        · exact dec_digits n c hc
      · show digitsVal ([48] ++ dec n) = n
        rw [digitsVal_app, digitsVal_dec]
        simp [digitsVal]
    · exact ⟨dec_digits n, digitsVal_dec n, dec_ne_nil n⟩
  have key : ∀ (n : Nat) (sg : Byte) (hsg : sg = 45 ∨ sg = 43),
      parseExp (101 :: sg :: ((if n < 10 then 48 :: dec n else dec n) ++ rest)) =
        (if sg = 45 then -(n : Int) else (n : Int), rest) := by
    intro n sg hsg
    obtain ⟨a1, a2, a3⟩ := hx n
    generalize (if n < 10 then 48 :: dec n else dec n) = t at *
    have h1 : (t ++ rest).takeWhile isDigit = t := takeWhile_append_stop _ _ _ a1 (fun c hc => (hr c hc).1)
    have h2 : (t ++ rest).dropWhile isDigit = rest := dropWhile_append_stop _ _ _ a1 (fun c hc => (hr c hc).1)
    have h3 : t.isEmpty = false := by simp [a3]
    unfold parseExp
    rcases hsg with rfl | rfl
    · simp [signOf, h1, h2, h3, a2]
    · simp [signOf, h1, h2, h3, a2]
  unfold expText
  dsimp only
  split
  · rename_i h
    have := key (45 - x) 45 (.inl rfl)
    rw [if_pos rfl] at this
    refine Eq.trans ?_ (this.trans ?_)
    · rfl
    · rw [Prod.mk.injEq]; exact ⟨by omega, rfl⟩
  · rename_i h
    have := key (x - 45) 43 (.inr rfl)
    rw [if_neg (c := (43 : Byte) = 45) (by decide)] at this
    refine Eq.trans ?_ (this.trans ?_)
    · rfl
    · rw [Prod.mk.injEq]; exact ⟨by omega, rfl⟩

theorem expText_noDigit (x : Nat) (rest : Bytes) : NoDigit (expText x ++ rest) := by
  intro c hc
  have : c = 101 := by
    unfold expText at hc
    dsimp only at hc
    split at hc
    · exact (Option.some.inj hc).symm
    · exact (Option.some.inj hc).symm
  subst this
  decide

/-- Text that does not continue a number. -/
def NumStop (rest : Bytes) : Prop := NumEnd rest ∧ NoDigit rest

theorem dec_length (P d : Nat) (hP : 0 < P) (h1 : 10 ^ (P - 1) ≤ d) (h2 : d < 10 ^ P) : (dec d).length = P := by
  have a := dec_length_le d P hP h2
  have b := lt_pow_dec_length d
  apply Nat.le_antisymm a
  apply Classical.byContradiction
  intro hlt
  have : 10 ^ (dec d).length ≤ 10 ^ (P - 1) := Nat.pow_le_pow_right (by decide) (by omega)
  omega

/-- The text is a number with the given value. -/
theorem parseDec_body (P d x : Nat) (hP : 0 < P) (h1 : 10 ^ (P - 1) ≤ d) (h2 : d < 10 ^ P) (rest : Bytes) (hr : NumStop rest) :
    ∃ a b, 0 < b ∧ a * 10 ^ (P + 44) = d * 10 ^ x * b ∧ parseDec (body P d x ++ rest) = some (a, b, rest) := by
  have hl := dec_length P d hP h1 h2
  have hdd := dec_digits d
  have hv := digitsVal_dec d
  unfold body
  generalize dec d = D at *
  have part : ∀ k, (∀ c ∈ D.take k, isDigit c = true) ∧ (∀ c ∈ D.drop k, isDigit c = true) :=
    fun k => ⟨fun c hc => hdd c (List.mem_of_mem_take hc), fun c hc => hdd c (List.mem_of_mem_drop hc)⟩
  have hp0 : ∀ n, 0 < 10 ^ n := fun n => Nat.pow_pos (by decide)
  split
  · rw [List.append_assoc, parseDec_pointed _ _ _ ?_ (part 1).1 (part 1).2 (expText_noDigit x rest), parseExp_expText x rest hr.1]
    · refine ⟨_, _, ?_, ?_, rfl⟩
      · exact Nat.mul_pos (hp0 _) (hp0 _)
      · have hpv := pointed_value (D.take 1) (D.drop 1)
        rw [List.take_append_drop, hv, List.length_drop, hl] at hpv
        dsimp only
        generalize digitsVal (D.take 1 ++ noZeros (D.drop 1)) = A at *
        generalize (noZeros (D.drop 1)).length = l at *
        rcases Nat.le_total 45 x with hx | hx
        · obtain ⟨y, rfl⟩ := Nat.exists_eq_add_of_le hx
          have e1 : (((45 + y : Nat) : Int) - 45).toNat = y := by omega
          have e2 : (-(((45 + y : Nat) : Int) - 45)).toNat = 0 := by omega
          rw [e1, e2]
          calc A * 10 ^ y * 10 ^ (P + 44) = A * 10 ^ (P - 1) * 10 ^ (45 + y) := by
                rw [Nat.mul_assoc, Nat.mul_assoc, ← Nat.pow_add, ← Nat.pow_add]; congr 2; omega
            _ = d * 10 ^ (45 + y) * (10 ^ l * 10 ^ 0) := by rw [hpv]; ring
        · obtain ⟨y, hy⟩ := Nat.exists_eq_add_of_le hx
          have e1 : ((x : Int) - 45).toNat = 0 := by omega
          have e2 : (-((x : Int) - 45)).toNat = y := by omega
          rw [e1, e2]
          calc A * 10 ^ 0 * 10 ^ (P + 44) = A * 10 ^ (P - 1) * (10 ^ x * 10 ^ y) := by
                rw [Nat.pow_zero, Nat.mul_one, Nat.mul_assoc, ← Nat.pow_add, ← Nat.pow_add]; congr 2; omega
            _ = d * 10 ^ x * (10 ^ l * 10 ^ y) := by rw [hpv]; ring
    · intro h
      have := congrArg List.length h
      rw [List.length_take] at this
      simp only [List.length_nil] at this
      omega
  · split
    · rename_i hx hx2
      rw [parseDec_pointed _ _ _ ?_ (part _).1 (part _).2 hr.2, parseExp_none rest hr.1]
      · refine ⟨_, _, ?_, ?_, rfl⟩
        · exact Nat.mul_pos (hp0 _) (hp0 _)
        · have hpv := pointed_value (D.take (x - 44)) (D.drop (x - 44))
          rw [List.take_append_drop, hv, List.length_drop, hl] at hpv
          dsimp only
          generalize digitsVal (D.take (x - 44) ++ noZeros (D.drop (x - 44))) = A at *
          generalize (noZeros (D.drop (x - 44))).length = l at *
          show A * 10 ^ 0 * 10 ^ (P + 44) = d * 10 ^ x * (10 ^ l * 10 ^ 0)
          calc A * 10 ^ 0 * 10 ^ (P + 44) = A * 10 ^ (P - (x - 44)) * 10 ^ x := by
                rw [Nat.pow_zero, Nat.mul_one, Nat.mul_assoc, ← Nat.pow_add]; congr 2; omega
            _ = d * 10 ^ x * (10 ^ l * 10 ^ 0) := by rw [hpv]; ring
      · intro h
        have := congrArg List.length h
        rw [List.length_take] at this
        simp only [List.length_nil] at this
        omega
    · rename_i hx hx2
      have hf : ∀ c ∈ List.replicate (44 - x) 48 ++ D, isDigit c = true := by
        intro c hc
        rcases List.mem_append.1 hc with hc | hc
        · rw [(List.mem_replicate.1 hc).2]; rfl
        · exact hdd c hc
      rw [parseDec_pointed _ _ _ (by simp) (by intro c hc; simp at hc; subst hc; rfl) hf hr.2, parseExp_none rest hr.1]
      refine ⟨_, _, ?_, ?_, rfl⟩
      · exact Nat.mul_pos (hp0 _) (hp0 _)
      · have hpv := pointed_value [48] (List.replicate (44 - x) 48 ++ D)
        have e0 : digitsVal ([48] ++ (List.replicate (44 - x) 48 ++ D)) = d := by
          rw [← List.append_assoc, digitsVal_app, digitsVal_app, digitsVal_zeros, hv]
          simp [digitsVal]
        rw [e0, List.length_append, List.length_replicate, hl] at hpv
        dsimp only
        generalize digitsVal ([48] ++ noZeros (List.replicate (44 - x) 48 ++ D)) = A at *
        generalize (noZeros (List.replicate (44 - x) 48 ++ D)).length = l at *
        show A * 10 ^ 0 * 10 ^ (P + 44) = d * 10 ^ x * (10 ^ l * 10 ^ 0)
        calc A * 10 ^ 0 * 10 ^ (P + 44) = A * 10 ^ (44 - x + P) * 10 ^ x := by
              rw [Nat.pow_zero, Nat.mul_one, Nat.mul_assoc, ← Nat.pow_add]; congr 2; omega
          _ = d * 10 ^ x * (10 ^ l * 10 ^ 0) := by rw [hpv]; ring

/-- The first character of the text of a positive number is a digit. -/
theorem body_head (P d x : Nat) (hP : 0 < P) (h1 : 10 ^ (P - 1) ≤ d) (h2 : d < 10 ^ P) :
    ∃ c t, body P d x = c :: t ∧ isDigit c = true := by
  have hl := dec_length P d hP h1 h2
  have hdd := dec_digits d
  unfold body
  generalize dec d = D at *
  have hp : ∀ i f : Bytes, i ≠ [] → (∀ c ∈ i, isDigit c = true) → ∃ c t, pointed i f = c :: t ∧ isDigit c = true := by
    intro i f hi hd
    obtain ⟨c, t, rfl⟩ := List.exists_cons_of_ne_nil hi
    unfold pointed
    split
    · exact ⟨c, t, rfl, hd c List.mem_cons_self⟩
    · exact ⟨c, _, rfl, hd c List.mem_cons_self⟩
  have ht : ∀ k, 0 < k → D.take k ≠ [] := by
    intro k hk h
    have := congrArg List.length h
    rw [List.length_take] at this
    simp only [List.length_nil] at this
    omega
  have hm : ∀ k, ∀ c ∈ D.take k, isDigit c = true := fun k c hc => hdd c (List.mem_of_mem_take hc)
  split
  · obtain ⟨c, t, e, hc⟩ := hp (D.take 1) (D.drop 1) (ht 1 (by decide)) (hm 1)
    exact ⟨c, _, by rw [e]; rfl, hc⟩
  · split
    · exact hp _ _ (ht _ (by omega)) (hm _)
    · exact hp _ _ (by simp) (by intro c hc; simp at hc; subst hc; rfl)

/-- The value of the text is the number: what `%.Pg` prints is enough. -/
def Enough (P : Nat) (v : BitVec 32) : Prop :=
  mag v = 0 ∨ (mag v < infMag ∧
    nearest ((sci P (units (mag v))).1 * 10 ^ (sci P (units (mag v))).2) (10 ^ (P + 44)) = mag v)

theorem enough_nine (v : BitVec 32) (h : mag v < infMag) : Enough 9 v := by
  by_cases h0 : mag v = 0
  · exact .inl h0
  · exact .inr ⟨h, nearest_nine _ (by omega)⟩

theorem enough_short (P : Nat) (v : BitVec 32) (hP : 0 < P) (h : mag v < infMag) (hs : Short P (mag v)) : Enough P v := by
  by_cases h0 : mag v = 0
  · exact .inl h0
  · exact .inr ⟨h, nearest_short P _ hP (by omega) hs⟩

/-- The text of a number, parsed. -/
theorem printG_form (P : Nat) (v : BitVec 32) (hP : 0 < P) (h : Enough P v) : ∃ t c t' , printG P v = (if v.msb then [45] else []) ++ t ∧
    t = c :: t' ∧ isDigit c = true ∧ ∀ rest, NumStop rest → ∃ a b, parseDec (t ++ rest) = some (a, b, rest) ∧ nearest a b = mag v := by
  by_cases h0 : mag v = 0
  · refine ⟨[48], 48, [], ?_, rfl, rfl, ?_⟩
    · unfold printG; rw [if_pos h0]
    · intro rest hr
      have := parseDec_pointed [48] [] rest (by simp) (by intro c hc; simp at hc; subst hc; rfl) (by simp) hr.2
      rw [parseExp_none rest hr.1] at this
      refine ⟨_, _, this, ?_⟩
      rw [h0]
      show nearest (digitsVal ([48] ++ noZeros []) * 10 ^ (0 : Int).toNat) (10 ^ (noZeros []).length * 10 ^ (-(0 : Int)).toNat) = 0
      decide +kernel
  · rcases h with h | ⟨hf, hn⟩
    · exact absurd h h0
    · have hu := units_pos _ (Nat.pos_of_ne_zero h0)
      obtain ⟨b1, b2⟩ := sci_bounds P (units (mag v)) hP hu
      obtain ⟨c, t', e, hc⟩ := body_head P (sci P (units (mag v))).1 (sci P (units (mag v))).2 hP b1 b2
      refine ⟨_, c, t', ?_, e, hc, ?_⟩
      · unfold printG; rw [if_neg h0, if_pos hf]
      · intro rest hr
        obtain ⟨a, b, hb, hab, hpd⟩ := parseDec_body P _ (sci P (units (mag v))).2 hP b1 b2 rest hr
        exact ⟨a, b, hpd, (nearest_congr _ _ _ _ hb (Nat.pow_pos (by decide)) hab).trans hn⟩

/-- Reading what was printed. -/
theorem extract_printG (P : Nat) (v : BitVec 32) (hP : 0 < P) (h : Enough P v) (ws rest : Bytes) (hw : ∀ c ∈ ws, isSpace c = true)
    (hr : NumStop rest) : extract (ws ++ (printG P v ++ rest)) = (v, some rest) := by
  obtain ⟨t, c, t', e, et, hc, hp⟩ := printG_form P v hP h
  obtain ⟨a, b, hpd, hn⟩ := hp rest hr
  have hfin : mag v < infMag := by
    rcases h with h | h
    · rw [h]; decide
    · exact h.1
  have hsign : signOf ((printG P v ++ rest).dropWhile isSpace) = (v.msb, t ++ rest) := by
    rw [e, et]
    cases v.msb with
    | true => rfl
    | false =>
      have h45 : c ≠ 45 := isDigit_ne c hc 45 (by simp)
      have h43 : c ≠ 43 := isDigit_ne c hc 43 (by simp)
      show signOf ((c :: (t' ++ rest)).dropWhile isSpace) = _
      rw [dropWhile_false _ _ (by intro x hx; simp at hx; subst hx; exact isDigit_not_space c hc)]
      simp [signOf, h45, h43]
  unfold extract
  rw [List.dropWhile_append_of_pos hw]
  have hcv : convert v.msb a b = .num v (mag v < 2 ^ 23 && a * 2 ^ 149 % b != 0) := by
    unfold convert
    rw [hn]
    have : ¬ mag v ≥ infMag := by omega
    simp only [this, if_false]
    rw [withSign_mag]
  simp only [hsign, hpd, hcv]
  rfl

end Verif.FText
