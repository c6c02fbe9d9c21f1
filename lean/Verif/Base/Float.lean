import Verif.Base.Text
import Mathlib.Tactic.Ring

/-!
# Single precision numbers as text

Printing with `%f` (`std::to_string(float)`) and parsing with `strtof` (`std::stof`, `>>`), both correctly rounded
as in the C libraries of the supported platforms, in the "C" locale and the default rounding mode.
Numbers are bit patterns; the magnitude `m * 2 ^ k * 2 ^ -149` of a finite pattern is given by `m` and `k`.
-/

namespace Verif.FText

/-- The pattern without its sign. -/
def mag (v : BitVec 32) : Nat := v.toNat % 2 ^ 31

/-- The pattern of infinity without its sign. -/
def infMag : Nat := 0x7F800000

/-- The significand of a finite magnitude. -/
def sig (p : Nat) : Nat := if p < 2 ^ 23 then p else p % 2 ^ 23 + 2 ^ 23

/-- The exponent of a finite magnitude, counted from that of the subnormal numbers. -/
def expo (p : Nat) : Nat := if p < 2 ^ 23 then 0 else p / 2 ^ 23 - 1

/-- The magnitude in units of `2 ^ -149`. -/
def units (p : Nat) : Nat := sig p * 2 ^ expo p

/-- `a / b` rounded to the nearest integer, ties to even. -/
def roundDiv (a b : Nat) : Nat :=
  if 2 * (a % b) < b then a / b
  else if b < 2 * (a % b) then a / b + 1
  else if (a / b) % 2 = 0 then a / b else a / b + 1

/-- The number in millionths, rounded. -/
def micros (p : Nat) : Nat := roundDiv (units p * 10 ^ 6) (2 ^ 149)

/-- Six digits. -/
def six (n : Nat) : Bytes :=
  [n / 100000, n / 10000 % 10, n / 1000 % 10, n / 100 % 10, n / 10 % 10, n % 10].map (fun d => UInt8.ofNat (48 + d))

/-- `%f`. -/
def print (v : BitVec 32) : Bytes :=
  (if v.msb then [45] else []) ++
    (if mag v < infMag then dec (micros (mag v) / 10 ^ 6) ++ 46 :: six (micros (mag v) % 10 ^ 6)
     else if mag v = infMag then b!"inf" else b!"nan")

/-- The exponent of the result of rounding `a / b`. -/
def pickExpo (a b : Nat) : Nat := Nat.log2 (a * 2 ^ 149 / b) - 23

/-- The magnitude nearest to `a / b`; it may be infinite. -/
def nearest (a b : Nat) : Nat :=
  pickExpo a b * 2 ^ 23 + roundDiv (a * 2 ^ 149) (b * 2 ^ pickExpo a b)

/-- The result of a conversion of text to a number. -/
inductive Conv where
  /-- no number -/
  | invalid
  /-- a number that is too large -/
  | overflow (neg : Bool)
  /-- a number, and whether `ERANGE` is reported because it is not exact and subnormal -/
  | num (v : BitVec 32) (underflow : Bool)
  deriving DecidableEq, Repr

def withSign (neg : Bool) (p : Nat) : BitVec 32 := BitVec.ofNat 32 (p + if neg then 2 ^ 31 else 0)

/-- `[eE][+-]?[0-9]+`: the exponent and the rest; 0 when there is none. -/
def parseExp (s : Bytes) : Int × Bytes :=
  match s with
  | c :: r =>
    if c = 101 ∨ c = 69 then
      let sg := signOf r
      let ds := sg.2.takeWhile isDigit
      if ds.isEmpty then (0, s)
      else (if sg.1 then -(digitsVal ds : Int) else (digitsVal ds : Int), sg.2.dropWhile isDigit)
    else (0, s)
  | [] => (0, s)

/-- `[0-9]*(\.[0-9]*)?` with at least one digit, and an exponent: numerator, denominator, rest. -/
def parseDec (s : Bytes) : Option (Nat × Nat × Bytes) :=
  let ds := s.takeWhile isDigit
  let r := s.dropWhile isDigit
  let (fs, r) := match r with
    | c :: t => if c = 46 then (t.takeWhile isDigit, t.dropWhile isDigit) else ([], r)
    | [] => ([], r)
  if ds.isEmpty && fs.isEmpty then none
  else
    let (e, r) := parseExp r
    some (digitsVal (ds ++ fs) * 10 ^ e.toNat, 10 ^ fs.length * 10 ^ (-e).toNat, r)

/-- Upper case letters become lower case. -/
def lower (c : Byte) : Byte := if 65 ≤ c ∧ c ≤ 90 then c + 32 else c

/-- The number `a / b` as a float. -/
def convert (neg : Bool) (a b : Nat) : Conv :=
  let p := nearest a b
  if p ≥ infMag then .overflow neg
  else .num (withSign neg p) (p < 2 ^ 23 && a * 2 ^ 149 % b != 0)

/-- `strtof`: the result and the rest of the text. Simplifications: hexadecimal numbers are read up to the `x`, and
the `(...)` behind `nan` is not part of it. -/
def strtof (s : Bytes) : Conv × Bytes :=
  let sg := signOf (s.dropWhile isSpace)
  match parseDec sg.2 with
  | some (a, b, r) => (convert sg.1 a b, r)
  | none =>
    let l := sg.2.map lower
    if b!"infinity".isPrefixOf l then (.num (withSign sg.1 infMag) false, sg.2.drop 8)
    else if b!"inf".isPrefixOf l then (.num (withSign sg.1 infMag) false, sg.2.drop 3)
    else if b!"nan".isPrefixOf l then (.num (withSign sg.1 0x7FC00000) false, sg.2.drop 3)
    else (.invalid, s)

/-- What `num_get` stores. -/
def Conv.stored : Conv → BitVec 32
  | .num v _ => v
  | .overflow neg => withSign neg 0x7F7FFFFF
  | .invalid => 0

def Conv.good : Conv → Bool
  | .num _ _ => true
  | _ => false

/-- One `stream >> x` of a `float`: the new value of `x` and the rest, `none` when the stream failed. A failed
extraction stores zero or the largest number. Simplification: `num_get` collects the longest text made of digits,
signs, `.` and `e` and converts that, and fails if only a part of it is a number; the text here always ends with
the number. -/
def extract (s : Bytes) : BitVec 32 × Option Bytes :=
  let t := s.dropWhile isSpace
  let sg := signOf t
  match parseDec sg.2 with
  | none => (0, none)
  | some (a, b, r) =>
    let c := convert sg.1 a b
    (c.stored, if c.good then some r else none)

/-! ## Rounding -/

theorem roundDiv_eq (a b m : Nat) (h1 : 2 * m * b < 2 * a + b) (h2 : 2 * a < 2 * m * b + b) :
    roundDiv a b = m := by
  have hb : 0 < b := by
    rcases Nat.eq_zero_or_pos b with h | h
    · subst h; simp only [Nat.mul_zero, Nat.add_zero] at h1 h2; omega
    · exact h
  have hdm := Nat.div_add_mod a b
  have hlt := Nat.mod_lt a hb
  generalize hq : a / b = q at *
  generalize a % b = r at *
  have hqm : q = m ∨ q + 1 = m := by
    rcases Nat.lt_trichotomy q m with h | h | h
    · right
      apply Classical.byContradiction
      intro hne
      have : q + 2 ≤ m := by omega
      have := Nat.mul_le_mul_right b this
      have e1 : 2 * m * b = 2 * (m * b) := by ring
      have e2 : (q + 2) * b = b * q + 2 * b := by ring
      omega
    · exact .inl h
    · have : m + 1 ≤ q := h
      have := Nat.mul_le_mul_right b this
      have e1 : 2 * m * b = 2 * (m * b) := by ring
      have e2 : (m + 1) * b = m * b + b := by ring
      have e3 : q * b = b * q := by ring
      omega
  unfold roundDiv
  rw [hq]
  have hr : a % b = r := by
    have := Nat.div_add_mod a b
    rw [hq] at this; omega
  rw [hr]
  rcases hqm with rfl | rfl
  · have e1 : 2 * q * b = 2 * (b * q) := by ring
    rw [if_pos (by omega)]
  · have e1 : 2 * (q + 1) * b = 2 * (b * q) + 2 * b := by ring
    rw [if_neg (by omega), if_pos (by omega)]

/-- The exponent picked for a quotient between two powers. -/
theorem log2_pick (q k : Nat) (hup : q < 2 ^ (24 + k)) (hlo : k = 0 ∨ 2 ^ (23 + k) ≤ q) : Nat.log2 q - 23 = k := by
  rcases Nat.eq_zero_or_pos q with rfl | hq
  · rcases hlo with rfl | h
    · decide
    · have := Nat.two_pow_pos (23 + k)
      omega
  · have g1 : Nat.log2 q < 24 + k := (Nat.log2_lt (by omega)).2 hup
    rcases hlo with rfl | h
    · omega
    · have g2 : 23 + k ≤ Nat.log2 q := (Nat.le_log2 (by omega)).2 h
      omega

theorem pick_core (A b m k T : Nat) (hT : T = 2 ^ 23) (hm : m + 1 ≤ 2 * T) (hk : T ≤ m ∨ k = 0) (hb : 0 < b)
    (h1 : 2 * m * (b * 2 ^ k) < 2 * A + b * 2 ^ k)
    (h2 : 2 * A < 2 * m * (b * 2 ^ k) + b * 2 ^ k)
    (h3 : m ≠ T ∨ k = 0 ∨ m * (b * 2 ^ k) ≤ A) : Nat.log2 (A / b) - 23 = k := by
  rw [Nat.mul_assoc] at h1 h2
  apply log2_pick
  · rw [Nat.div_lt_iff_lt_mul hb]
    have e24 : 2 ^ (24 + k) * b = 2 * T * (b * 2 ^ k) := by
      rw [Nat.pow_add, Nat.mul_assoc, Nat.mul_comm (2 ^ k), hT, ← Nat.pow_succ']
    rw [e24]
    have e2 : (m + 1) * (b * 2 ^ k) ≤ 2 * T * (b * 2 ^ k) := Nat.mul_le_mul_right _ hm
    rw [Nat.add_mul, Nat.one_mul] at e2
    omega
  · by_cases hk0 : k = 0
    · exact .inl hk0
    · right
      rw [Nat.le_div_iff_mul_le hb]
      have e23 : 2 ^ (23 + k) * b = T * (b * 2 ^ k) := by
        rw [Nat.pow_add, Nat.mul_assoc, Nat.mul_comm (2 ^ k), hT]
      rw [e23]
      have hk : T ≤ m := by omega
      by_cases he : m = T
      · have h : m * (b * 2 ^ k) ≤ A := by
          rcases h3 with h | h | h
          · exact absurd he h
          · exact absurd h hk0
          · exact h
        exact Nat.le_trans (Nat.mul_le_mul_right _ hk) h
      · have e2 : (T + 1) * (b * 2 ^ k) ≤ m * (b * 2 ^ k) := Nat.mul_le_mul_right _ (by omega)
        rw [Nat.add_mul, Nat.one_mul] at e2
        omega

/-- A text that is closer than half a unit of the last place to a number with exponent `k` is rounded to it. -/
theorem nearest_eq (a b m k : Nat) (hm : m + 1 ≤ 2 * 2 ^ 23) (hk : 2 ^ 23 ≤ m ∨ k = 0) (hb : 0 < b)
    (h1 : 2 * m * (b * 2 ^ k) < 2 * (a * 2 ^ 149) + b * 2 ^ k)
    (h2 : 2 * (a * 2 ^ 149) < 2 * m * (b * 2 ^ k) + b * 2 ^ k)
    (h3 : m ≠ 2 ^ 23 ∨ k = 0 ∨ m * (b * 2 ^ k) ≤ a * 2 ^ 149) :
    nearest a b = k * 2 ^ 23 + m := by
  unfold nearest pickExpo
  rw [pick_core (a * 2 ^ 149) b m k (2 ^ 23) rfl hm hk hb h1 h2 h3, roundDiv_eq _ _ m h1 h2]

theorem roundDiv_bounds (a b : Nat) (hb : 0 < b) : 2 * a ≤ 2 * (roundDiv a b * b) + b ∧ 2 * (roundDiv a b * b) ≤ 2 * a + b := by
  have hdm := Nat.div_add_mod a b
  have hlt := Nat.mod_lt a hb
  have e1 : (a / b) * b = b * (a / b) := by ring
  have e2 : (a / b + 1) * b = b * (a / b) + b := by ring
  unfold roundDiv
  split
  · omega
  · split
    · omega
    · split <;> omega

theorem roundDiv_exact (a b : Nat) (hb : 0 < b) (h : b ∣ a) : roundDiv a b * b = a := by
  obtain ⟨c, rfl⟩ := h
  unfold roundDiv
  rw [Nat.mul_mod_right, if_pos (by omega), Nat.mul_div_cancel_left _ hb]
  ring

theorem mag_split (p : Nat) :
    p = expo p * 2 ^ 23 + sig p ∧ sig p + 1 ≤ 2 * 2 ^ 23 ∧ (2 ^ 23 ≤ sig p ∨ expo p = 0) := by
  unfold expo sig
  split
  · omega
  · omega

/-- A finite number whose text holds all of it: it is at least 16, or a multiple of a millionth. -/
def Printable (v : BitVec 32) : Prop :=
  mag v < infMag ∧ (0x41800000 ≤ mag v ∨ units (mag v) * 10 ^ 6 % 2 ^ 149 = 0)

instance (v : BitVec 32) : Decidable (Printable v) := inferInstanceAs (Decidable (_ ∧ _))

theorem nearest_exact (a p : Nat) (h : a * 2 ^ 149 = units p * 10 ^ 6) : nearest a (10 ^ 6) = p := by
  obtain ⟨hp, hs, hk⟩ := mag_split p
  have hu : a * 2 ^ 149 = sig p * (10 ^ 6 * 2 ^ expo p) := by
    rw [h, units, Nat.mul_assoc, Nat.mul_comm (2 ^ expo p)]
  have hpos : 0 < 10 ^ 6 * 2 ^ expo p := Nat.mul_pos (by decide) (Nat.two_pow_pos _)
  refine (nearest_eq a (10 ^ 6) (sig p) (expo p) hs hk (by decide) ?_ ?_ (.inr (.inr (Nat.le_of_eq hu.symm)))).trans hp.symm
  · rw [hu, Nat.mul_assoc]; exact Nat.lt_add_of_pos_right hpos
  · rw [hu, Nat.mul_assoc]; exact Nat.lt_add_of_pos_right hpos

theorem nearest_close (a p Q : Nat) (hQ : Q = 2 ^ 149) (h1 : 2 * (units p * 10 ^ 6) ≤ 2 * (a * Q) + Q)
    (h2 : 2 * (a * Q) ≤ 2 * (units p * 10 ^ 6) + Q) (he : 130 ≤ expo p) (hne : sig p ≠ 2 ^ 23) :
    nearest a (10 ^ 6) = p := by
  obtain ⟨hp, hs, hk⟩ := mag_split p
  have hu : units p * 10 ^ 6 = sig p * (10 ^ 6 * 2 ^ expo p) := by
    rw [units, Nat.mul_assoc, Nat.mul_comm (2 ^ expo p)]
  have hbig : Q < 10 ^ 6 * 2 ^ expo p := by
    rw [hQ]
    calc 2 ^ 149 < 10 ^ 6 * 2 ^ 130 := by decide
      _ ≤ _ := Nat.mul_le_mul_left _ (Nat.pow_le_pow_right (by decide) he)
  rw [hu] at h1 h2
  refine (nearest_eq a (10 ^ 6) (sig p) (expo p) hs hk (by decide) ?_ ?_ (.inl hne)).trans hp.symm
  · rw [← hQ, Nat.mul_assoc]; omega
  · rw [← hQ, Nat.mul_assoc]; omega

theorem nearest_micros (p : Nat) (h : 0x41800000 ≤ p ∨ units p * 10 ^ 6 % 2 ^ 149 = 0) :
    nearest (micros p) (10 ^ 6) = p := by
  by_cases hd : units p * 10 ^ 6 % 2 ^ 149 = 0
  · exact nearest_exact _ _ (roundDiv_exact _ _ (Nat.two_pow_pos _) (Nat.dvd_of_mod_eq_zero hd))
  · have hge : 0x41800000 ≤ p := by
      rcases h with h | h
      · exact h
      · exact absurd h hd
    have he : 130 ≤ expo p := by unfold expo; split <;> omega
    obtain ⟨b1, b2⟩ := roundDiv_bounds (units p * 10 ^ 6) (2 ^ 149) (Nat.two_pow_pos _)
    refine nearest_close _ _ (2 ^ 149) rfl b1 b2 he ?_
    intro hsig
    apply hd
    obtain ⟨e, he⟩ := Nat.exists_eq_add_of_le he
    have : units p * 10 ^ 6 = 2 ^ 149 * (2 ^ e * 16000000) := by
      rw [units, hsig, he]
      rw [Nat.pow_add]
      ring
    rw [this, Nat.mul_mod_right]

/-! ## Text -/

theorem six_digits (n : Nat) (h : n < 10 ^ 6) : ∀ c ∈ six n, isDigit c = true := by
  intro c hc
  simp only [six, List.mem_map] at hc
  obtain ⟨d, hd, rfl⟩ := hc
  apply isDigit_digit
  simp only [List.mem_cons, List.not_mem_nil, or_false] at hd
  rcases hd with h | h | h | h | h | h <;> omega

theorem digitsVal_app (a b : Bytes) : digitsVal (a ++ b) = digitsVal a * 10 ^ b.length + digitsVal b := by
  have gen : ∀ (b : Bytes) (x : Nat), b.foldl (fun a c => a * 10 + (c.toNat - 48)) x =
      x * 10 ^ b.length + b.foldl (fun a c => a * 10 + (c.toNat - 48)) 0 := by
    intro b
    induction b with
    | nil => intro x; simp
    | cons c b ih =>
      intro x
      rw [List.foldl_cons, List.foldl_cons, ih, ih (0 * 10 + _), List.length_cons, Nat.pow_succ]
      ring
  unfold digitsVal
  rw [List.foldl_append, gen]

theorem digitsVal_six (n : Nat) (h : n < 10 ^ 6) : digitsVal (six n) = n := by
  have t : ∀ d, d < 10 → (UInt8.ofNat (48 + d)).toNat - 48 = d := by
    intro d hd
    rw [toNat_digit d hd]; omega
  simp only [six, digitsVal, List.map_cons, List.map_nil, List.foldl_cons, List.foldl_nil]
  rw [t _ (by omega), t _ (by omega), t _ (by omega), t _ (by omega), t _ (by omega), t _ (by omega)]
  omega

/-- Text that does not continue a number. -/
def NumEnd (rest : Bytes) : Prop := ∀ c, rest.head? = some c → isDigit c = false ∧ c ≠ 101 ∧ c ≠ 69

theorem parseDec_print (a b : Nat) (hb : b < 10 ^ 6) (rest : Bytes) (hr : NumEnd rest) :
    parseDec (dec a ++ 46 :: (six b ++ rest)) = some (a * 10 ^ 6 + b, 10 ^ 6, rest) := by
  have h1 : (dec a ++ 46 :: (six b ++ rest)).takeWhile isDigit = dec a :=
    takeWhile_append_stop _ _ _ (dec_digits a) (by intro c hc; simp at hc; subst hc; rfl)
  have h2 : (dec a ++ 46 :: (six b ++ rest)).dropWhile isDigit = 46 :: (six b ++ rest) :=
    dropWhile_append_stop _ _ _ (dec_digits a) (by intro c hc; simp at hc; subst hc; rfl)
  have h3 : (six b ++ rest).takeWhile isDigit = six b :=
    takeWhile_append_stop _ _ _ (six_digits b hb) (fun c hc => (hr c hc).1)
  have h4 : (six b ++ rest).dropWhile isDigit = rest :=
    dropWhile_append_stop _ _ _ (six_digits b hb) (fun c hc => (hr c hc).1)
  have h5 : parseExp rest = (0, rest) := by
    unfold parseExp
    cases rest with
    | nil => rfl
    | cons c r =>
      have := hr c rfl
      simp [this.2]
  unfold parseDec
  simp only [h1, h2, if_true, h3, h4, h5]
  have h6 : (dec a).isEmpty = false := by simp [dec_ne_nil]
  rw [h6]
  have h7 : digitsVal (dec a ++ six b) = a * 10 ^ 6 + b := by
    rw [digitsVal_app, digitsVal_dec, digitsVal_six b hb]; rfl
  simp only [Bool.false_and, Bool.false_eq_true, if_false, h7]
  simp [six]

theorem withSign_mag (v : BitVec 32) : withSign v.msb (mag v) = v := by
  apply BitVec.eq_of_toNat_eq
  have h := v.isLt
  have hm := BitVec.msb_eq_decide v
  unfold withSign mag
  rw [hm, BitVec.toNat_ofNat]
  by_cases hc : 2 ^ (32 - 1) ≤ v.toNat
  · simp only [hc, decide_true, if_true]; omega
  · simp only [hc, decide_false, Bool.false_eq_true, if_false]; omega

/-- The text of a finite number behind its sign, parsed. -/
theorem convert_micros (v : BitVec 32) (h : Printable v) (neg : Bool) (hn : neg = v.msb) :
    convert neg (micros (mag v)) (10 ^ 6) = .num v (mag v < 2 ^ 23 && micros (mag v) * 2 ^ 149 % 10 ^ 6 != 0) := by
  unfold convert
  rw [nearest_micros _ h.2]
  have : ¬ mag v ≥ infMag := by have := h.1; omega
  simp only [this, if_false]
  rw [hn, withSign_mag]

theorem units_small (p : Nat) (h : p < 2 ^ 23) : units p = p := by
  unfold units sig expo
  rw [if_pos h, if_pos h]; simp

/-- A subnormal number that is a multiple of a millionth is zero. -/
theorem micros_small (v : BitVec 32) (hs : mag v < 2 ^ 23) : micros (mag v) = 0 := by
  unfold micros
  rw [units_small _ hs]
  have hlt : mag v * 10 ^ 6 < 2 ^ 148 := by
    calc mag v * 10 ^ 6 ≤ 2 ^ 23 * 10 ^ 6 := Nat.mul_le_mul_right _ (Nat.le_of_lt hs)
      _ < 2 ^ 148 := by decide
  have h2 : (2 : Nat) ^ 149 = 2 * 2 ^ 148 := by rw [← Nat.pow_succ']
  unfold roundDiv
  rw [Nat.mod_eq_of_lt (by omega), if_pos (by omega), Nat.div_eq_of_lt (by omega)]

theorem convert_print (v : BitVec 32) (h : Printable v) (neg : Bool) (hn : neg = v.msb) :
    convert neg (micros (mag v)) (10 ^ 6) = .num v false := by
  rw [convert_micros v h neg hn]
  by_cases hs : mag v < 2 ^ 23
  · rw [micros_small v hs]; simp
  · have e : decide (mag v < 2 ^ 23) = false := by simp only [hs, decide_false]
    rw [e, Bool.false_and]

theorem print_eq (v : BitVec 32) (h : Printable v) :
    print v = (if v.msb then [45] else []) ++ (dec (micros (mag v) / 10 ^ 6) ++ 46 :: six (micros (mag v) % 10 ^ 6)) := by
  unfold print
  rw [if_pos h.1]

/-- A sign and the rest of a number. -/
theorem signOf_text (neg : Bool) (a : Nat) (b rest : Bytes) :
    signOf ((((if neg then [45] else []) ++ (dec a ++ 46 :: b)) ++ rest).dropWhile isSpace) =
      (neg, dec a ++ 46 :: (b ++ rest)) := by
  cases neg with
  | true =>
    simp only [if_true, List.cons_append, List.nil_append, List.append_assoc]
    rw [dropWhile_false _ _ (by intro x hx; simp at hx; subst hx; rfl)]
    simp [signOf]
  | false =>
    simp only [Bool.false_eq_true, if_false, List.nil_append, List.append_assoc, List.cons_append]
    cases hc : dec a with
    | nil => exact absurd hc (dec_ne_nil _)
    | cons c cs =>
      have hcd : isDigit c = true := dec_digits a c (by rw [hc]; simp)
      rw [List.cons_append, dropWhile_false _ _ (by intro x hx; simp at hx; subst hx; exact isDigit_not_space c hcd)]
      have h45 : c ≠ 45 := isDigit_ne c hcd 45 (by simp)
      have h43 : c ≠ 43 := isDigit_ne c hcd 43 (by simp)
      simp [signOf, h45, h43]

/-- The text of a printed number and what it stands for. -/
theorem print_form (v : BitVec 32) (h : Printable v) : ∃ a b, b < 10 ^ 6 ∧
    print v = (if v.msb then [45] else []) ++ (dec a ++ 46 :: six b) ∧
    convert v.msb (a * 10 ^ 6 + b) (10 ^ 6) = .num v false := by
  refine ⟨_, _, Nat.mod_lt _ (by decide), print_eq v h, ?_⟩
  have e : ∀ n, n / 10 ^ 6 * 10 ^ 6 + n % 10 ^ 6 = n := by intro n; omega
  rw [e]
  exact convert_print v h v.msb rfl

theorem strtof_print (v : BitVec 32) (h : Printable v) (rest : Bytes) (hr : NumEnd rest) :
    strtof (print v ++ rest) = (.num v false, rest) := by
  obtain ⟨a, b, hb, e1, e2⟩ := print_form v h
  rw [e1]
  unfold strtof
  simp only [signOf_text, parseDec_print _ _ hb rest hr, e2]

theorem extract_print (v : BitVec 32) (h : Printable v) (rest ws : Bytes) (hw : ∀ c ∈ ws, isSpace c = true)
    (hr : NumEnd rest) : extract (ws ++ (print v ++ rest)) = (v, some rest) := by
  obtain ⟨a, b, hb, e1, e2⟩ := print_form v h
  rw [e1]
  unfold extract
  rw [List.dropWhile_append_of_pos hw]
  simp only [signOf_text, parseDec_print _ _ hb rest hr, e2]
  rfl

/-- No line break in a printed number. -/
theorem print_chars (v : BitVec 32) (h : Printable v) : ∀ c ∈ print v, c = 45 ∨ c = 46 ∨ isDigit c = true := by
  intro c hc
  rw [print_eq v h] at hc
  simp only [List.mem_append, List.mem_cons] at hc
  rcases hc with h | h | h | h
  · split at h
    · simp at h; exact .inl h
    · simp at h
  · exact .inr (.inr (dec_digits _ c h))
  · exact .inr (.inl h)
  · exact .inr (.inr (six_digits _ (Nat.mod_lt _ (by decide)) c h))

example : Printable 0x41800000 ∧ Printable 0x3FC00000 ∧ ¬ Printable 0x3DCCCCCD ∧ Printable 0x80000000 := by decide +kernel

end Verif.FText
