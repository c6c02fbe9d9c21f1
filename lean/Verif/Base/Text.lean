import Verif.Base.Bytes

/-!
# Decimal numbers as text

Printing with `std::to_chars`, `std::to_string` and `%d`, and parsing with `strtol` based functions
(`atoi`, `std::stoi`, `std::stoul`, `>>`), all in the "C" locale.
-/

namespace Verif

/-- Digit characters of `n`, most significant first; `fuel > n` is enough. -/
def decAux : Nat → Nat → Bytes
  | 0, _ => []
  | fuel + 1, n => if n < 10 then [UInt8.ofNat (48 + n)] else decAux fuel (n / 10) ++ [UInt8.ofNat (48 + n % 10)]

/-- The shortest decimal representation of a natural number (`std::to_chars`, `%u`). -/
def dec (n : Nat) : Bytes := decAux (n + 1) n

/-- The shortest decimal representation of an integer (`std::to_chars`, `%d`). -/
def decInt (i : Int) : Bytes := if i < 0 then 45 :: dec i.natAbs else dec i.natAbs

/-- `std::isdigit` in the "C" locale. -/
def isDigit (c : Byte) : Bool := 48 ≤ c && c ≤ 57

/-- `std::isspace` in the "C" locale: space, `\t`, `\n`, `\v`, `\f`, `\r`. -/
def isSpace (c : Byte) : Bool := c == 32 || (9 ≤ c && c ≤ 13)

/-- Value of a digit string. -/
def digitsVal (bs : Bytes) : Nat := bs.foldl (fun a c => a * 10 + (c.toNat - 48)) 0

/-- Splits an optional sign off; true for a minus sign. -/
def signOf : Bytes → Bool × Bytes
  | [] => (false, [])
  | c :: r => if c = 45 then (true, r) else if c = 43 then (false, r) else (false, c :: r)

/-- What `strtol(s, &end, 10)` recognises, before range checks: leading whitespace is skipped, then
an optional sign and at least one digit. Value and rest of the text; `none` when there is no digit.
The text ends at the first NUL (`c_str()`), which is not a digit. -/
def strtol (bs : Bytes) : Option (Int × Bytes) :=
  let sg := signOf (bs.dropWhile isSpace)
  let ds := sg.2.takeWhile isDigit
  if ds.isEmpty then none
  else some (if sg.1 then -(digitsVal ds : Int) else (digitsVal ds : Int), sg.2.dropWhile isDigit)

theorem decAux_eq (f1 f2 n : Nat) (h1 : n < f1) (h2 : n < f2) : decAux f1 n = decAux f2 n := by
  induction n using Nat.strongRecOn generalizing f1 f2 with
  | ind n ih =>
    cases f1 with
    | zero => omega
    | succ f1 =>
    cases f2 with
    | zero => omega
    | succ f2 =>
      simp only [decAux]
      split
      · rfl
      · rw [ih (n / 10) (by omega) f1 f2 (by omega) (by omega)]

theorem dec_lt (n : Nat) (h : n < 10) : dec n = [UInt8.ofNat (48 + n)] := by simp [dec, decAux, h]

theorem dec_ge (n : Nat) (h : 10 ≤ n) : dec n = dec (n / 10) ++ [UInt8.ofNat (48 + n % 10)] := by
  have : ¬ n < 10 := by omega
  simp only [dec, decAux, this, if_false]
  rw [decAux_eq n (n / 10 + 1) (n / 10) (by omega) (by omega)]
  simp [decAux]

theorem digitsVal_append (a : Bytes) (c : Byte) :
    digitsVal (a ++ [c]) = digitsVal a * 10 + (c.toNat - 48) := by simp [digitsVal]

theorem toNat_digit (n : Nat) (h : n < 10) : (UInt8.ofNat (48 + n)).toNat = 48 + n := by
  rw [UInt8.toNat_ofNat']; omega

theorem isDigit_digit (n : Nat) (h : n < 10) : isDigit (UInt8.ofNat (48 + n)) = true := by
  have := toNat_digit n h
  simp only [isDigit, Bool.and_eq_true, decide_eq_true_eq, UInt8.le_iff_toNat_le, this]
  exact ⟨by simp, by simp; omega⟩

theorem digitsVal_dec (n : Nat) : digitsVal (dec n) = n := by
  induction n using Nat.strongRecOn with
  | ind n ih =>
    by_cases h : n < 10
    · rw [dec_lt n h]; simp only [digitsVal, List.foldl, toNat_digit n h]; omega
    · rw [dec_ge n (by omega), digitsVal_append, ih (n / 10) (by omega), toNat_digit _ (by omega)]; omega

theorem dec_digits (n : Nat) : ∀ c ∈ dec n, isDigit c = true := by
  induction n using Nat.strongRecOn with
  | ind n ih =>
    by_cases h : n < 10
    · rw [dec_lt n h]; intro c hc; simp only [List.mem_singleton] at hc; rw [hc]; exact isDigit_digit n h
    · rw [dec_ge n (by omega)]
      intro c hc
      rw [List.mem_append, List.mem_singleton] at hc
      rcases hc with hc | hc
      · exact ih _ (by omega) c hc
      · rw [hc]; exact isDigit_digit _ (by omega)

theorem dec_ne_nil (n : Nat) : dec n ≠ [] := by
  by_cases h : n < 10
  · rw [dec_lt n h]; simp
  · rw [dec_ge n (by omega)]; simp

theorem dec_length_pos (n : Nat) : 0 < (dec n).length := List.length_pos_iff.2 (dec_ne_nil n)

theorem dec_length_le (n k : Nat) (hk : 0 < k) (h : n < 10 ^ k) : (dec n).length ≤ k := by
  induction k generalizing n with
  | zero => omega
  | succ k ih =>
    by_cases h10 : n < 10
    · rw [dec_lt n h10]; simp
    · rw [dec_ge n (by omega), List.length_append, List.length_singleton]
      by_cases hk0 : k = 0
      · subst hk0; simp at h; omega
      · have := ih (n / 10) (by omega) (by rw [Nat.pow_succ] at h; omega)
        omega

theorem lt_pow_dec_length (n : Nat) : n < 10 ^ (dec n).length := by
  induction n using Nat.strongRecOn with
  | ind n ih =>
    by_cases h : n < 10
    · rw [dec_lt n h]; simpa using h
    · rw [dec_ge n (by omega), List.length_append, List.length_singleton, Nat.pow_succ]
      have := ih (n / 10) (by omega)
      omega

theorem decInt_ne_nil (i : Int) : decInt i ≠ [] := by
  unfold decInt; split
  · simp
  · exact dec_ne_nil _

theorem isDigit_iff (c : Byte) : isDigit c = true ↔ 48 ≤ c.toNat ∧ c.toNat ≤ 57 := by
  simp [isDigit, UInt8.le_iff_toNat_le]

theorem isDigit_not_space (c : Byte) (h : isDigit c = true) : isSpace c = false := by
  rw [isDigit_iff] at h
  rw [← Bool.not_eq_true]
  intro hs
  simp only [isSpace, Bool.or_eq_true, beq_iff_eq, Bool.and_eq_true, decide_eq_true_eq, UInt8.le_iff_toNat_le] at hs
  rcases hs with rfl | hs
  · simp at h
  · have e : (13 : UInt8).toNat = 13 := rfl
    omega

/-- No sign or space among digits. -/
theorem isDigit_ne (c : Byte) (h : isDigit c = true) (d : Byte) (hd : d.toNat < 48 ∨ 57 < d.toNat) : c ≠ d := by
  rw [isDigit_iff] at h
  intro e; subst e; omega

/-- The characters of a decimal number are digits and the minus sign. -/
theorem decInt_chars (i : Int) : ∀ c ∈ decInt i, c = 45 ∨ isDigit c = true := by
  intro c hc
  unfold decInt at hc
  split at hc
  · rw [List.mem_cons] at hc
    rcases hc with h | h
    · exact .inl h
    · exact .inr (dec_digits _ c h)
  · exact .inr (dec_digits _ c hc)

theorem dropWhile_false {α} (p : α → Bool) (l : List α) (h : ∀ a, l.head? = some a → p a = false) :
    l.dropWhile p = l := by
  cases l with
  | nil => rfl
  | cons a l => rw [List.dropWhile_cons_of_neg (by simp [h a rfl])]

theorem takeWhile_append_stop {α} (p : α → Bool) (a b : List α) (ha : ∀ x ∈ a, p x = true)
    (hb : ∀ x, b.head? = some x → p x = false) : (a ++ b).takeWhile p = a := by
  rw [List.takeWhile_append_of_pos ha]
  cases b with
  | nil => simp
  | cons x b => rw [List.takeWhile_cons_of_neg (by simp [hb x rfl])]; simp

theorem dropWhile_append_stop {α} (p : α → Bool) (a b : List α) (ha : ∀ x ∈ a, p x = true)
    (hb : ∀ x, b.head? = some x → p x = false) : (a ++ b).dropWhile p = b := by
  rw [List.dropWhile_append_of_pos ha, dropWhile_false p b hb]

/-- Parsing what was printed, when no digit follows. -/
theorem strtol_decInt (i : Int) (rest : Bytes) (hr : ∀ c, rest.head? = some c → isDigit c = false) :
    strtol (decInt i ++ rest) = some (i, rest) := by
  have hd : ∀ n, (dec n ++ rest).takeWhile isDigit = dec n := fun n =>
    takeWhile_append_stop isDigit _ _ (dec_digits n) hr
  have hd2 : ∀ n, (dec n ++ rest).dropWhile isDigit = rest := fun n =>
    dropWhile_append_stop isDigit _ _ (dec_digits n) hr
  unfold decInt
  split
  · rename_i hneg
    have e0 : List.dropWhile isSpace (45 :: dec i.natAbs ++ rest) = 45 :: (dec i.natAbs ++ rest) :=
      dropWhile_false _ _ (by intro a ha; simp at ha; subst ha; rfl)
    unfold strtol
    rw [e0]
    simp only [signOf, if_true, hd, hd2, digitsVal_dec]
    have : (dec i.natAbs).isEmpty = false := by simp [dec_ne_nil]
    rw [this]; simp; omega
  · rename_i hneg
    cases hc : dec i.natAbs with
    | nil => exact absurd hc (dec_ne_nil _)
    | cons c cs =>
      have hcd : isDigit c = true := dec_digits i.natAbs c (by rw [hc]; simp)
      have e0 : List.dropWhile isSpace (c :: cs ++ rest) = c :: (cs ++ rest) :=
        dropWhile_false _ _ (by intro a ha; simp at ha; subst ha; exact isDigit_not_space c hcd)
      unfold strtol
      simp only [e0]
      have h45 : c ≠ 45 := isDigit_ne c hcd 45 (by simp)
      have h43 : c ≠ 43 := isDigit_ne c hcd 43 (by simp)
      have em : signOf (c :: (cs ++ rest)) = (false, c :: (cs ++ rest)) := by
        simp [signOf, h45, h43]
      rw [em]
      have ha := hd i.natAbs
      have hb := hd2 i.natAbs
      have hv := digitsVal_dec i.natAbs
      rw [hc] at ha hb hv
      simp only [List.cons_append] at ha hb
      simp only [ha, hb, hv]
      simp; omega

theorem strtol_decInt' (i : Int) : strtol (decInt i) = some (i, []) := by
  have := strtol_decInt i [] (by simp)
  simpa using this

end Verif
