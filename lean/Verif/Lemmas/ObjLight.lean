import Verif.Spec.ObjLight
import Verif.Lemmas.ObjVob
import Mathlib.Data.List.TakeWhile

/-! # Lemmas: lights and materials -/

namespace Verif.FText

/-! ### Whole numbers with `%g` -/

theorem dec_mul_pow (n k : Nat) (hn : 0 < n) : dec (n * 10 ^ k) = dec n ++ List.replicate k 48 := by
  induction k with
  | zero => simp
  | succ k ih =>
    have hp : 0 < 10 ^ k := Nat.pow_pos (by decide)
    have h1 : 0 < n * 10 ^ k := Nat.mul_pos hn hp
    have h2 : n * 10 ^ (k + 1) = n * 10 ^ k * 10 := by rw [Nat.pow_succ]; ring
    rw [h2, dec_ge _ (by omega), Nat.mul_div_cancel _ (by decide), ih, Nat.mul_mod_left, List.append_assoc,
      List.replicate_succ']
    rfl

theorem noZeros_replicate (k : Nat) : noZeros (List.replicate k 48) = [] := by
  unfold noZeros
  rw [List.reverse_replicate, List.reverse_eq_nil_iff, List.dropWhile_eq_nil_iff]
  intro c hc
  simp [(List.mem_replicate.1 hc).2]

theorem log10_eq (n k : Nat) (h1 : 10 ^ k ≤ n) (h2 : n < 10 ^ (k + 1)) : log10 n = k := by
  unfold log10
  rw [dec_length (k + 1) n (by omega) h1 h2]
  rfl

/-- Whole numbers of up to `P` digits are printed without point and exponent. -/
theorem printG_whole (P : Nat) (v : BitVec 32) (n : Nat) (hs : v.msb = false) (hf : mag v < infMag)
    (hu : units (mag v) = n * 2 ^ 149) (hn : n < 10 ^ P) : printG P v = dec n := by
  unfold printG
  rw [hs]
  by_cases h0 : mag v = 0
  · have : units (mag v) = 0 := by rw [h0]; rfl
    rw [this] at hu
    have hz : n = 0 := by
      rcases Nat.eq_zero_or_pos n with h | h
      · exact h
      · have := Nat.mul_pos h (Nat.two_pow_pos 149); omega
    rw [if_pos h0, hz]; rfl
  · have hup := units_pos _ (Nat.pos_of_ne_zero h0)
    have hn0 : 0 < n := by
      rcases Nat.eq_zero_or_pos n with h | h
      · rw [h, Nat.zero_mul] at hu; omega
      · exact h
    rw [if_neg h0, if_pos hf]
    have hL1 := pow_log10_le n hn0
    have hL2 := lt_pow_log10 n
    generalize hL : log10 n = L at *
    have hLP : L < P := by
      apply Classical.byContradiction
      intro h
      have : 10 ^ P ≤ 10 ^ L := Nat.pow_le_pow_right (by decide) (by omega)
      omega
    have hx : dexp (units (mag v)) = L + 45 := by
      unfold dexp
      have : units (mag v) * 10 ^ 45 / 2 ^ 149 = n * 10 ^ 45 := by
        rw [hu, Nat.mul_right_comm, Nat.mul_div_cancel _ (Nat.two_pow_pos _)]
      rw [this]
      apply log10_eq
      · rw [Nat.pow_add]; exact Nat.mul_le_mul_right _ hL1
      · have : 10 ^ (L + 45 + 1) = 10 ^ (L + 1) * 10 ^ 45 := by rw [← Nat.pow_add]
        rw [this]
        exact Nat.mul_lt_mul_of_pos_right hL2 (by decide)
    obtain ⟨e, he⟩ := Nat.exists_eq_add_of_le (Nat.succ_le_of_lt hLP)
    have hlead : lead P (units (mag v)) = n * 10 ^ e := by
      unfold lead
      rw [hx]
      have e1 : P + 44 - (L + 45) = e := by omega
      have e2 : L + 45 - (P + 44) = 0 := by omega
      rw [e1, e2, Nat.pow_zero, Nat.mul_one, hu]
      apply roundDiv_eq
      · have := Nat.two_pow_pos 149
        have e3 : n * 2 ^ 149 * 10 ^ e = n * 10 ^ e * 2 ^ 149 := by ring
        rw [e3, Nat.mul_assoc]; exact Nat.lt_add_of_pos_right this
      · have := Nat.two_pow_pos 149
        have e3 : n * 2 ^ 149 * 10 ^ e = n * 10 ^ e * 2 ^ 149 := by ring
        rw [e3, Nat.mul_assoc 2 (n * 10 ^ e)]; exact Nat.lt_add_of_pos_right this
    have hlt : n * 10 ^ e < 10 ^ P := by
      have : 10 ^ P = 10 ^ (L + 1) * 10 ^ e := by rw [← Nat.pow_add]; congr 1
      rw [this]
      exact Nat.mul_lt_mul_of_pos_right hL2 (Nat.pow_pos (by decide))
    have hsci : sci P (units (mag v)) = (n * 10 ^ e, L + 45) := by
      unfold sci
      rw [hlead, if_neg (by omega), hx]
    rw [hsci]
    have hlen : (dec n).length = L + 1 := by
      have := dec_length_pos n
      unfold log10 at hL
      omega
    unfold body
    dsimp only
    rw [if_neg (c := false = true) (by decide), List.nil_append, if_neg (by omega), if_pos (by omega), dec_mul_pow n e hn0]
    have e3 : L + 45 - 44 = (dec n).length := by omega
    rw [e3, List.take_left, List.drop_left]
    unfold pointed
    rw [if_pos (noZeros_replicate e)]

end Verif.FText

namespace Verif.Obj

open Verif.Ar

theorem NumStop_space (r : Bytes) : FText.NumStop (32 :: r) := by
  constructor <;> (intro c hc; cases hc; decide)

theorem NumStop_nil : FText.NumStop [] := by
  constructor <;> (intro c hc; cases hc)

theorem dropWhile_ws (ws t : Bytes) (hw : ∀ c ∈ ws, isSpace c = true) : (ws ++ t).dropWhile isSpace = t.dropWhile isSpace :=
  List.dropWhile_append_of_pos hw

theorem IStr.u32_dec (n : Nat) (ws rest : Bytes) (hn : n < 2 ^ 32) (hw : ∀ c ∈ ws, isSpace c = true)
    (hr : ∀ c, rest.head? = some c → isDigit c = false) :
    IStr.u32 ⟨ws ++ (dec n ++ rest), true⟩ = (some (BitVec.ofNat 32 n), ⟨rest, true⟩) := by
  have hd := dec_digits n
  have hv := digitsVal_dec n
  have hne := dec_ne_nil n
  generalize dec n = D at *
  obtain ⟨c, t, rfl⟩ := List.exists_cons_of_ne_nil hne
  have hc := hd c List.mem_cons_self
  have e : (ws ++ (c :: t ++ rest)).dropWhile isSpace = c :: (t ++ rest) := by
    rw [dropWhile_ws _ _ hw]
    exact dropWhile_false _ _ (by intro x hx; simp at hx; subst hx; exact isDigit_not_space c hc)
  have h45 : c ≠ 45 := isDigit_ne c hc 45 (by simp)
  have h43 : c ≠ 43 := isDigit_ne c hc 43 (by simp)
  have hs : signOf (c :: (t ++ rest)) = (false, c :: t ++ rest) := by simp [signOf, h45, h43]
  have h1 : (c :: t ++ rest).takeWhile isDigit = c :: t := takeWhile_append_stop _ _ _ hd hr
  have h2 : (c :: t ++ rest).dropWhile isDigit = rest := dropWhile_append_stop _ _ _ hd hr
  unfold IStr.u32
  simp only [if_true, e, hs, h1, h2, hv]
  rw [if_neg (by simp), if_neg (by omega)]
  simp

theorem IStr.float_printG (P : Nat) (v : F32) (ws rest : Bytes) (hP : 0 < P) (h : FText.Enough P v)
    (hw : ∀ c ∈ ws, isSpace c = true) (hr : FText.NumStop rest) :
    IStr.float ⟨ws ++ (FText.printG P v ++ rest), true⟩ = (some v, ⟨rest, true⟩) := by
  have hx := FText.extract_printG P v hP h [] rest (by simp) hr
  obtain ⟨t, c, t', e, et, hc, _⟩ := FText.printG_form P v hP h
  rw [List.nil_append] at hx
  have hne : ∃ a l, FText.printG P v ++ rest = a :: l ∧ isSpace a = false := by
    rw [e, et]
    cases v.msb with
    | true => exact ⟨45, _, rfl, rfl⟩
    | false => exact ⟨c, _, rfl, isDigit_not_space c hc⟩
  obtain ⟨a, l, hal, has⟩ := hne
  rw [hal] at hx
  have e2 : (ws ++ (FText.printG P v ++ rest)).dropWhile isSpace = a :: l := by
    rw [dropWhile_ws _ _ hw, hal]
    exact dropWhile_false _ _ (by intro x hx; simp at hx; subst hx; exact has)
  unfold IStr.float
  simp only [if_true, e2, hx]

theorem IStr.float_end (ws : Bytes) (hw : ∀ c ∈ ws, isSpace c = true) : IStr.float ⟨ws, true⟩ = (none, ⟨[], false⟩) := by
  have : ws.dropWhile isSpace = [] := List.dropWhile_eq_nil_iff.2 hw
  unfold IStr.float
  simp only [if_true, this]

theorem IStr.char_end (ws : Bytes) (hw : ∀ c ∈ ws, isSpace c = true) : IStr.char ⟨ws, true⟩ = (none, ⟨[], false⟩) := by
  have : ws.dropWhile isSpace = [] := List.dropWhile_eq_nil_iff.2 hw
  unfold IStr.char
  simp only [if_true, this]

theorem IStr.char_ok (ws r : Bytes) (c : Byte) (hw : ∀ c ∈ ws, isSpace c = true) (hc : isSpace c = false) :
    IStr.char ⟨ws ++ c :: r, true⟩ = (some c, ⟨r, true⟩) := by
  have e : (ws ++ c :: r).dropWhile isSpace = c :: r := by
    rw [dropWhile_ws _ _ hw]
    exact dropWhile_false _ _ (by intro x hx; simp at hx; subst hx; exact hc)
  unfold IStr.char
  simp only [if_true, e]

theorem oneSpace : ∀ c ∈ [(32 : Byte)], isSpace c = true := by intro c hc; simp at hc; subst hc; rfl

/-- All factors are read. -/
theorem rangesLoop_ok (l : List F32) (hl : ∀ v ∈ l, FText.Enough 6 v) (fuel : Nat) (hf : l.length < fuel) (ws : Bytes)
    (hw : ∀ c ∈ ws, isSpace c = true) (acc : List F32) : rangesLoop fuel ⟨ws ++ rangesText l, true⟩ acc = .ok (acc ++ l) := by
  induction l generalizing fuel ws acc with
  | nil =>
    obtain ⟨n, rfl⟩ : ∃ n, fuel = n + 1 := ⟨fuel - 1, by simp at hf; omega⟩
    have : IStr.float ⟨ws ++ rangesText [], true⟩ = (none, ⟨[], false⟩) := by
      rw [show ws ++ rangesText [] = ws by simp [rangesText]]
      exact IStr.float_end ws hw
    simp only [rangesLoop, this, List.append_nil]
  | cons v l ih =>
    obtain ⟨n, rfl⟩ : ∃ n, fuel = n + 1 := ⟨fuel - 1, by simp at hf; omega⟩
    have e : rangesText (v :: l) = FText.printG 6 v ++ 32 :: rangesText l := by
      simp only [rangesText, List.flatMap_cons, List.append_assoc]
      rfl
    have := IStr.float_printG 6 v ws (32 :: rangesText l) (by decide) (hl v List.mem_cons_self) hw (NumStop_space _)
    rw [e]
    simp only [rangesLoop, this]
    have := ih (fun v hv => hl v (List.mem_cons_of_mem _ hv)) n (by simpa using hf) [32] oneSpace (acc ++ [v])
    rw [show (32 : Byte) :: rangesText l = [32] ++ rangesText l from rfl, this, List.append_assoc]
    rfl

theorem rangesText_length (l : List F32) : l.length ≤ (rangesText l).length := by
  induction l with
  | nil => simp
  | cons v l ih =>
    simp only [rangesText, List.flatMap_cons, List.length_append, List.length_cons, List.length_nil] at ih ⊢
    omega

theorem readRanges_ok (l old : List F32) (hl : ∀ v ∈ l, FText.Enough 6 v) : readRanges (rangesText l) old = .ok (old ++ l) := by
  have := rangesLoop_ok l hl ((rangesText l).length + 1) (by have := rangesText_length l; omega) [] (by simp) old
  exact this

theorem ofNat_dec_byte (b : BitVec 8) : (BitVec.ofNat 32 b.toNat).setWidth 8 = b := by
  apply BitVec.eq_of_toNat_eq
  have := b.isLt
  simp only [BitVec.toNat_setWidth, BitVec.toNat_ofNat]
  omega

theorem notDigit (c : Byte) (r : Bytes) (hc : isDigit c = false) : ∀ d, (c :: r).head? = some d → isDigit d = false := by
  intro d hd; cases hd; exact hc

theorem notDigit' (c : Byte) (r : Bytes) (hc : isDigit c = false) : ∀ d, ([c] ++ r).head? = some d → isDigit d = false :=
  notDigit c r hc

theorem notDigit'' (c : Byte) (r : Bytes) (hc : isDigit c = false) : ∀ d, ([] ++ c :: r).head? = some d → isDigit d = false :=
  notDigit c r hc

theorem colorsLoop_color (c : Color) (n : Nat) (ws rest : Bytes) (hw : ∀ c ∈ ws, isSpace c = true)
    (vars : Option (BitVec 32) × Option (BitVec 32) × Option (BitVec 32)) (acc : List Color) :
    ∃ vars', colorsLoop (n + 1) ⟨ws ++ (40 :: dec c.r.toNat ++ 32 :: dec c.g.toNat ++ 32 :: dec c.b.toNat ++ b!") " ++ rest), true⟩ vars acc =
      colorsLoop n ⟨[32] ++ rest, true⟩ vars' (acc ++ [opaque_ c]) := by
  obtain ⟨cr, cg, cb⟩ := vars
  have hlt : ∀ b : BitVec 8, b.toNat < 2 ^ 32 := fun b => by have := b.isLt; omega
  have e : ws ++ (40 :: dec c.r.toNat ++ 32 :: dec c.g.toNat ++ 32 :: dec c.b.toNat ++ b!") " ++ rest) =
      ws ++ 40 :: ([] ++ (dec c.r.toNat ++ ([32] ++ (dec c.g.toNat ++ ([32] ++ (dec c.b.toNat ++ ([] ++ 41 :: ([32] ++ rest)))))))) := by
    simp only [List.append_assoc, List.cons_append, List.nil_append]
  rw [e]
  refine ⟨(some (BitVec.ofNat 32 c.r.toNat), some (BitVec.ofNat 32 c.g.toNat), some (BitVec.ofNat 32 c.b.toNat)), ?_⟩
  rw [colorsLoop, IStr.char_ok ws _ 40 hw rfl]
  dsimp only
  rw [if_neg (by decide)]
  rw [IStr.u32_dec _ [] _ (hlt _) (by simp) (notDigit' 32 _ rfl)]
  dsimp only
  rw [IStr.u32_dec _ [32] _ (hlt _) oneSpace (notDigit' 32 _ rfl)]
  dsimp only
  rw [IStr.u32_dec _ [32] _ (hlt _) oneSpace (notDigit'' 41 _ rfl)]
  dsimp only
  rw [IStr.char_ok [] _ 41 (by simp) rfl]
  dsimp only [Option.or]
  unfold rgb opaque_
  rw [ofNat_dec_byte, ofNat_dec_byte, ofNat_dec_byte]

theorem colorsLoop_colors (l : List Color) (fuel : Nat) (hf : l.length < fuel) (ws : Bytes) (hw : ∀ c ∈ ws, isSpace c = true)
    (vars : Option (BitVec 32) × Option (BitVec 32) × Option (BitVec 32)) (acc : List Color) :
    colorsLoop fuel ⟨ws ++ colorsText l, true⟩ vars acc = .ok (acc ++ l.map opaque_) := by
  induction l generalizing fuel ws vars acc with
  | nil =>
    obtain ⟨n, rfl⟩ : ∃ n, fuel = n + 1 := ⟨fuel - 1, by simp at hf; omega⟩
    have : IStr.char ⟨ws ++ colorsText [], true⟩ = (none, ⟨[], false⟩) := by
      rw [show ws ++ colorsText [] = ws by simp [colorsText]]
      exact IStr.char_end ws hw
    obtain ⟨cr, cg, cb⟩ := vars
    simp only [colorsLoop, this, List.map_nil, List.append_nil]
  | cons c l ih =>
    obtain ⟨n, rfl⟩ : ∃ n, fuel = n + 1 := ⟨fuel - 1, by simp at hf; omega⟩
    have e : colorsText (c :: l) =
        40 :: dec c.r.toNat ++ 32 :: dec c.g.toNat ++ 32 :: dec c.b.toNat ++ b!") " ++ colorsText l := by
      simp only [colorsText, List.flatMap_cons]
    obtain ⟨vars', hv⟩ := colorsLoop_color c n ws (colorsText l) hw vars acc
    rw [e, hv, ih n (by simpa using hf) [32] oneSpace, List.append_assoc]
    rfl

theorem colorsLoop_greys (l : List F32) (ns : List Nat) (h : Wholes l ns) (cs : List Color) (fuel : Nat)
    (hf : l.length + cs.length < fuel) (ws : Bytes) (hw : ∀ c ∈ ws, isSpace c = true)
    (vars : Option (BitVec 32) × Option (BitVec 32) × Option (BitVec 32)) (acc : List Color) :
    colorsLoop fuel ⟨ws ++ (rangesText l ++ colorsText cs), true⟩ vars acc = .ok (acc ++ ns.map grey ++ cs.map opaque_) := by
  induction h generalizing fuel ws vars acc with
  | nil =>
    rw [show rangesText [] ++ colorsText cs = colorsText cs by simp [rangesText], List.map_nil, List.append_nil]
    exact colorsLoop_colors cs fuel (by simpa using hf) ws hw vars acc
  | @cons v n l ns hv _ ih =>
    obtain ⟨k, rfl⟩ : ∃ k, fuel = k + 1 := ⟨fuel - 1, by simp at hf; omega⟩
    obtain ⟨h1, h2, h3, h4⟩ := hv
    have e : rangesText (v :: l) ++ colorsText cs = dec n ++ ([32] ++ (rangesText l ++ colorsText cs)) := by
      simp only [rangesText, List.flatMap_cons, List.append_assoc, FText.printG_whole 6 v n h1 h2 h3 h4]
    have hd := dec_digits n
    have hu := IStr.u32_dec n [] ([32] ++ (rangesText l ++ colorsText cs)) (by omega) (by simp) (notDigit 32 _ rfl)
    rw [e]
    obtain ⟨c, t, hct⟩ := List.exists_cons_of_ne_nil (dec_ne_nil n)
    rw [hct] at hd hu ⊢
    have hc := hd c List.mem_cons_self
    obtain ⟨cr, cg, cb⟩ := vars
    rw [colorsLoop, List.cons_append, IStr.char_ok ws _ c hw (isDigit_not_space c hc)]
    dsimp only
    rw [if_pos hc]
    rw [List.nil_append, List.cons_append] at hu
    rw [hu]
    dsimp only [Option.or]
    have hlen : l.length + cs.length < k := by simp at hf; omega
    rw [ih k hlen [32] oneSpace]
    have hg : rgb (BitVec.ofNat 32 n) (BitVec.ofNat 32 n) (BitVec.ofNat 32 n) = grey n := by
      unfold rgb grey
      have : (BitVec.ofNat 32 n).setWidth 8 = BitVec.ofNat 8 n := by
        apply BitVec.eq_of_toNat_eq
        simp only [BitVec.toNat_setWidth, BitVec.toNat_ofNat]
        omega
      rw [this]
    rw [hg, List.map_cons]
    simp

theorem colorsText_length (l : List Color) : l.length ≤ (colorsText l).length := by
  induction l with
  | nil => simp
  | cons v l ih =>
    simp only [colorsText, List.flatMap_cons, List.length_append, List.length_cons] at ih ⊢
    omega

theorem readColors_ok (l : List F32) (ns : List Nat) (h : Wholes l ns) (cs old : List Color) :
    readColors (rangesText l ++ colorsText cs) old = .ok (old ++ ns.map grey ++ cs.map opaque_) := by
  refine colorsLoop_greys l ns h cs _ ?_ [] (by simp) _ old
  have := rangesText_length l
  have := colorsText_length cs
  rw [List.length_append]
  omega

theorem IsWhole.enough {v : F32} {n : Nat} (h : IsWhole v n) : FText.Enough 6 v :=
  FText.enough_short 6 v (by decide) h.2.1 ⟨n, 0, 0, h.2.2.2, by rw [h.2.2.1]; ring⟩

theorem Wholes.enough {l : List F32} {ns : List Nat} (h : Wholes l ns) : ∀ v ∈ l, FText.Enough 6 v := by
  induction h with
  | nil => intro v hv; cases hv
  | cons hv _ ih =>
    intro w hw
    rcases List.mem_cons.1 hw with rfl | hw
    · exact hv.enough
    · exact ih w hw

theorem wholes_of {l : List F32} (h : ∀ v ∈ l, IsWhole v (whole v)) : Wholes l (l.map whole) := by
  unfold Wholes
  induction l with
  | nil => exact .nil
  | cons v l ih => exact .cons (h v List.mem_cons_self) (ih fun w hw => h w (List.mem_cons_of_mem _ hw))

/-! ### The loops end -/

theorem signOf_length (s : Bytes) : (signOf s).2.length ≤ s.length := by
  cases s with
  | nil => simp [signOf]
  | cons c r =>
    unfold signOf
    dsimp only
    by_cases h1 : c = 45
    · rw [if_pos h1]; simp
    · rw [if_neg h1]
      by_cases h2 : c = 43
      · rw [if_pos h2]; simp
      · rw [if_neg h2]

theorem parseExp_length (s : Bytes) : (FText.parseExp s).2.length ≤ s.length := by
  cases s with
  | nil => simp [FText.parseExp]
  | cons c r =>
    unfold FText.parseExp
    dsimp only
    have h1 := signOf_length r
    have h2 := (List.dropWhile_suffix isDigit (l := (signOf r).2)).length_le
    by_cases hc : c = 101 ∨ c = 69
    · rw [if_pos hc]
      split
      · exact Nat.le_refl _
      · simp only [List.length_cons]; omega
    · rw [if_neg hc]

theorem takeDrop_length (s : Bytes) : (s.takeWhile isDigit).length + (s.dropWhile isDigit).length = s.length := by
  rw [← List.length_append, List.takeWhile_append_dropWhile]

theorem parseDec_length (s r : Bytes) (a b : Nat) (h : FText.parseDec s = some (a, b, r)) : r.length < s.length := by
  unfold FText.parseDec at h
  dsimp only at h
  have h1 := takeDrop_length s
  generalize s.takeWhile isDigit = ds at h h1
  generalize s.dropWhile isDigit = t at h h1
  cases t with
  | nil =>
    simp only [List.isEmpty_nil, Bool.and_true] at h
    by_cases hd : ds.isEmpty = true
    · rw [if_pos hd] at h; cases h
    · rw [if_neg hd] at h
      have : 0 < ds.length := by
        cases ds with
        | nil => simp at hd
        | cons _ _ => simp
      cases h
      simp [FText.parseExp]; omega
  | cons c t =>
    by_cases hc : c = 46
    · simp only [if_pos hc] at h
      have h2 := takeDrop_length t
      generalize t.takeWhile isDigit = fs at h h2
      generalize t.dropWhile isDigit = u at h h2
      by_cases hd : (ds.isEmpty && fs.isEmpty) = true
      · rw [if_pos hd] at h; cases h
      · rw [if_neg hd] at h
        have := parseExp_length u
        cases h
        simp only [List.length_cons] at h1
        omega
    · simp only [if_neg hc, List.isEmpty_nil, Bool.and_true] at h
      by_cases hd : ds.isEmpty = true
      · rw [if_pos hd] at h; cases h
      · rw [if_neg hd] at h
        have : 0 < ds.length := by
          cases ds with
          | nil => simp at hd
          | cons _ _ => simp
        have := parseExp_length (c :: t)
        cases h
        omega

theorem IStr.float_length (s : IStr) (v : F32) (r : Bytes) (h : s.float = (some v, ⟨r, true⟩)) : r.length < s.rest.length := by
  unfold IStr.float at h
  cases hg : s.good with
  | false => rw [hg] at h; cases h
  | true =>
    rw [hg] at h
    simp only [if_true] at h
    have h1 := (List.dropWhile_suffix isSpace (l := s.rest)).length_le
    generalize s.rest.dropWhile isSpace = t at h h1
    cases t with
    | nil => cases h
    | cons c t =>
      dsimp only at h
      unfold FText.extract at h
      dsimp only at h
      have h2 := (List.dropWhile_suffix isSpace (l := c :: t)).length_le
      have h3 := signOf_length ((c :: t).dropWhile isSpace)
      cases hp : FText.parseDec (signOf ((c :: t).dropWhile isSpace)).2 with
      | none => rw [hp] at h; cases h
      | some p =>
        obtain ⟨a, b, r'⟩ := p
        rw [hp] at h
        dsimp only at h
        have h4 := parseDec_length _ _ _ _ hp
        split at h
        · rename_i w q hq
          have : q = r' := by
            have := congrArg Prod.snd hq
            dsimp only at this
            split at this
            · exact (Option.some.inj this).symm
            · cases this
          have hr : r = q := by cases h; rfl
          rw [hr, this]
          omega
        · cases h

theorem rangesLoop_ends (fuel : Nat) (s : IStr) (acc : List F32) (h : s.rest.length < fuel) : ∃ l, rangesLoop fuel s acc = .ok l := by
  induction fuel generalizing s acc with
  | zero => omega
  | succ n ih =>
    rw [rangesLoop]
    split
    · rename_i v r hv
      exact ih _ _ (by have := IStr.float_length s v r hv; dsimp only; omega)
    · exact ⟨acc, rfl⟩

theorem IStr.u32_length (s : IStr) : s.u32.2.rest.length ≤ s.rest.length := by
  unfold IStr.u32
  split
  · have h1 := (List.dropWhile_suffix isSpace (l := s.rest)).length_le
    generalize s.rest.dropWhile isSpace = t at h1
    cases t with
    | nil => simp
    | cons c t =>
      dsimp only
      have h2 := signOf_length (c :: t)
      have h3 := (List.dropWhile_suffix isDigit (l := (signOf (c :: t)).2)).length_le
      split
      · dsimp only; omega
      · split <;> (dsimp only; omega)
  · exact Nat.le_refl _

theorem IStr.char_length (s : IStr) : s.char.2.rest.length ≤ s.rest.length := by
  unfold IStr.char
  split
  · have h1 := (List.dropWhile_suffix isSpace (l := s.rest)).length_le
    generalize s.rest.dropWhile isSpace = t at h1
    cases t with
    | nil => simp
    | cons c t => simp only [List.length_cons] at h1; dsimp only; omega
  · exact Nat.le_refl _

theorem IStr.char_shorter (s : IStr) (c : Byte) (h : s.char.1 = some c) : s.char.2.rest.length < s.rest.length := by
  unfold IStr.char at h ⊢
  split
  · rename_i hg
    rw [if_pos hg] at h
    have h1 := (List.dropWhile_suffix isSpace (l := s.rest)).length_le
    generalize s.rest.dropWhile isSpace = t at h1 h
    cases t with
    | nil => cases h
    | cons c t => simp only [List.length_cons] at h1; dsimp only; omega
  · rename_i hg
    rw [if_neg hg] at h
    cases h

/-- The number at a digit takes at least that digit away. -/
theorem IStr.u32_shorter (c : Byte) (r : Bytes) (hc : isDigit c = true) : (IStr.u32 ⟨c :: r, true⟩).2.rest.length ≤ r.length := by
  have hs := isDigit_not_space c hc
  have e : (c :: r).dropWhile isSpace = c :: r := dropWhile_false _ _ (by intro x hx; simp at hx; subst hx; exact hs)
  have h45 : c ≠ 45 := isDigit_ne c hc 45 (by simp)
  have h43 : c ≠ 43 := isDigit_ne c hc 43 (by simp)
  have hsg : signOf (c :: r) = (false, c :: r) := by simp [signOf, h45, h43]
  unfold IStr.u32
  simp only [if_true, e, hsg]
  have h1 : (c :: r).takeWhile isDigit = c :: r.takeWhile isDigit := List.takeWhile_cons_of_pos hc
  have h2 : (c :: r).dropWhile isDigit = r.dropWhile isDigit := List.dropWhile_cons_of_pos hc
  have h3 := (List.dropWhile_suffix isDigit (l := r)).length_le
  rw [h1, h2, if_neg (by simp)]
  split <;> (dsimp only; omega)

theorem colorsLoop_ends (fuel : Nat) (s : IStr) (vars : Option (BitVec 32) × Option (BitVec 32) × Option (BitVec 32)) (acc : List Color)
    (h : s.rest.length < fuel) : colorsLoop fuel s vars acc = .error .ub ∨ ∃ l, colorsLoop fuel s vars acc = .ok l := by
  induction fuel generalizing s acc vars with
  | zero => omega
  | succ n ih =>
    obtain ⟨cr, cg, cb⟩ := vars
    have hl := IStr.char_shorter s
    rw [colorsLoop]
    cases hc : s.char with
    | mk o s1 =>
    rw [hc] at hl
    cases o with
    | none => exact .inr ⟨acc, rfl⟩
    | some c =>
      have hl := hl c rfl
      dsimp only at hl ⊢
      by_cases hd : isDigit c = true
      · rw [if_pos hd]
        have h2 := IStr.u32_shorter c s1.rest hd
        generalize IStr.u32 ⟨c :: s1.rest, true⟩ = q at h2
        cases hv : q.1.or cr with
        | none => exact .inl rfl
        | some v => exact ih _ _ _ (by omega)
      · rw [if_neg hd]
        have h2 := IStr.u32_length s1
        have h3 := IStr.u32_length s1.u32.2
        have h4 := IStr.u32_length s1.u32.2.u32.2
        have h5 := IStr.char_length s1.u32.2.u32.2.u32.2
        split
        · exact ih _ _ _ (by omega)
        · exact .inl rfl

variable {P : Type} {c : Ctx} {env : Env P} {φ : Nat → P}

theorem LightPreset.loads {x : LightPreset} {ns : List Nat} (h : x.isStatic = true ∨ Wholes x.rangeScale ns) :
    Loads env φ (LightPreset.load c {}) (x.save c) (x.copy c (ns.map grey)) := by
  obtain ⟨game, save, pack⟩ := c
  intro rest
  cases hs : x.isStatic with
  | true =>
    simp only [LightPreset.save, LightPreset.copy, hs]
    rfl
  | false =>
    have hw : Wholes x.rangeScale ns := by
      rcases h with h | h
      · rw [hs] at h; cases h
      · exact h
    have h1 := readRanges_ok x.rangeScale [] hw.enough
    have h2 := readColors_ok x.rangeScale ns hw x.colors []
    rw [List.nil_append] at h1 h2
    simp only [LightPreset.save, LightPreset.copy, hs]
    cases game
    · show Ld.run env (Ld.bind (Ld.lift (readRanges (rangesText x.rangeScale) [])) _) _ = _
      rw [h1]
      show Ld.run env (Ld.bind (Ld.lift (readColors (rangesText x.rangeScale ++ colorsText x.colors) [])) _) _ = _
      rw [h2]
      rfl
    · show Ld.run env (Ld.bind (Ld.lift (readRanges (rangesText x.rangeScale) [])) _) _ = _
      rw [h1]
      show Ld.run env (Ld.bind (Ld.lift (readColors (rangesText x.rangeScale ++ colorsText x.colors) [])) _) _ = _
      rw [h2]
      rfl

theorem VLight.loads {x : VLight Nat} {b : VObj P} {ns : List Nat} (hb : Loads env φ (VObj.load c env {}) (x.base.save c) b)
    (h : x.light.isStatic = true ∨ Wholes x.light.rangeScale ns) :
    Loads env φ (VLight.load c env {}) (x.save c) ⟨b, x.light.copy c (ns.map grey)⟩ :=
  Loads.bind hb (Loads.map (LightPreset.loads h))

theorem VLight.loads_whole {x : VLight Nat} {b : VObj P} (hb : Loads env φ (VObj.load c env {}) (x.base.save c) b)
    (h : x.light.Readable) :
    Loads env φ (VLight.load c env {}) (x.save c) ⟨b, x.light.copy c (x.light.rangeScale.map fun v => grey (whole v))⟩ := by
  have := VLight.loads (ns := x.light.rangeScale.map whole) hb (h.imp id wholes_of)
  rwa [List.map_map] at this

theorem readVec2_ok (v old : Vec2) (hx : Finite v.x) (hy : Finite v.y) : readVec2 (vec2Text v) old = v := by
  have h1 := IStr.float_printG 9 v.x [] (32 :: FText.printG 9 v.y) (by decide) (FText.enough_nine _ hx) (by simp) (NumStop_space _)
  have h2 := IStr.float_printG 9 v.y [32] [] (by decide) (FText.enough_nine _ hy) oneSpace NumStop_nil
  rw [List.append_nil] at h2
  rw [List.nil_append] at h1
  unfold readVec2 vec2Text
  rw [h1]
  dsimp only
  rw [show (32 : Byte) :: FText.printG 9 v.y = [32] ++ FText.printG 9 v.y from rfl, h2]
  rfl

/-- When `alphaFunc` is written as `read_enum` expects it. -/
theorem Material.loadsOver {x : Material} (o : Material) (a : BitVec 32) (h : x.Finite) :
    Loads env φ (Material.load c o) (x.saveWith (fEnum b!"alphaFunc" a) c) (x.copyOver c a o) := by
  obtain ⟨game, save, pack⟩ := c
  obtain ⟨h1, h2, h3, h4⟩ := h
  intro rest
  have e1 : ∀ b : BitVec 8, (b.setWidth 32).setWidth 8 = b := by
    intro b
    apply BitVec.eq_of_toNat_eq
    have := b.isLt
    simp only [BitVec.toNat_setWidth]
    omega
  cases game with
  | g1 =>
    show Except.ok (_, _) = _
    simp only [readVec2_ok _ _ h1 h2, readVec2_ok _ _ h3 h4, e1]
    rfl
  | g2 =>
    show Except.ok (_, _) = _
    simp only [readVec2_ok _ _ h1 h2, readVec2_ok _ _ h3 h4, e1]
    rfl

theorem Material.loadsWith {x : Material} (a : BitVec 32) (h : x.Finite) :
    Loads env φ (Material.load c {}) (x.saveWith (fEnum b!"alphaFunc" a) c) (x.copy c a) := by
  obtain ⟨game, save, pack⟩ := c
  cases game <;> exact Material.loadsOver {} a h

theorem Material.loads {x : Material} (hg : c.game = .g1) (h : x.Finite) :
    Loads env φ (Material.load c {}) (x.save c) (x.copy c x.alphaFunc) := by
  obtain ⟨game, save, pack⟩ := c
  cases hg
  exact Material.loadsWith x.alphaFunc h

end Verif.Obj
