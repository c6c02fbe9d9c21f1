import Verif.Model.ArchiveAscii
import Verif.Lemmas.ArchiveHeader

/-! # Lemmas about ASCII archives -/

namespace Verif

theorem ReadsIf.bind_eq {α β} {p : Rd α} {bs : Bytes} {a : α} {Q : Bytes → Prop} {f : α → Rd β} {b : β}
    (h : ReadsIf p bs a Q) (hf : f a = (Pure.pure b : Rd β)) : ReadsIf (p >>= f) bs b Q := by
  intro pre post hq
  rw [Rd.bind_ok (h pre post hq), hf]
  rfl

theorem strtol_space (c : Byte) (hc : isSpace c = true) (s : Bytes) : strtol (c :: s) = strtol s := by
  unfold strtol
  rw [List.dropWhile_cons_of_pos hc]

theorem decInt_nat (n : Nat) : decInt (n : Int) = dec n := by
  unfold decInt
  rw [if_neg (by omega)]
  rfl

theorem strtol_dec (n : Nat) (rest : Bytes) (hr : ∀ c, rest.head? = some c → isDigit c = false) :
    strtol (dec n ++ rest) = some ((n : Int), rest) := by
  rw [← decInt_nat]; exact strtol_decInt _ _ hr

theorem strtol_dec' (n : Nat) : strtol (dec n) = some ((n : Int), []) := by
  rw [← decInt_nat]; exact strtol_decInt' _

end Verif

namespace Verif.Ar.Asc

/-! ## Entries -/

theorem afterChar_app (c : Byte) (a b : Bytes) (h : c ∉ a) : afterChar c (a ++ c :: b) = b := by
  unfold afterChar
  rw [if_pos (by simp)]
  rw [dropWhile_append_stop (fun x => x != c) a (c :: b)
    (by intro x hx; simp only [bne_iff_ne, ne_eq]; rintro rfl; exact h hx) (by intro x hx; simp at hx; subst hx; simp)]
  rfl

/-- The line of an entry. -/
def entryLine (n ty text : Bytes) : Bytes := n ++ 61 :: (ty ++ 58 :: text)

theorem reads_entry (n ty text ws : Bytes) (hn : NoEol n) (hn2 : (61 : Byte) ∉ n) (hty : NoEol ty) (hty2 : (58 : Byte) ∉ ty)
    (htx : NoEol text) (hws : ∀ c ∈ ws, c ∈ Rd.lineSpaces) :
    ReadsIf (readEntry ty) (entryLine n ty text ++ 10 :: ws) text Solid := by
  have hl : NoEol (entryLine n ty text) := by
    have h1 : NoEol (61 :: (ty ++ 58 :: text)) := by
      have := noEol_append (a := [61]) (by decide) (noEol_append hty (noEol_append (a := [58]) (by decide) htx))
      simpa using this
    exact noEol_append hn h1
  unfold readEntry
  refine ReadsIf.bind_eq (ReadsIf.line _ ws hl hws) ?_
  have h1 : afterChar 61 (entryLine n ty text) = ty ++ 58 :: text := afterChar_app 61 n _ hn2
  have h2 : afterChar 58 (ty ++ 58 :: text) = text := afterChar_app 58 ty _ hty2
  have h3 : (ty ++ 58 :: text).takeWhile (· != 58) = ty :=
    takeWhile_append_stop _ _ _ (by intro x hx; simp only [bne_iff_ne, ne_eq]; rintro rfl; exact hty2 hx)
      (by intro x hx; simp at hx; subst hx; rfl)
  simp only [h1, h2, h3, bne_self_eq_false, Bool.false_eq_true, if_false]

/-! ## Values -/

theorem intosv_fit (size : Nat) (junk text : Bytes) (h : text.length ≤ size) : intosv size junk text = text := by
  unfold intosv; rw [if_pos h]

theorem decInt_fit (v : BitVec 32) (h : -10 ^ 9 < v.toInt) : (decInt v.toInt).length ≤ 10 := by
  have h2 := BitVec.toInt_lt (x := v)
  unfold decInt
  split
  · rw [List.length_cons]
    have := dec_length_le v.toInt.natAbs 9 (by decide) (by omega)
    omega
  · exact dec_length_le v.toInt.natAbs 10 (by decide) (by omega)

theorem noEol_of {s : Bytes} (P : Byte → Prop) (h : ∀ c ∈ s, P c) (hP : ∀ c, P c → c ≠ 0 ∧ c ≠ 13 ∧ c ≠ 10) : NoEol s :=
  fun c hc => hP c (h c hc)

theorem noEol_decInt (i : Int) : NoEol (decInt i) := by
  intro c hc
  rcases decInt_chars i c hc with rfl | h
  · decide
  · exact ⟨isDigit_ne c h 0 (by simp), isDigit_ne c h 13 (by simp), isDigit_ne c h 10 (by simp)⟩

theorem noEol_dec (n : Nat) : NoEol (dec n) := by
  rw [← decInt_nat]; exact noEol_decInt _

theorem noEol_print (v : BitVec 32) (h : FText.Printable v) : NoEol (FText.print v) := by
  intro c hc
  rcases FText.print_chars v h c hc with rfl | rfl | h
  · decide
  · decide
  · exact ⟨isDigit_ne c h 0 (by simp), isDigit_ne c h 13 (by simp), isDigit_ne c h 10 (by simp)⟩

theorem noEol_cons {c : Byte} {s : Bytes} (hc : c ≠ 0 ∧ c ≠ 13 ∧ c ≠ 10) (h : NoEol s) : NoEol (c :: s) := by
  intro x hx
  rcases List.mem_cons.1 hx with rfl | hx
  · exact hc
  · exact h x hx

theorem numEnd_space (s : Bytes) : FText.NumEnd (32 :: s) := by
  intro c hc; simp at hc; subst hc; decide

theorem numEnd_nil : FText.NumEnd [] := by intro c hc; simp at hc

theorem extractFloats_text (vs : List F32) (h : ∀ v ∈ vs, FText.Printable v) (ws : Bytes)
    (hw : ∀ c ∈ ws, isSpace c = true) :
    extractFloats vs.length (some (ws ++ floatsText vs)) = vs := by
  induction vs generalizing ws with
  | nil => rfl
  | cons v vs ih =>
    have e : floatsText (v :: vs) = FText.print v ++ (32 :: floatsText vs) := by
      simp [floatsText]
    rw [e]
    simp only [List.length_cons, extractFloats]
    rw [FText.extract_print v (h v List.mem_cons_self) _ ws hw (numEnd_space _)]
    simp only
    rw [show (32 :: floatsText vs : Bytes) = [32] ++ floatsText vs from rfl,
      ih (fun x hx => h x (List.mem_cons_of_mem _ hx)) [32] (by simp [isSpace])]

theorem noEol_floats (vs : List F32) (h : ∀ v ∈ vs, FText.Printable v) : NoEol (floatsText vs) := by
  induction vs with
  | nil => intro c hc; simp [floatsText] at hc
  | cons v vs ih =>
    have e : floatsText (v :: vs) = FText.print v ++ (32 :: floatsText vs) := by
      simp [floatsText]
    rw [e]
    exact noEol_append (noEol_print v (h v List.mem_cons_self))
      (noEol_cons (by decide) (ih (fun x hx => h x (List.mem_cons_of_mem _ hx))))

theorem extractU16_dec (n : Nat) (hn : n < 65536) (rest : Bytes) (hr : ∀ c, rest.head? = some c → isDigit c = false) :
    extractU16 (dec n ++ rest) = (some (BitVec.ofNat 16 n), some rest) ∧
    extractU16 (32 :: (dec n ++ rest)) = (some (BitVec.ofNat 16 n), some rest) := by
  have hne : ((dec n ++ rest).dropWhile isSpace).isEmpty = false := by
    cases hc : dec n with
    | nil => exact absurd hc (dec_ne_nil _)
    | cons c cs =>
      have hcd : isDigit c = true := dec_digits n c (by rw [hc]; simp)
      rw [List.cons_append, dropWhile_false _ _ (by intro x hx; simp at hx; subst hx; exact isDigit_not_space c hcd)]
      rfl
  have h1 : extractU16 (dec n ++ rest) = (some (BitVec.ofNat 16 n), some rest) := by
    unfold extractU16
    rw [hne]
    simp only [Bool.false_eq_true, if_false, strtol_dec n rest hr, Int.natAbs_natCast, hn, if_true,
      BitVec.ofInt_natCast]
  refine ⟨h1, ?_⟩
  rw [← h1]
  unfold extractU16
  rw [strtol_space 32 rfl, List.dropWhile_cons_of_pos (by rfl)]

theorem extractColor_text (c : Color) :
    extractColor (dec c.r.toNat ++ 32 :: (dec c.g.toNat ++ 32 :: (dec c.b.toNat ++ 32 :: dec c.a.toNat))) = some c := by
  have hsp : ∀ s : Bytes, ∀ x, (32 :: s : Bytes).head? = some x → isDigit x = false := by
    intro s x hx; simp at hx; subst hx; rfl
  have hlt : ∀ v : BitVec 8, v.toNat < 65536 := fun v => by have := v.isLt; omega
  unfold extractColor
  rw [(extractU16_dec _ (hlt c.r) _ (hsp _)).1]
  simp only
  rw [(extractU16_dec _ (hlt c.g) _ (hsp _)).2]
  simp only
  rw [(extractU16_dec _ (hlt c.b) _ (hsp _)).2]
  simp only
  have e : dec c.a.toNat = dec c.a.toNat ++ [] := by simp
  rw [e, (extractU16_dec _ (hlt c.a) [] (by simp)).2]
  simp

/-! ## Raw data -/

/-- What becomes of raw data: a byte below 16 that follows a byte `x` of at least 16, with nothing but bytes below
16 in between, is taken for the first digit of a pair with the second digit of `x`. -/
def stale : Option Nat → Bytes → Bytes
  | _, [] => []
  | z, b :: bs =>
    if b.toNat < 16 then
      (match z with | none => b | some z => UInt8.ofNat (b.toNat * 16 + z)) :: stale z bs
    else b :: stale (some (b.toNat % 16)) bs

theorem hexPair_digits : ∀ x < 16, ∀ y < 16, hexPair (hexDigit x) (hexDigit y) = UInt8.ofNat (x * 16 + y) := by
  decide +kernel

theorem hexDigit_ne : ∀ x < 16, hexDigit x ≠ 0 := by decide +kernel

theorem hexPair_zero : ∀ x < 16, hexPair 48 (hexDigit x) = UInt8.ofNat x := by decide +kernel

theorem hexDigit_noEol : ∀ x < 16, hexDigit x ≠ 0 ∧ hexDigit x ≠ 13 ∧ hexDigit x ≠ 10 := by decide +kernel

theorem unhex_hexText (v : Bytes) : ∀ (c1 : Byte) (z : Option Nat),
    (match z with | none => c1 = 0 | some z => z < 16 ∧ c1 = hexDigit z) →
    unhex (hexText c1 v) = stale z v ∧ (hexText c1 v).length = 2 * v.length ∧ NoEol (hexText c1 v) := by
  induction v with
  | nil => intro c1 z _; exact ⟨rfl, rfl, by intro c hc; simp [hexText] at hc⟩
  | cons b v ih =>
    intro c1 z hz
    simp only [hexText, stale]
    by_cases hb : b.toNat < 16
    · simp only [hb, if_true]
      obtain ⟨i1, i2, i3⟩ := ih c1 z hz
      cases z with
      | none =>
        simp only at hz
        subst hz
        simp only [if_true, List.cons_append, List.nil_append, unhex, List.length_cons, i1, i2]
        refine ⟨by rw [hexPair_zero _ hb]; simp, by omega, ?_⟩
        exact noEol_cons (by decide) (noEol_cons (hexDigit_noEol _ hb) i3)
      | some z =>
        obtain ⟨hz1, rfl⟩ := hz
        simp only [hexDigit_ne z hz1, if_false, List.cons_append, List.nil_append, unhex, List.length_cons, i1, i2]
        refine ⟨by rw [hexPair_digits _ hb _ hz1], by omega, ?_⟩
        exact noEol_cons (hexDigit_noEol _ hb) (noEol_cons (hexDigit_noEol _ hz1) i3)
    · simp only [hb, if_false]
      have hb2 := b.toNat_lt
      have h1 : b.toNat / 16 < 16 := by omega
      have h2 : b.toNat % 16 < 16 := by omega
      obtain ⟨i1, i2, i3⟩ := ih (hexDigit (b.toNat % 16)) (some (b.toNat % 16)) ⟨h2, rfl⟩
      simp only [hexDigit_ne _ h2, if_false, List.cons_append, List.nil_append, unhex, List.length_cons, i1, i2]
      refine ⟨?_, by omega, ?_⟩
      · rw [hexPair_digits _ h1 _ h2]
        have : b.toNat / 16 * 16 + b.toNat % 16 = b.toNat := by omega
        rw [this]; simp
      · exact noEol_cons (hexDigit_noEol _ h1) (noEol_cons (hexDigit_noEol _ h2) i3)

/-! ## All values -/

/-- Values that survive. -/
def OkVal : Val → Prop
  | .string v => NoEol v
  | .int v => -10 ^ 9 < v.toInt
  | .float v => FText.Printable v
  | .byte _ => False
  | .word _ => False
  | .vec3 v => FText.Printable v.x ∧ FText.Printable v.y ∧ FText.Printable v.z
  | .vec2 v => FText.Printable v.x ∧ FText.Printable v.y
  | .bbox v => FText.Printable v.min.x ∧ FText.Printable v.min.y ∧ FText.Printable v.min.z ∧
      FText.Printable v.max.x ∧ FText.Printable v.max.y ∧ FText.Printable v.max.z
  | .mat3 _ => False
  | .raw v => v.length < 65536 ∧ stale none v = v
  | _ => True

instance : (v : Val) → Decidable (OkVal v)
  | .string v => inferInstanceAs (Decidable (NoEol v))
  | .int v => inferInstanceAs (Decidable (-10 ^ 9 < v.toInt))
  | .float v => inferInstanceAs (Decidable (FText.Printable v))
  | .byte _ | .word _ | .mat3 _ => isFalse id
  | .vec3 _ | .vec2 _ | .bbox _ | .raw _ => inferInstanceAs (Decidable (_ ∧ _))
  | .enum _ | .bool _ | .color _ => isTrue trivial

theorem stoul_dec (n : Nat) (hn : n < 2 ^ 64) : stoul (dec n) = (Pure.pure (BitVec.ofNat 64 n) : Rd (BitVec 64)) := by
  unfold stoul
  rw [strtol_dec']
  simp only [Int.natAbs_natCast, hn, if_true, BitVec.ofInt_natCast]

theorem reads_val (junk n : Bytes) (v : Val) (h : OkVal v) (ws : Bytes) (hn : NoEol n) (hn2 : (61 : Byte) ∉ n)
    (hws : ∀ c ∈ ws, c ∈ Rd.lineSpaces) :
    ReadsIf (readVal v.kind) (entryLine n (valText junk v).1 (valText junk v).2 ++ 10 :: ws) v Solid ∧
      NoEol (valText junk v).1 ∧ NoEol (valText junk v).2 := by
  have ent : ∀ ty text : Bytes, NoEol ty → (58 : Byte) ∉ ty → NoEol text →
      ReadsIf (readEntry ty) (entryLine n ty text ++ 10 :: ws) text Solid :=
    fun ty text h1 h2 h3 => reads_entry n ty text ws hn hn2 h1 h2 h3 hws
  have ne : ∀ s : Bytes, NoEol s → NoEol s := fun _ h => h
  cases v with
  | string v => exact ⟨(ent b!"string" _ (by decide) (by decide) h).bind_eq rfl, ne b!"string" (by decide), h⟩
  | int v =>
    have hf : intosv 10 junk (decInt v.toInt) = decInt v.toInt := intosv_fit _ _ _ (decInt_fit v h)
    simp only [valText, hf]
    refine ⟨(ent b!"int" _ (by decide) (by decide) (noEol_decInt _)).bind_eq (f := fun t => stoi t >>= fun i => (Pure.pure (Val.int (BitVec.ofInt 32 i)) : Rd Val)) ?_, by decide, noEol_decInt _⟩
    have h1 := BitVec.toInt_lt (x := v)
    have h2 := BitVec.le_toInt (x := v)
    have hs : stoi (decInt v.toInt) = (Pure.pure v.toInt : Rd Int) := by
      unfold stoi
      rw [strtol_decInt']
      simp only
      rw [if_pos ⟨by simpa using h2, by simpa using h1⟩]
    simp only [hs]
    show (Pure.pure (Val.int (BitVec.ofInt 32 v.toInt)) : Rd Val) = _
    rw [BitVec.ofInt_toInt]
  | float v =>
    refine ⟨(ent b!"float" _ (by decide) (by decide) (noEol_print v h)).bind_eq (f := fun t => stof t >>= fun i => (Pure.pure (Val.float i) : Rd Val)) ?_, ne b!"float" (by decide), noEol_print v h⟩
    have hs : stof (FText.print v) = (Pure.pure v : Rd F32) := by
      unfold stof
      have := FText.strtof_print v h [] numEnd_nil
      rw [List.append_nil] at this
      rw [this]
      rfl
    simp only [hs]
    rfl
  | byte v => exact absurd h id
  | word v => exact absurd h id
  | mat3 v => exact absurd h id
  | enum v =>
    have hf : intosv 10 junk (dec v.toNat) = dec v.toNat :=
      intosv_fit _ _ _ (dec_length_le _ 10 (by decide) (by have := v.isLt; omega))
    simp only [valText, hf]
    refine ⟨(ent b!"enum" _ (by decide) (by decide) (noEol_dec _)).bind_eq (f := fun t => stoul t >>= fun i => (Pure.pure (Val.enum (i.truncate 32)) : Rd Val)) ?_, by decide, noEol_dec _⟩
    simp only [stoul_dec v.toNat (by have := v.isLt; omega)]
    show (Pure.pure (Val.enum ((BitVec.ofNat 64 v.toNat).truncate 32)) : Rd Val) = _
    congr 2
    apply BitVec.eq_of_toNat_eq
    have := v.isLt
    simp
  | bool v =>
    have hb : NoEol (if v then b!"1" else b!"0") := by cases v <;> decide
    refine ⟨(ent b!"bool" (if v then b!"1" else b!"0") (by decide) (by decide) hb).bind_eq
      (f := fun t => stoul t >>= fun i => (Pure.pure (Val.bool (i != 0)) : Rd Val)) ?_, ne b!"bool" (by decide), hb⟩
    cases v
    · have : stoul b!"0" = (Pure.pure 0 : Rd (BitVec 64)) := stoul_dec 0 (by decide)
      simp only [Bool.false_eq_true, if_false, this]
      rfl
    · have : stoul b!"1" = (Pure.pure 1 : Rd (BitVec 64)) := stoul_dec 1 (by decide)
      simp only [if_true, this]
      rfl
  | color c =>
    have hne : NoEol (dec c.r.toNat ++ 32 :: (dec c.g.toNat ++ 32 :: (dec c.b.toNat ++ 32 :: dec c.a.toNat))) :=
      noEol_append (noEol_dec _) (noEol_cons (by decide) (noEol_append (noEol_dec _) (noEol_cons (by decide)
        (noEol_append (noEol_dec _) (noEol_cons (by decide) (noEol_dec _))))))
    refine ⟨(ent b!"color" _ (by decide) (by decide) hne).bind_eq (f := fun t => match extractColor t with
      | some c => (Pure.pure (Val.color c) : Rd Val)
      | none => Rd.fail .ub) ?_, ne b!"color" (by decide), hne⟩
    simp only [extractColor_text]
  | vec3 v =>
    obtain ⟨hx, hy, hz⟩ := h
    have hne : NoEol (FText.print v.x ++ 32 :: (FText.print v.y ++ 32 :: FText.print v.z)) :=
      noEol_append (noEol_print _ hx) (noEol_cons (by decide) (noEol_append (noEol_print _ hy)
        (noEol_cons (by decide) (noEol_print _ hz))))
    refine ⟨(ent b!"vec3" _ (by decide) (by decide) hne).bind_eq (f := fun t => match extractFloats 3 (some t) with
      | [x, y, z] => (Pure.pure (Val.vec3 ⟨x, y, z⟩) : Rd Val)
      | _ => Rd.fail .ub) ?_, ne b!"vec3" (by decide), hne⟩
    have e : extractFloats 3 (some (FText.print v.x ++ 32 :: (FText.print v.y ++ 32 :: FText.print v.z))) =
        [v.x, v.y, v.z] := by
      simp only [extractFloats]
      have e1 := FText.extract_print v.x hx (32 :: (FText.print v.y ++ 32 :: FText.print v.z)) [] (by simp) (numEnd_space _)
      have e2 := FText.extract_print v.y hy (32 :: FText.print v.z) [32] (by simp [isSpace]) (numEnd_space _)
      have e3 := FText.extract_print v.z hz [] [32] (by simp [isSpace]) numEnd_nil
      rw [List.nil_append] at e1
      rw [List.cons_append, List.nil_append] at e2 e3
      rw [List.append_nil] at e3
      rw [e1]; simp only [extractFloats]
      rw [e2]; simp only [extractFloats]
      rw [e3]
    simp only [e]
  | vec2 v =>
    have hp : ∀ x ∈ [v.x, v.y], FText.Printable x := by
      intro x hx; simp only [List.mem_cons, List.not_mem_nil, or_false] at hx
      rcases hx with rfl | rfl
      · exact h.1
      · exact h.2
    have hne := noEol_floats _ hp
    refine ⟨(ent b!"rawFloat" _ (by decide) (by decide) hne).bind_eq (f := fun t => match extractFloats 2 (some t) with
      | [x, y] => (Pure.pure (Val.vec2 ⟨x, y⟩) : Rd Val)
      | _ => Rd.fail .ub) ?_, ne b!"rawFloat" (by decide), hne⟩
    have e := extractFloats_text _ hp [] (by simp)
    simp only [List.length_cons, List.length_nil, List.nil_append, Nat.zero_add, Nat.reduceAdd] at e
    simp only [e]
  | bbox v =>
    have hp : ∀ x ∈ [v.min.x, v.min.y, v.min.z, v.max.x, v.max.y, v.max.z], FText.Printable x := by
      intro x hx; simp only [List.mem_cons, List.not_mem_nil, or_false] at hx
      obtain ⟨h1, h2, h3, h4, h5, h6⟩ := h
      rcases hx with rfl | rfl | rfl | rfl | rfl | rfl <;> assumption
    have hne := noEol_floats _ hp
    refine ⟨(ent b!"rawFloat" _ (by decide) (by decide) hne).bind_eq (f := fun t => match extractFloats 6 (some t) with
      | [a, b, c, d, e, f] => (Pure.pure (Val.bbox ⟨⟨a, b, c⟩, ⟨d, e, f⟩⟩) : Rd Val)
      | _ => Rd.fail .ub) ?_, ne b!"rawFloat" (by decide), hne⟩
    have e := extractFloats_text _ hp [] (by simp)
    simp only [List.length_cons, List.length_nil, List.nil_append, Nat.zero_add, Nat.reduceAdd] at e
    simp only [e]
  | raw v =>
    obtain ⟨h1, h2⟩ := h
    obtain ⟨u1, u2, u3⟩ := unhex_hexText v 0 none rfl
    have ht : v.take (v.length % 65536) = v := by
      rw [Nat.mod_eq_of_lt h1, List.take_length]
    simp only [valText, ht]
    refine ⟨(ent b!"raw" _ (by decide) (by decide) u3).bind_eq (f := fun t : Bytes =>
      if t.length / 2 < v.length then Rd.fail (.throw .parser) else (Pure.pure (Val.raw (unhex t)) : Rd Val)) ?_,
      by decide, u3⟩
    simp only [u2, u1, h2]
    rw [if_neg (by omega)]

/-! ## Object headers -/

/-- Names of objects and classes that survive. -/
def OkName (n : Bytes) : Prop := n ≠ [] ∧ n.length ≤ 127 ∧ ∀ c ∈ n, c ≠ 0 ∧ isSpace c = false

instance (n : Bytes) : Decidable (OkName n) := inferInstanceAs (Decidable (_ ∧ _ ∧ _))

/-- Names of entries that survive. -/
def OkKey (n : Bytes) : Prop := n ≠ [] ∧ NoEol n ∧ (61 : Byte) ∉ n ∧ ∀ c, n.head? = some c → c ∉ Rd.lineSpaces

instance (n : Bytes) : Decidable (OkKey n) :=
  have : Decidable (∀ c, n.head? = some c → c ∉ Rd.lineSpaces) :=
    match n with
    | [] => isTrue (by simp)
    | c :: r => decidable_of_iff (c ∉ Rd.lineSpaces) (by simp)
  inferInstanceAs (Decidable (_ ∧ _ ∧ _ ∧ _))

theorem noEol_name {n : Bytes} (h : OkName n) : NoEol n := by
  intro c hc
  obtain ⟨h0, hs⟩ := h.2.2 c hc
  refine ⟨h0, ?_, ?_⟩ <;> rintro rfl <;> simp [isSpace] at hs

/-- The line an object begins with. -/
def hdrLine (n c : Bytes) (ver : BitVec 16) (ix : BitVec 32) : Bytes :=
  91 :: (n ++ 32 :: (c ++ 32 :: (dec ver.toNat ++ 32 :: (dec ix.toNat ++ [93]))))

theorem scanStr_name (n rest : Bytes) (h : OkName n) (ws : Bytes) (hw : ∀ c ∈ ws, isSpace c = true) :
    scanStr (ws ++ (n ++ 32 :: rest)) = some (n, 32 :: rest) := by
  obtain ⟨h1, h2, h3⟩ := h
  unfold scanStr
  rw [dropWhile_append_stop isSpace ws _ hw (by
    intro x hx
    cases n with
    | nil => exact absurd rfl h1
    | cons a n => simp at hx; subst hx; exact (h3 a (by simp)).2)]
  have e : (n ++ 32 :: rest).takeWhile (fun c => !isSpace c) = n :=
    takeWhile_append_stop _ _ _ (by intro x hx; simp [(h3 x hx).2]) (by intro x hx; simp at hx; subst hx; rfl)
  simp only [e, List.take_of_length_le h2, List.drop_left]
  cases n with
  | nil => exact absurd rfl h1
  | cons a n => rfl

theorem scanUns_dec (n : Nat) (hn : n < 2 ^ 64) (rest : Bytes) (hr : ∀ c, rest.head? = some c → isDigit c = false) :
    scanUns (32 :: (dec n ++ rest)) = some (BitVec.ofNat 64 n, rest) := by
  unfold scanUns
  rw [strtol_space 32 rfl, strtol_dec n rest hr]
  simp only [Int.natAbs_natCast, hn, if_true, BitVec.ofInt_natCast]

theorem scanHdr_hdrLine (n c : Bytes) (ver : BitVec 16) (ix : BitVec 32) (hn : OkName n) (hc : OkName c) :
    scanHdr (hdrLine n c ver ix) = some ⟨n, c, ver, ix⟩ := by
  have hv := ver.isLt
  have hi := ix.isLt
  unfold scanHdr hdrLine
  simp only [bne_self_eq_false, Bool.false_eq_true, if_false]
  have e1 := scanStr_name n (c ++ 32 :: (dec ver.toNat ++ 32 :: (dec ix.toNat ++ [93]))) hn [] (by simp)
  have e2 := scanStr_name c (dec ver.toNat ++ 32 :: (dec ix.toNat ++ [93])) hc [32] (by simp [isSpace])
  rw [List.nil_append] at e1
  rw [List.cons_append, List.nil_append] at e2
  rw [e1]; simp only
  rw [e2]; simp only
  rw [scanUns_dec ver.toNat (by omega) _ (by intro x hx; simp at hx; subst hx; rfl)]; simp only
  rw [scanUns_dec ix.toNat (by omega) _ (by intro x hx; simp at hx; subst hx; rfl)]
  simp

theorem noEol_hdrLine (n c : Bytes) (ver : BitVec 16) (ix : BitVec 32) (hn : OkName n) (hc : OkName c) :
    NoEol (hdrLine n c ver ix) :=
  noEol_cons (by decide) (noEol_append (noEol_name hn) (noEol_cons (by decide) (noEol_append (noEol_name hc)
    (noEol_cons (by decide) (noEol_append (noEol_dec _) (noEol_cons (by decide) (noEol_append (noEol_dec _)
      (by decide : NoEol [93]))))))))

theorem reads_begin (n c : Bytes) (ver : BitVec 16) (ix : BitVec 32) (hn : OkName n) (hc : OkName c) (ws : Bytes)
    (hws : ∀ x ∈ ws, x ∈ Rd.lineSpaces) :
    ReadsIf readObjBegin (hdrLine n c ver ix ++ 10 :: ws) (some ⟨n, c, ver, ix⟩) Solid := by
  intro pre post hq
  have hl := ReadsIf.line (hdrLine n c ver ix) ws (noEol_hdrLine n c ver ix hn hc) hws pre post hq
  generalize hd : pre ++ (hdrLine n c ver ix ++ 10 :: ws) ++ post = data at hl ⊢
  have heof : Rd.eof ⟨data, pre.length⟩ = .ok (false, ⟨data, pre.length⟩) := by
    simp only [Rd.eof]
    have : pre.length < data.length := by rw [← hd]; simp
    simp [this]
  unfold readObjBegin
  rw [Rd.bind_ok heof]
  simp only [Bool.false_eq_true, if_false]
  rw [Rd.bind_ok (p := Rd.tell) (show Rd.tell ⟨data, pre.length⟩ = .ok (pre.length, ⟨data, pre.length⟩) from rfl),
    Rd.bind_ok hl]
  have hlen : ¬ (hdrLine n c ver ix).length ≤ 2 := by
    have := List.length_pos_iff.2 hn.1
    simp [hdrLine]; omega
  simp only [hlen, if_false, scanHdr_hdrLine n c ver ix hn hc]
  rfl

theorem reads_end (ws : Bytes) (hws : ∀ x ∈ ws, x ∈ Rd.lineSpaces) :
    ReadsIf readObjEnd (b!"[]" ++ 10 :: ws) true Solid := by
  intro pre post hq
  have hl := ReadsIf.line b!"[]" ws (by decide) hws pre post hq
  generalize hd : pre ++ (b!"[]" ++ 10 :: ws) ++ post = data at hl ⊢
  have heof : Rd.eof ⟨data, pre.length⟩ = .ok (false, ⟨data, pre.length⟩) := by
    simp only [Rd.eof]
    have : pre.length < data.length := by rw [← hd]; simp
    simp [this]
  unfold readObjEnd
  rw [Rd.bind_ok heof]
  simp only [Bool.false_eq_true, if_false]
  rw [Rd.bind_ok (p := Rd.tell) (show Rd.tell ⟨data, pre.length⟩ = .ok (pre.length, ⟨data, pre.length⟩) from rfl),
    Rd.bind_ok hl]
  rw [if_neg (by decide)]
  rfl

/-! ## Documents -/

/-- The lines of a document with their indentation. -/
def lines (junk : Bytes) : BitVec 32 → Doc → List (BitVec 32 × Bytes)
  | _, .nil => []
  | k, .val n v rest => (k, entryLine n (valText junk v).1 (valText junk v).2) :: lines junk k rest
  | k, .obj n c ver ix ch rest =>
    (k, hdrLine n (if emptyClass c then nullClass else c) ver ix) ::
      (lines junk (k + 1) ch ++ (k, b!"[]") :: lines junk k rest)
  | k, .ref n ix rest => (k, hdrLine n refClass 0 ix) :: (k, b!"[]") :: lines junk k rest

/-- The text of indented lines. -/
def text : List (BitVec 32 × Bytes) → Bytes
  | [] => []
  | (k, l) :: ls => List.replicate k.toNat 9 ++ (l ++ 10 :: text ls)

theorem text_append (a b : List (BitVec 32 × Bytes)) : text (a ++ b) = text a ++ text b := by
  induction a with
  | nil => rfl
  | cons p a ih => obtain ⟨k, l⟩ := p; simp [text, ih]

theorem Emits.indent (k : BitVec 32) : Emits (writeIndent k) (List.replicate k.toNat 9) := Emits.write _

theorem emits_entry (n ty v : Bytes) (w : Wr) (hw : w.ws.pos ≤ w.ws.data.length) :
    writeEntry n ty v w = { w with ws := w.ws.write (text [(w.indent, entryLine n ty v)]) } := by
  have h := ((((((Emits.indent w.indent).comp (Emits.string n)).comp (Emits.string b!"=")).comp (Emits.string ty)).comp
    (Emits.string b!":")).comp (Emits.line v)) w.ws hw
  unfold writeEntry
  simp only at h ⊢
  rw [h]
  simp [text, entryLine]

theorem dec10 (n : Nat) (h : n < 2 ^ 32) (junk : Bytes) : intosv 10 junk (dec n) = dec n :=
  intosv_fit _ _ _ (dec_length_le n 10 (by decide) (by omega))

theorem emits_begin (n c : Bytes) (ver : BitVec 16) (w : Wr) (hw : w.ws.pos ≤ w.ws.data.length) :
    objBegin n c ver w = { w with
      ws := w.ws.write (text [(w.indent, hdrLine n (if emptyClass c then nullClass else c) ver
        (if emptyClass c then 0 else w.index))])
      index := if emptyClass c then w.index else w.index + 1
      indent := w.indent + 1 } := by
  have hv := ver.isLt
  generalize hix : (if emptyClass c then 0 else w.index) = ix
  have hi := ix.isLt
  have h := ((((((((((Emits.indent w.indent).comp (Emits.string b!"[")).comp (Emits.string n)).comp (Emits.string b!" ")).comp
    (Emits.string (if emptyClass c then nullClass else c))).comp (Emits.string b!" ")).comp
    (Emits.string (dec ver.toNat))).comp (Emits.string b!" ")).comp (Emits.string (dec ix.toNat))).comp
    (Emits.string b!"]")).comp (Emits.string b!"\n") w.ws hw
  unfold objBegin
  simp only [hix, dec10 ver.toNat (by omega), dec10 ix.toNat hi] at h ⊢
  rw [h]
  simp [text, hdrLine]

theorem emits_end (w : Wr) (hw : w.ws.pos ≤ w.ws.data.length) :
    objEnd w = { w with ws := w.ws.write (text [(w.indent - 1, b!"[]")]), indent := w.indent - 1 } := by
  have h := ((Emits.indent (w.indent - 1)).comp (Emits.line b!"[]")) w.ws hw
  unfold objEnd
  simp only at h ⊢
  rw [h]
  simp [text]

theorem emits_ref (n : Bytes) (ix : BitVec 32) (w : Wr) (hw : w.ws.pos ≤ w.ws.data.length) :
    ref n ix w = { w with ws := w.ws.write (text [(w.indent, hdrLine n refClass 0 ix), (w.indent, b!"[]")]) } := by
  have h := ((((((((Emits.indent w.indent).comp (Emits.string b!"[")).comp (Emits.string n)).comp
    (Emits.string (b!" " ++ refClass ++ b!" 0 "))).comp (Emits.string (dec ix.toNat))).comp (Emits.string b!"]")).comp
    (Emits.string b!"\n")).comp (Emits.indent w.indent)).comp (Emits.line b!"[]") w.ws hw
  unfold ref
  simp only [dec10 ix.toNat ix.isLt] at h ⊢
  rw [h]
  have e0 : dec 0 = [48] := by decide
  simp [text, hdrLine, e0]

theorem write_doc (d : Doc) (w : Wr) (hw : w.ws.pos ≤ w.ws.data.length) (hn : d.Numbered w.index)
    (cs : List Call) :
    calls w (d.calls ++ cs) =
      calls { w with ws := w.ws.write (text (lines w.junk w.indent d)), index := d.next w.index } cs := by
  induction d generalizing w cs with
  | nil => simp [Doc.calls, lines, text, Doc.next, Ws.write_nil _ hw]
  | val n v rest ih =>
    simp only [Doc.calls, List.cons_append, calls, List.foldl_cons, call]
    rw [emits_entry _ _ _ w hw]
    have := ih { w with ws := w.ws.write (text [(w.indent, entryLine n (valText w.junk v).1 (valText w.junk v).2)]) }
      (Ws.write_le _ _ hw) hn cs
    simp only [calls] at this
    rw [this, Ws.write_write _ _ _ hw, ← text_append]
    simp [lines, Doc.next]
  | ref n ix rest ih =>
    simp only [Doc.calls, List.cons_append, calls, List.foldl_cons, call]
    rw [emits_ref _ _ w hw]
    have := ih { w with ws := w.ws.write (text [(w.indent, hdrLine n refClass 0 ix), (w.indent, b!"[]")]) }
      (Ws.write_le _ _ hw) hn cs
    simp only [calls] at this
    rw [this, Ws.write_write _ _ _ hw, ← text_append]
    simp [lines, Doc.next]
  | obj n c ver ix ch rest ihc ihr =>
    obtain ⟨hix, hnc, hnr⟩ := hn
    simp only [Doc.calls, List.cons_append, calls, List.foldl_cons, call, List.append_assoc]
    rw [emits_begin _ _ _ w hw, ← hix]
    generalize hi : (if emptyClass c then w.index else w.index + 1) = i1 at hnc hnr
    generalize hT : (w.indent, hdrLine n (if emptyClass c then nullClass else c) ver ix) = T
    have h1 := ihc ⟨w.ws.write (text [T]), i1, w.indent + 1, w.junk⟩ (Ws.write_le _ _ hw) hnc
      (.finish :: (rest.calls ++ cs))
    simp only [calls] at h1
    rw [h1, Ws.write_write _ _ _ hw, ← text_append]
    simp only [List.foldl_cons, call]
    rw [emits_end _ (Ws.write_le _ _ hw)]
    simp only [BitVec.add_sub_cancel]
    rw [Ws.write_write _ _ _ hw, ← text_append]
    have h2 := ihr ⟨w.ws.write (text ([T] ++ lines w.junk (w.indent + 1) ch ++ [(w.indent, b!"[]")])), ch.next i1, w.indent,
      w.junk⟩ (Ws.write_le _ _ hw) hnr cs
    simp only [calls] at h2
    rw [h2, Ws.write_write _ _ _ hw, ← text_append]
    simp only [lines, Doc.next, hi, hT]
    simp

/-! ## Reading documents -/

/-- The lines of the unread levels. -/
def pending (junk : Bytes) : List Doc → List Bytes
  | [] => []
  | [d] => (lines junk 0 d).map (·.2)
  | d :: e :: L => (lines junk 0 d).map (·.2) ++ b!"[]" :: pending junk (e :: L)

/-- `b` consists of lines, with any indentation between them, and `post`. -/
def Body (post : Bytes) : List Bytes → Bytes → Prop
  | [], b => b = post
  | l :: ls, b => ∃ ws b', (∀ c ∈ ws, c ∈ Rd.lineSpaces) ∧ b = (l ++ 10 :: ws) ++ b' ∧ Body post ls b'

/-- Values, names and classes survive. -/
def OkDoc (d : Doc) : Prop := d.All (fun n v => OkKey n ∧ OkVal v) (fun n c _ _ => OkName n ∧ OkName c)

instance (d : Doc) : Decidable (OkDoc d) := inferInstanceAs (Decidable (d.All _ _))

theorem lines_snd (junk : Bytes) (k k' : BitVec 32) (d : Doc) :
    (lines junk k d).map (·.2) = (lines junk k' d).map (·.2) := by
  induction d generalizing k k' with
  | nil => rfl
  | val n v rest ih => simp only [lines, List.map_cons, ih k k']
  | ref n ix rest ih => simp only [lines, List.map_cons, ih k k']
  | obj n c ver ix ch rest ihc ihr =>
    simp only [lines, List.map_cons, List.map_append, ihc (k + 1) (k' + 1), ihr k k']

theorem lines_head (junk : Bytes) (k : BitVec 32) (d : Doc) : ∀ p, (lines junk k d).head? = some p → p.1 = k := by
  intro p hp
  cases d <;> simp [lines] at hp <;> subst hp <;> rfl

def LineOk (l : Bytes) : Prop := ∃ c r, l = c :: r ∧ c ∉ Rd.lineSpaces ∧ c ≠ 0

theorem lines_ok (junk : Bytes) (k : BitVec 32) (d : Doc) (h : OkDoc d) : ∀ p ∈ lines junk k d, LineOk p.2 := by
  have hh : ∀ n c ver ix, LineOk (hdrLine n c ver ix) := fun n c ver ix => ⟨91, _, rfl, by decide, by decide⟩
  have he : LineOk b!"[]" := ⟨91, _, rfl, by decide, by decide⟩
  induction d generalizing k with
  | nil => simp [lines]
  | val n v rest ih =>
    intro p hp
    simp only [lines, List.mem_cons] at hp
    rcases hp with rfl | hp
    · obtain ⟨⟨⟨h1, h2, h3, h4⟩, _⟩, _⟩ := h
      cases n with
      | nil => exact absurd rfl h1
      | cons c n => exact ⟨c, _, rfl, h4 c rfl, (h2 c (by simp)).1⟩
    · exact ih k h.2 p hp
  | ref n ix rest ih =>
    intro p hp
    simp only [lines, List.mem_cons] at hp
    rcases hp with rfl | rfl | hp
    · exact hh _ _ _ _
    · exact he
    · exact ih k h.2 p hp
  | obj n c ver ix ch rest ihc ihr =>
    intro p hp
    simp only [lines, List.mem_cons, List.mem_append] at hp
    rcases hp with rfl | hp | rfl | hp
    · exact hh _ _ _ _
    · exact ihc _ h.2.1 p hp
    · exact he
    · exact ihr k h.2.2 p hp

theorem pending_ok (junk : Bytes) (L : List Doc) (h : ∀ d ∈ L, OkDoc d) : ∀ l ∈ pending junk L, LineOk l := by
  induction L with
  | nil => simp [pending]
  | cons d L ih =>
    have h1 : ∀ l ∈ (lines junk 0 d).map (·.2), LineOk l := by
      intro l hl
      obtain ⟨p, hp, rfl⟩ := List.mem_map.1 hl
      exact lines_ok junk 0 d (h d (by simp)) p hp
    cases L with
    | nil => exact h1
    | cons e L =>
      intro l hl
      simp only [pending, List.mem_append, List.mem_cons] at hl
      rcases hl with hl | rfl | hl
      · exact h1 l hl
      · exact ⟨91, _, rfl, by decide, by decide⟩
      · exact ih (fun d hd => h d (by simp at hd ⊢; tauto)) l hl

theorem body_solid (post : Bytes) (hp : Solid post) (ls : List Bytes) (h : ∀ l ∈ ls, LineOk l) (b : Bytes)
    (hb : Body post ls b) : Solid b := by
  cases ls with
  | nil => rw [show b = post from hb]; exact hp
  | cons l ls =>
    obtain ⟨ws, b', _, rfl, _⟩ := hb
    obtain ⟨c, r, rfl, h1, h2⟩ := h l (by simp)
    exact solid_cons c _ h1 h2

/-- The text of indented lines without the indentation of the first line. -/
theorem body_text (post : Bytes) (ls : List (BitVec 32 × Bytes)) (k : BitVec 32) (b : Bytes)
    (hk : ∀ p, ls.head? = some p → p.1 = k) (hb : text ls ++ post = b) :
    ∃ ws b', b = ws ++ b' ∧ ws = (if ls = [] then [] else List.replicate k.toNat 9) ∧ Body post (ls.map (·.2)) b' := by
  induction ls generalizing k b with
  | nil => exact ⟨[], b, rfl, rfl, hb.symm⟩
  | cons p ls ih =>
    obtain ⟨k', l⟩ := p
    have := hk _ rfl
    simp only at this
    subst this
    obtain ⟨ws, b', e1, e2, e3⟩ := ih ((ls.head?.map (·.1)).getD 0) (text ls ++ post) (by intro p hp; simp [hp]) rfl
    refine ⟨List.replicate k'.toNat 9, l ++ 10 :: (text ls ++ post), ?_, by simp, ws, b', ?_, by rw [e1]; simp, e3⟩
    · rw [← hb]; simp [text]
    · intro c hc
      rw [e2] at hc
      split at hc
      · simp at hc
      · rw [List.eq_of_mem_replicate hc]; decide

/-- The reader stands in front of the pending lines of `L`. -/
def R (junk data post : Bytes) (L : List Doc) (s : Rs) : Prop :=
  s.data = data ∧ (∀ d ∈ L, OkDoc d) ∧ s.pos ≤ data.length ∧ Body post (pending junk L) (data.drop s.pos)

theorem step {α} (junk data post : Bytes) (hpost : Solid post) (p : Rd α) (l : Bytes) (a : α) (L L' : List Doc) (s : Rs)
    (hp : ∀ ws, (∀ c ∈ ws, c ∈ Rd.lineSpaces) → ReadsIf p (l ++ 10 :: ws) a Solid)
    (hL : pending junk L = l :: pending junk L') (hok : ∀ d ∈ L', OkDoc d) (h : R junk data post L s) :
    ∃ s', p s = .ok (a, s') ∧ R junk data post L' s' := by
  obtain ⟨sd, pos⟩ := s
  obtain ⟨rfl, _, h2, h3⟩ := h
  simp only at h2 h3
  rw [hL] at h3
  obtain ⟨ws, b', hws, hb, hr⟩ := h3
  obtain ⟨e1, e2, e3⟩ := (hp ws hws).atPos sd pos b' h2 hb
    (body_solid post hpost _ (pending_ok junk L' hok) b' hr)
  exact ⟨_, e1, rfl, hok, e2, by rw [e3]; exact hr⟩

theorem pending_cons (junk : Bytes) (d : Doc) (L : List Doc) (l : Bytes) (d' : Doc)
    (h : (lines junk 0 d).map (·.2) = l :: (lines junk 0 d').map (·.2)) :
    pending junk (d :: L) = l :: pending junk (d' :: L) := by
  cases L with
  | nil => exact h
  | cons e L => simp only [pending, h, List.cons_append]

theorem pending_open (junk : Bytes) (d ch rest : Doc) (L : List Doc) (l : Bytes)
    (h : (lines junk 0 d).map (·.2) =
      l :: ((lines junk 0 ch).map (·.2) ++ b!"[]" :: (lines junk 0 rest).map (·.2))) :
    pending junk (d :: L) = l :: pending junk (ch :: rest :: L) := by
  cases L with
  | nil => simp only [pending, h]
  | cons e L => simp only [pending, h, List.cons_append, List.append_assoc]

theorem emptyClass_null (c : Bytes) (hc : c ≠ []) : (if emptyClass c then nullClass else c) = c := by
  split
  · rename_i h
    simp only [emptyClass, Bool.or_eq_true, List.isEmpty_iff, hc, false_or, beq_iff_eq] at h
    exact h.symm
  · rfl

/-- The ASCII reader simulates documents. -/
def sim (junk data post : Bytes) (hpost : Solid post) : Sim reader where
  R := R junk data post
  val := by
    intro n v rest L s h
    have hok := h.2.1
    obtain ⟨⟨⟨h1, h2, h3, h4⟩, hv⟩, hr⟩ := hok _ List.mem_cons_self
    refine step junk data post hpost _ (entryLine n (valText junk v).1 (valText junk v).2) _ _ (rest :: L) s
      (fun ws hws => (reads_val junk n v hv ws h2 h3 hws).1) (pending_cons _ _ _ _ _ rfl) ?_ h
    intro d hd
    rcases List.mem_cons.1 hd with rfl | hd
    · exact hr
    · exact hok d (by simp [hd])
  obj := by
    intro n c ver ix ch rest L s h
    have hok := h.2.1
    obtain ⟨⟨hn, hc⟩, hch, hr⟩ := hok _ List.mem_cons_self
    refine step junk data post hpost _ (hdrLine n c ver ix) _ _ (ch :: rest :: L) s
      (fun ws hws => reads_begin n c ver ix hn hc ws hws) (pending_open _ _ _ _ _ _ ?_) ?_ h
    · simp only [lines, List.map_cons, List.map_append, emptyClass_null c hc.1, lines_snd junk (0 + 1) 0 ch]
    · intro d hd
      simp only [List.mem_cons] at hd
      rcases hd with rfl | rfl | hd
      · exact hch
      · exact hr
      · exact hok d (by simp [hd])
  ref := by
    intro n ix rest L s h
    have hok := h.2.1
    obtain ⟨⟨hn, hc⟩, hr⟩ := hok _ List.mem_cons_self
    refine step junk data post hpost _ (hdrLine n refClass 0 ix) _ _ (.nil :: rest :: L) s
      (fun ws hws => reads_begin n refClass 0 ix hn hc ws hws) (pending_open _ _ _ _ _ _ rfl) ?_ h
    intro d hd
    simp only [List.mem_cons] at hd
    rcases hd with rfl | rfl | hd
    · trivial
    · exact hr
    · exact hok d (by simp [hd])
  fin := by
    intro rest L s h
    have hok := h.2.1
    refine step junk data post hpost _ b!"[]" _ _ (rest :: L) s (fun ws hws => reads_end ws hws) rfl ?_ h
    intro d hd
    exact hok d (by simp at hd ⊢; tauto)

/-! ## Any line -/

theorem seek_ok (off : Int) (wh : Whence) (s : Rs) : ∃ s', Rd.seek off wh s = .ok ((), s') := by
  unfold Rd.seek
  by_cases h : Rd.seekTarget s.pos s.data.length off wh < 0 ∨ Rd.seekTarget s.pos s.data.length off wh > s.data.length
  · exact ⟨s, if_pos h⟩
  · exact ⟨_, if_neg h⟩

theorem seek_beg (data : Bytes) (p q : Nat) (h : p ≤ data.length) :
    Rd.seek (p : Nat) .beg ⟨data, q⟩ = .ok ((), ⟨data, p⟩) := by
  have h2 : ¬ ((p : Int) < 0 ∨ (p : Int) > (data.length : Int)) := by omega
  have : Rd.seek (p : Nat) .beg ⟨data, q⟩ = .ok ((), ⟨data, ((p : Int)).toNat⟩) := if_neg h2
  rw [this]; simp

/-- The value of `read_line(true)`, whatever follows. -/
theorem line_value (data : Bytes) (pos : Nat) (hp : pos ≤ data.length) :
    ∃ s, Rd.line true ⟨data, pos⟩ = .ok (lineOf (data.drop pos), s) := by
  unfold Rd.line Rd.lineThenIgnore
  simp only [if_true]
  rw [Rd.bind_ok (lineLoop_eq data _ pos [] (by omega))]
  generalize hq : (if pos + (lineOf (data.drop pos)).length < data.length
          then pos + (lineOf (data.drop pos)).length + 1 else max pos data.length) = q
  have hqd : q ≤ data.length := by rw [← hq]; split <;> omega
  have hqp : pos ≤ q := by rw [← hq]; split <;> omega
  generalize (data.drop (pos + (lineOf (data.drop pos)).length)).headD 0 = c
  simp only [List.nil_append]
  rw [Rd.bind_ok (p := Rd.eof) (show Rd.eof ⟨data, q⟩ = .ok (decide (q ≥ data.length), ⟨data, q⟩) from rfl)]
  split
  · exact ⟨_, rfl⟩
  · rw [Rd.bind_ok (ignoreLoop_eq Rd.lineSpaces data _ q hqd (by omega))]
    generalize (if q + (ignoredOf Rd.lineSpaces (data.drop q)).length < data.length
          then q + (ignoredOf Rd.lineSpaces (data.drop q)).length + 1 else data.length) = q2
    generalize (data.drop (q + (ignoredOf Rd.lineSpaces (data.drop q)).length)).headD 0 = c2
    rw [Rd.bind_ok (p := Rd.eof) (show Rd.eof ⟨data, q2⟩ = .ok (decide (q2 ≥ data.length), ⟨data, q2⟩) from rfl)]
    by_cases hb : (decide (q2 ≥ data.length) && c2 == 0) = true
    · rw [if_pos hb]; exact ⟨_, rfl⟩
    · rw [if_neg hb]
      obtain ⟨s', hs'⟩ := seek_ok (-1) .cur ⟨data, q2⟩
      exact ⟨s', by rw [Rd.bind_ok hs']; rfl⟩

/-! ## Skipping -/

theorem mem_lineSpaces (c : Byte) : c ∈ Rd.lineSpaces ↔ isSpace c = true := by
  simp only [Rd.lineSpaces, isSpace, List.mem_cons, List.not_mem_nil, or_false, Bool.or_eq_true, beq_iff_eq,
    Bool.and_eq_true, decide_eq_true_eq, UInt8.le_iff_toNat_le, UInt8.ext_iff]
  simp
  omega

theorem reads_skip_entry (l ws : Bytes) (hl : NoEol l) (c : Byte) (r : Bytes) (hc : l = c :: r) (hs : c ∉ Rd.lineSpaces)
    (h91 : c ≠ 91) (hws : ∀ x ∈ ws, x ∈ Rd.lineSpaces) : ReadsIf skipStep (l ++ 10 :: ws) 0 Solid := by
  intro pre post hq
  have hline := ReadsIf.line l ws hl hws pre post hq
  generalize hd : pre ++ (l ++ 10 :: ws) ++ post = data at hline ⊢
  have hlen : pre.length < data.length := by rw [← hd]; simp
  have heof : Rd.eof ⟨data, pre.length⟩ = .ok (false, ⟨data, pre.length⟩) := by
    simp only [Rd.eof]
    simp [hlen]
  have hseek : ∀ q, Rd.seek (pre.length : Nat) .beg ⟨data, q⟩ = .ok ((), ⟨data, pre.length⟩) :=
    fun q => seek_beg data _ q (Nat.le_of_lt hlen)
  have hb : readObjBegin ⟨data, pre.length⟩ = .ok (none, ⟨data, pre.length⟩) := by
    unfold readObjBegin
    rw [Rd.bind_ok heof]
    simp only [Bool.false_eq_true, if_false]
    rw [Rd.bind_ok (p := Rd.tell) (show Rd.tell ⟨data, pre.length⟩ = .ok (pre.length, ⟨data, pre.length⟩) from rfl),
      Rd.bind_ok hline]
    have : (if l.length ≤ 2 then none else scanHdr l) = none := by
      split
      · rfl
      · rw [hc]; simp [scanHdr, h91]
    simp only [this]
    rw [Rd.bind_ok (hseek _)]
    rfl
  have he : readObjEnd ⟨data, pre.length⟩ = .ok (false, ⟨data, pre.length⟩) := by
    unfold readObjEnd
    rw [Rd.bind_ok heof]
    simp only [Bool.false_eq_true, if_false]
    rw [Rd.bind_ok (p := Rd.tell) (show Rd.tell ⟨data, pre.length⟩ = .ok (pre.length, ⟨data, pre.length⟩) from rfl),
      Rd.bind_ok hline]
    have hd2 : l.dropWhile isSpace = l := by
      rw [hc]
      apply dropWhile_false
      intro a ha
      simp at ha
      subst ha
      rw [mem_lineSpaces] at hs
      simpa using hs
    rw [hd2, if_pos (by rw [hc]; simp [h91])]
    rw [Rd.bind_ok (hseek _)]
    rfl
  unfold skipStep
  rw [Rd.bind_ok hb]
  simp only
  rw [Rd.bind_ok he]
  simp only [Bool.false_eq_true, if_false]
  rw [Rd.bind_ok hline]
  rfl

theorem reads_skip_begin (n c : Bytes) (ver : BitVec 16) (ix : BitVec 32) (hn : OkName n) (hc : OkName c) (ws : Bytes)
    (hws : ∀ x ∈ ws, x ∈ Rd.lineSpaces) :
    ReadsIf skipStep (hdrLine n c ver ix ++ 10 :: ws) 1 Solid :=
  (reads_begin n c ver ix hn hc ws hws).bind_eq rfl

theorem reads_skip_end (ws : Bytes) (hws : ∀ x ∈ ws, x ∈ Rd.lineSpaces) :
    ReadsIf skipStep (b!"[]" ++ 10 :: ws) (-1) Solid := by
  intro pre post hq
  have hend := reads_end ws hws pre post hq
  have hline := ReadsIf.line b!"[]" ws (by decide) hws pre post hq
  generalize hd : pre ++ (b!"[]" ++ 10 :: ws) ++ post = data at hline hend ⊢
  have hlen : pre.length < data.length := by rw [← hd]; simp
  have heof : Rd.eof ⟨data, pre.length⟩ = .ok (false, ⟨data, pre.length⟩) := by
    simp only [Rd.eof]
    simp [hlen]
  have hseek : ∀ q, Rd.seek (pre.length : Nat) .beg ⟨data, q⟩ = .ok ((), ⟨data, pre.length⟩) :=
    fun q => seek_beg data _ q (Nat.le_of_lt hlen)
  have hb : readObjBegin ⟨data, pre.length⟩ = .ok (none, ⟨data, pre.length⟩) := by
    unfold readObjBegin
    rw [Rd.bind_ok heof]
    simp only [Bool.false_eq_true, if_false]
    rw [Rd.bind_ok (p := Rd.tell) (show Rd.tell ⟨data, pre.length⟩ = .ok (pre.length, ⟨data, pre.length⟩) from rfl),
      Rd.bind_ok hline]
    have : (if (b!"[]" : Bytes).length ≤ 2 then none else scanHdr b!"[]") = none := by decide
    simp only [this]
    rw [Rd.bind_ok (hseek _)]
    rfl
  unfold skipStep
  rw [Rd.bind_ok hb]
  simp only
  rw [Rd.bind_ok hend]
  rfl

/-- As `OkDoc`; entries do not look like objects. -/
def SkipDoc (d : Doc) : Prop := OkDoc d ∧ d.All (fun n _ => n.head? ≠ some 91) (fun _ _ _ _ => True)

instance (d : Doc) : Decidable (SkipDoc d) :=
  have : ∀ n : Bytes, Decidable (n.head? ≠ some 91) := fun _ => inferInstance
  inferInstanceAs (Decidable (_ ∧ _))

theorem skip_step (junk data post : Bytes) (hpost : Solid post) (l : Bytes) (a : Int) (L L' : List Doc) (s : Rs)
    (hp : ∀ ws, (∀ c ∈ ws, c ∈ Rd.lineSpaces) → ReadsIf skipStep (l ++ 10 :: ws) a Solid)
    (hL : pending junk L = l :: pending junk L') (hok : ∀ d ∈ L', OkDoc d) (h : R junk data post L s) (level : Int)
    (hlv : level + a > 0) (fuel : Nat) :
    ∃ s', skipLoop (fuel + 1) level s = skipLoop fuel (level + a) s' ∧ R junk data post L' s' := by
  obtain ⟨s', e, h'⟩ := step junk data post hpost skipStep l a L L' s hp hL hok h
  refine ⟨s', ?_, h'⟩
  rw [skipLoop, Rd.bind_ok e, if_pos hlv]

/-- Skipping the rest of an object, all of whose lines are read one after the other. -/
theorem skip_doc (junk data post : Bytes) (hpost : Solid post) (d : Doc) (hd : SkipDoc d) (L : List Doc)
    (hL : ∀ d ∈ L, OkDoc d) (s : Rs) (h : R junk data post (d :: L) s) (level : Int) (hlv : level > 0) (fuel : Nat) :
    ∃ s', skipLoop (fuel + (lines junk 0 d).length) level s = skipLoop fuel level s' ∧ R junk data post (.nil :: L) s' := by
  induction d generalizing L s level fuel with
  | nil => exact ⟨s, rfl, h⟩
  | val n v rest ih =>
    obtain ⟨⟨⟨⟨k1, k2, k3, k4⟩, hv⟩, hr⟩, hh, hr2⟩ := hd
    obtain ⟨c, r, hc⟩ : ∃ c r, n = c :: r := by
      cases n with
      | nil => exact absurd rfl k1
      | cons c r => exact ⟨c, r, rfl⟩
    obtain ⟨s1, e1, h1⟩ := skip_step junk data post hpost (entryLine n (valText junk v).1 (valText junk v).2) 0
      (.val n v rest :: L) (rest :: L) s (by
        intro ws hws
        have hrv := reads_val junk n v hv ws k2 k3 hws
        refine reads_skip_entry _ ws ?_ c (r ++ 61 :: ((valText junk v).1 ++ 58 :: (valText junk v).2))
          (by rw [hc]; rfl) (k4 c (by rw [hc]; rfl)) (by intro e; apply hh; rw [hc, e]; rfl) hws
        exact noEol_append k2 (noEol_cons (by decide) (noEol_append hrv.2.1 (noEol_cons (by decide) hrv.2.2))))
      (pending_cons _ _ _ _ _ rfl) (by
        intro d hd
        rcases List.mem_cons.1 hd with rfl | hd
        · exact hr
        · exact hL d hd) h level (by omega) (fuel + (lines junk 0 rest).length)
    obtain ⟨s2, e2, h2⟩ := ih ⟨hr, hr2⟩ L hL s1 h1 level hlv fuel
    refine ⟨s2, ?_, h2⟩
    simp only [lines, List.length_cons, ← Nat.add_assoc]
    rw [e1, ← e2]
    congr 2
    omega
  | ref n ix rest ih =>
    obtain ⟨⟨⟨hn, hc⟩, hr⟩, _, hr2⟩ := hd
    have hok : ∀ d ∈ rest :: L, OkDoc d := by
      intro d hd
      rcases List.mem_cons.1 hd with rfl | hd
      · exact hr
      · exact hL d hd
    obtain ⟨s1, e1, h1⟩ := skip_step junk data post hpost (hdrLine n refClass 0 ix) 1
      (.ref n ix rest :: L) (.nil :: rest :: L) s (fun ws hws => reads_skip_begin _ _ _ _ hn hc ws hws)
      (pending_open _ _ _ _ _ _ rfl) (by
        intro d hd
        rcases List.mem_cons.1 hd with rfl | hd
        · trivial
        · exact hok d hd) h level (by omega) (fuel + (lines junk 0 rest).length + 1)
    obtain ⟨s2, e2, h2⟩ := skip_step junk data post hpost b!"[]" (-1)
      (.nil :: rest :: L) (rest :: L) s1 (fun ws hws => reads_skip_end ws hws) rfl hok h1 (level + 1) (by omega)
      (fuel + (lines junk 0 rest).length)
    obtain ⟨s3, e3, h3⟩ := ih ⟨hr, hr2⟩ L hL s2 h2 level hlv fuel
    refine ⟨s3, ?_, h3⟩
    simp only [lines, List.length_cons, ← Nat.add_assoc]
    rw [e1, e2, ← e3]
    congr 2
    omega
  | obj n c ver ix ch rest ihc ihr =>
    obtain ⟨⟨⟨hn, hc⟩, hch, hr⟩, _, hch2, hr2⟩ := hd
    have hok : ∀ d ∈ rest :: L, OkDoc d := by
      intro d hd
      rcases List.mem_cons.1 hd with rfl | hd
      · exact hr
      · exact hL d hd
    have hlen : (lines junk (0 + 1) ch).length = (lines junk 0 ch).length := by
      have := congrArg List.length (lines_snd junk (0 + 1) 0 ch)
      simpa using this
    obtain ⟨s1, e1, h1⟩ := skip_step junk data post hpost (hdrLine n c ver ix) 1
      (.obj n c ver ix ch rest :: L) (ch :: rest :: L) s (fun ws hws => reads_skip_begin _ _ _ _ hn hc ws hws)
      (pending_open _ _ _ _ _ _ (by
        simp only [lines, List.map_cons, List.map_append, emptyClass_null c hc.1, lines_snd junk (0 + 1) 0 ch])) (by
        intro d hd
        rcases List.mem_cons.1 hd with rfl | hd
        · exact hch
        · exact hok d hd) h level (by omega) (fuel + (lines junk 0 rest).length + 1 + (lines junk 0 ch).length)
    obtain ⟨s2, e2, h2⟩ := ihc ⟨hch, hch2⟩ (rest :: L) hok s1 h1 (level + 1) (by omega)
      (fuel + (lines junk 0 rest).length + 1)
    obtain ⟨s3, e3, h3⟩ := skip_step junk data post hpost b!"[]" (-1)
      (.nil :: rest :: L) (rest :: L) s2 (fun ws hws => reads_skip_end ws hws) rfl hok h2 (level + 1) (by omega)
      (fuel + (lines junk 0 rest).length)
    obtain ⟨s4, e4, h4⟩ := ihr ⟨hr, hr2⟩ L hL s3 h3 level hlv fuel
    refine ⟨s4, ?_, h4⟩
    simp only [lines, List.length_cons, List.length_append, hlen]
    rw [show fuel + ((lines junk 0 ch).length + ((lines junk 0 rest).length + 1) + 1) =
      fuel + (lines junk 0 rest).length + 1 + (lines junk 0 ch).length + 1 by omega, e1, e2, e3, ← e4]
    congr 2
    omega

theorem body_length (post : Bytes) (ls : List Bytes) (b : Bytes) (h : Body post ls b) : ls.length ≤ b.length := by
  induction ls generalizing b with
  | nil => simp
  | cons l ls ih =>
    obtain ⟨ws, b', _, rfl, h⟩ := h
    have := ih b' h
    simp; omega

/-- `skip_object(true)` inside an object whose rest is `ch`. -/
theorem skip_rest (junk data post : Bytes) (hpost : Solid post) (ch rest : Doc) (L : List Doc) (hch : SkipDoc ch)
    (s : Rs) (h : R junk data post (ch :: rest :: L) s) :
    ∃ s', skipObj true s = .ok ((), s') ∧ R junk data post (rest :: L) s' := by
  have hok : ∀ d ∈ rest :: L, OkDoc d := fun d hd => h.2.1 d (by simp at hd ⊢; tauto)
  have hfuel : ∃ f, s.data.length - s.pos + 2 = f + 1 + (lines junk 0 ch).length := by
    have h1 := body_length _ _ _ h.2.2.2
    simp only [pending, List.length_append, List.length_map, List.length_drop] at h1
    rw [← h.1] at h1
    exact ⟨s.data.length - s.pos + 1 - (lines junk 0 ch).length, by omega⟩
  obtain ⟨f, hf⟩ := hfuel
  obtain ⟨s1, e1, h1⟩ := skip_doc junk data post hpost ch hch (rest :: L) hok s h 1 (by omega) (f + 1)
  obtain ⟨s2, e2, h2⟩ := step junk data post hpost skipStep b!"[]" (-1) (.nil :: rest :: L) (rest :: L) s1
    (fun ws hws => reads_skip_end ws hws) rfl hok h1
  refine ⟨s2, ?_, h2⟩
  unfold skipObj
  simp only [if_true, hf]
  rw [e1, skipLoop, Rd.bind_ok e2]
  rfl

/-- `skip_object(false)` in front of an object. -/
theorem skip_whole (junk data post : Bytes) (hpost : Solid post) (n c : Bytes) (ver : BitVec 16) (ix : BitVec 32)
    (ch rest : Doc) (L : List Doc) (hch : SkipDoc ch)
    (s : Rs) (h : R junk data post (.obj n c ver ix ch rest :: L) s) :
    ∃ s', skipObj false s = .ok ((), s') ∧ R junk data post (rest :: L) s' := by
  obtain ⟨⟨hn, hc⟩, hch', hr⟩ := h.2.1 _ List.mem_cons_self
  have hok : ∀ d ∈ rest :: L, OkDoc d := by
    intro d hd
    rcases List.mem_cons.1 hd with rfl | hd
    · exact hr
    · exact h.2.1 d (by simp [hd])
  have hpend : pending junk (.obj n c ver ix ch rest :: L) = hdrLine n c ver ix :: pending junk (ch :: rest :: L) :=
    pending_open _ _ _ _ _ _ (by
      simp only [lines, List.map_cons, List.map_append, emptyClass_null c hc.1, lines_snd junk (0 + 1) 0 ch])
  have hfuel : ∃ f, s.data.length - s.pos + 2 = f + 1 + (lines junk 0 ch).length + 1 := by
    have h1 := body_length _ _ _ h.2.2.2
    rw [hpend] at h1
    simp only [pending, List.length_append, List.length_map, List.length_drop, List.length_cons] at h1
    rw [← h.1] at h1
    exact ⟨s.data.length - s.pos - (lines junk 0 ch).length, by omega⟩
  obtain ⟨f, hf⟩ := hfuel
  obtain ⟨s0, e0, h0⟩ := skip_step junk data post hpost (hdrLine n c ver ix) 1
    (.obj n c ver ix ch rest :: L) (ch :: rest :: L) s (fun ws hws => reads_skip_begin _ _ _ _ hn hc ws hws)
    hpend (by
      intro d hd
      rcases List.mem_cons.1 hd with rfl | hd
      · exact hch'
      · exact hok d hd) h 0 (by omega) (f + 1 + (lines junk 0 ch).length)
  obtain ⟨s1, e1, h1⟩ := skip_doc junk data post hpost ch hch (rest :: L) hok s0 h0 1 (by omega) (f + 1)
  obtain ⟨s2, e2, h2⟩ := step junk data post hpost skipStep b!"[]" (-1) (.nil :: rest :: L) (rest :: L) s1
    (fun ws hws => reads_skip_end ws hws) rfl hok h1
  refine ⟨s2, ?_, h2⟩
  unfold skipObj
  simp only [Bool.false_eq_true, if_false, hf]
  rw [e0]
  show skipLoop _ 1 s0 = _
  rw [e1, skipLoop, Rd.bind_ok e2]
  rfl

end Verif.Ar.Asc
