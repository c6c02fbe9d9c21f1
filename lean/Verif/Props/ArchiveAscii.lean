import Verif.Lemmas.ArchiveAscii
import Verif.Props.ArchiveHeader

/-!
# C15, C16, C17, C60: ASCII archives
-/

namespace Verif.Props

open Verif.Ar

/-! ## C17 -/

/-- The reader in front of a document that was just written. -/
theorem asc_start (d : Doc) (w : Asc.Wr) (hw : w.ws.pos = w.ws.data.length) (hi : w.indent = 0)
    (hn : d.Numbered w.index) (hok : Asc.OkDoc d) (post : Bytes) (hpost : Solid post) :
    (Asc.calls w d.calls).index = d.next w.index ∧
      (Asc.calls w d.calls).ws.pos = (Asc.calls w d.calls).ws.data.length ∧ w.ws.pos ≤ (Asc.calls w d.calls).ws.pos ∧
      (Asc.sim w.junk ((Asc.calls w d.calls).ws.data ++ post) post hpost).R [d]
        ⟨(Asc.calls w d.calls).ws.data ++ post, w.ws.pos⟩ := by
  have hwr := Asc.write_doc d w (by omega) hn []
  rw [List.append_nil] at hwr
  have hwr' : Asc.calls w d.calls =
    { w with ws := w.ws.write (Asc.text (Asc.lines w.junk w.indent d)), index := d.next w.index } := hwr
  rw [hwr']
  refine ⟨rfl, ?_⟩
  generalize hT : Asc.text (Asc.lines w.junk w.indent d) = T
  have hdrop := Ws.write_drop w.ws T post (by omega)
  have hle := Ws.write_le w.ws T (by omega)
  have hd0 : w.ws.data.drop (w.ws.pos + T.length) = [] := List.drop_of_length_le (by omega)
  rw [hd0, List.nil_append] at hdrop
  have hpos : (w.ws.write T).pos = w.ws.pos + T.length := rfl
  have hlen : (w.ws.write T).data.length = w.ws.pos + T.length := by
    simp only [Ws.write, splice_le _ _ _ (Nat.le_of_eq hw), List.length_append, List.length_take, List.length_drop]
    omega
  generalize (w.ws.write T).data = D at hdrop hle hlen
  simp only [hpos] at hle ⊢
  obtain ⟨ws, b', e1, e2, e3⟩ := Asc.body_text post (Asc.lines w.junk w.indent d) w.indent (T ++ post)
    (Asc.lines_head _ _ _) (by rw [hT])
  have hws : ws = [] := by
    rw [e2, hi]; split <;> rfl
  rw [hws, List.nil_append] at e1
  refine ⟨by omega, by omega, rfl, by simpa using hok, ?_, ?_⟩
  · simp; omega
  · show Asc.Body post _ (List.drop w.ws.pos (D ++ post))
    rw [hdrop, e1]
    show Asc.Body post ((Asc.lines w.junk 0 d).map (·.2)) b'
    rw [Asc.lines_snd w.junk 0 w.indent]
    exact e3

/-- C17, part: whatever is written to an ASCII archive is read back by the same sequence of calls. Missing: `byte`,
`word` and `mat3` entries, numbers of at most -10^9, single precision numbers that are neither at least 16 nor a multiple of
a millionth, and raw data that is damaged according to C16; see the violations below. Strings must be free of NUL, CR
and LF, names of entries also of `=`, and names of objects of white space. `post` is what follows in the file. -/
theorem c17_ascii_round_trip_partial (d : Doc) (w : Asc.Wr) (hw : w.ws.pos = w.ws.data.length) (hi : w.indent = 0)
    (hn : d.Numbered w.index) (hok : Asc.OkDoc d) (post : Bytes) (hpost : Solid post) :
    (Asc.calls w d.calls).index = d.next w.index ∧
      readShape Asc.reader d.shape ⟨(Asc.calls w d.calls).ws.data ++ post, w.ws.pos⟩ =
        .ok (d.tree, ⟨(Asc.calls w d.calls).ws.data ++ post, (Asc.calls w d.calls).ws.pos⟩) := by
  obtain ⟨h1, h2, h3, h4⟩ := asc_start d w hw hi hn hok post hpost
  refine ⟨h1, ?_⟩
  obtain ⟨⟨sd, sp⟩, e4, r1, _, r3, r4⟩ := (Asc.sim w.junk _ post hpost).readShape d [] _ h4
  rw [e4]
  simp only at r1 r3 r4
  subst r1
  have hb : List.drop sp ((Asc.calls w d.calls).ws.data ++ post) = post := r4
  have hsp : sp = (Asc.calls w d.calls).ws.pos := by
    have := congrArg List.length hb
    simp at this r3
    omega
  rw [hsp]

/-- A document with nested, null and shared objects. -/
def demoDocAsc : Doc :=
  .obj b!"%" b!"oCWorld:zCWorld" 64513 0
    (.val b!"name" (.string b!"Xardas = [1 2 3 4]") (.val b!"mode" (.enum 200)
      (.obj b!"child" b!"zCVob" 1 1 (.val b!"flag" (.bool true) (.val b!"blob" (.raw [1, 16, 0, 255]) .nil))
        (.ref b!"again" 1 (.obj b!"none" b!"%" 0 0 .nil (.val b!"pos" (.vec3 ⟨0x41800001, 0xC2C80000, 0⟩)
          (.val b!"n" (.int (-999999999)) (.val b!"c" (.color ⟨1, 22, 255, 0⟩) (.val b!"f" (.float 0x3F400000) .nil)))))))))
    .nil

example : demoDocAsc.Numbered 0 := by decide
example : Asc.OkDoc demoDocAsc := by decide +kernel
example : (readShape Asc.reader demoDocAsc.shape ⟨(Asc.calls ⟨⟨[], 0⟩, 0, 0, []⟩ demoDocAsc.calls).ws.data, 0⟩).map (·.1) =
    .ok demoDocAsc.tree := by
  decide +kernel

/-- Whatever was written for the value: the reader looks at the type and takes the rest of the line. -/
theorem readEntry_any (ind : Nat) (n ty ty' text : Bytes) (hn : NoEol n) (hn2 : (61 : Byte) ∉ n) (hty : NoEol ty)
    (hty2 : (58 : Byte) ∉ ty) (data : Bytes) (pos : Nat) (hp : pos ≤ data.length)
    (hd : data.drop pos = List.replicate ind 9 ++ (Asc.entryLine n ty text)) :
    (Asc.readEntry ty' ⟨data, pos⟩).map (·.1) = if ty = ty' then .ok (lineOf text) else .error (.throw .parser) := by
  obtain ⟨s, hs⟩ := Asc.line_value data pos hp
  have hl : lineOf (data.drop pos) = (List.replicate ind 9 ++ n) ++ 61 :: (ty ++ 58 :: lineOf text) := by
    rw [hd]
    unfold Asc.entryLine lineOf
    rw [List.takeWhile_append_of_pos (by
      intro c hc; rw [List.eq_of_mem_replicate hc]; decide)]
    rw [List.takeWhile_append_of_pos (by
      intro c hc; simp [(noEol_iff n).1 hn c hc])]
    rw [List.takeWhile_cons_of_pos (by decide), List.takeWhile_append_of_pos (by
      intro c hc; simp [(noEol_iff ty).1 hty c hc]), List.takeWhile_cons_of_pos (by decide)]
    simp
  unfold Asc.readEntry
  rw [Rd.bind_ok hs, hl]
  have h1 : Asc.afterChar 61 ((List.replicate ind 9 ++ n) ++ 61 :: (ty ++ 58 :: lineOf text)) = ty ++ 58 :: lineOf text :=
    Asc.afterChar_app 61 _ _ (by
      intro h
      rcases List.mem_append.1 h with h | h
      · exact absurd (List.eq_of_mem_replicate h) (by decide)
      · exact hn2 h)
  have h2 : Asc.afterChar 58 (ty ++ 58 :: lineOf text) = lineOf text := Asc.afterChar_app 58 ty _ hty2
  have h3 : (ty ++ 58 :: lineOf text).takeWhile (· != 58) = ty :=
    takeWhile_append_stop _ _ _ (by intro x hx; simp only [bne_iff_ne, ne_eq]; rintro rfl; exact hty2 hx)
      (by intro x hx; simp at hx; subst hx; rfl)
  simp only [h1, h2, h3]
  by_cases h : ty = ty'
  · subst h
    simp only [bne_self_eq_false, Bool.false_eq_true, if_false, if_true]
    rfl
  · rw [if_pos (by simpa using h), if_neg h]
    rfl

/-- Any written value, read with any function: the type in the file decides. -/
theorem readEntry_call (w : Asc.Wr) (hw : w.ws.pos ≤ w.ws.data.length) (n ty text ty' post : Bytes) (hn : NoEol n)
    (hn2 : (61 : Byte) ∉ n) (hty : NoEol ty) (hty2 : (58 : Byte) ∉ ty) :
    (Asc.readEntry ty' ⟨(Asc.writeEntry n ty text w).ws.data ++ post, w.ws.pos⟩).map (·.1) =
      if ty = ty' then .ok (lineOf (text ++ [10])) else .error (.throw .parser) := by
  rw [Asc.emits_entry n ty text w hw]
  generalize hT : Asc.text [(w.indent, Asc.entryLine n ty text)] = T
  have hdrop := Ws.write_drop w.ws T post hw
  have hle := Ws.write_le w.ws T hw
  simp only [Ws.write] at hle
  have := readEntry_any w.indent.toNat n ty ty' (text ++ 10 :: (w.ws.data.drop (w.ws.pos + T.length) ++ post)) hn hn2 hty hty2
    ((w.ws.write T).data ++ post) w.ws.pos (by simp only [Ws.write, List.length_append]; omega) (by
      rw [hdrop, ← hT]
      simp [Asc.text, Asc.entryLine])
  rw [this]
  have e : ∀ r, lineOf (text ++ 10 :: r) = lineOf (text ++ [10]) := by
    intro r
    unfold lineOf
    rw [List.takeWhile_append, List.takeWhile_append]
    simp [Rd.isEol]
  rw [e]

theorem map_bind_error {α β γ} (p : Rd α) (f : α → Rd β) (g : β × Rs → γ) (s : Rs) (e : Fail)
    (h : (p s).map (·.1) = .error e) : ((p >>= f) s).map g = .error e := by
  rw [Rd.bind_def]
  cases hp : p s with
  | error e' =>
    rw [hp] at h
    cases h
    rfl
  | ok v => rw [hp] at h; cases h

/-- C17 fails: a `byte`, `word` or `mat3` entry can never be read back. -/
theorem c17_byte_word_mat3_violation (w : Asc.Wr) (hw : w.ws.pos ≤ w.ws.data.length) (n post : Bytes) (hn : NoEol n)
    (hn2 : (61 : Byte) ∉ n) (v : Val) (hv : (∃ b, v = .byte b) ∨ (∃ x, v = .word x) ∨ (∃ m, v = .mat3 m)) :
    (Asc.reader.val v.kind ⟨(Asc.call w (.val n v)).ws.data ++ post, w.ws.pos⟩).map (·.1) = .error (.throw .parser) := by
  rcases hv with ⟨b, rfl⟩ | ⟨x, rfl⟩ | ⟨m, rfl⟩
  · exact map_bind_error _ _ _ _ _ (readEntry_call w hw n b!"byte" _ b!"int" post hn hn2 (by decide) (by decide))
  · exact map_bind_error _ _ _ _ _ (readEntry_call w hw n b!"word" _ b!"int" post hn hn2 (by decide) (by decide))
  · exact map_bind_error _ _ _ _ _ (readEntry_call w hw n b!"rawFloat" _ b!"raw" post hn hn2 (by decide) (by decide))

/-- Write a value, read it back. -/
def ascEcho (v : Val) : Except Fail Val :=
  (Asc.reader.val v.kind ⟨(Asc.call ⟨⟨[], 0⟩, 0, 0, []⟩ (.val b!"x" v)).ws.data, 0⟩).map (·.1)

/-- C17 fails: 10^-7 is read back as zero, and one plus the smallest possible difference as one. -/
theorem c17_float_violation :
    ascEcho (.float 0x33D6BF95) = .ok (.float 0) ∧ ascEcho (.float 0x3F800001) = .ok (.float 0x3F800000) := by
  decide +kernel

/-- The bound 16 is close: 15.99998951 is read back as the next number, 15.99999046. -/
theorem c17_float_below_16_violation : ascEcho (.float 0x417FFFF5) = .ok (.float 0x417FFFF6) := by
  decide +kernel

/-- C17 fails: a string with a line break is cut off. -/
theorem c17_string_violation : ascEcho (.string b!"a\nb") = .ok (.string b!"a") := by decide +kernel

/-! ## C15 -/

/-- C15, part: integers above -10^9 are read back. -/
theorem c15_ascii_int_partial (v : BitVec 32) (hv : -10 ^ 9 < v.toInt) (n : Bytes) (hn : Asc.OkKey n) (w : Asc.Wr)
    (hw : w.ws.pos = w.ws.data.length) (hi : w.indent = 0) (post : Bytes) (hpost : Solid post) :
    (Asc.reader.val .int ⟨(Asc.call w (.val n (.int v))).ws.data ++ post, w.ws.pos⟩).map (·.1) = .ok (.int v) := by
  have h := (c17_ascii_round_trip_partial (.val n (.int v) .nil) w hw hi trivial ⟨⟨hn, hv⟩, trivial⟩ post hpost).2
  have e : Asc.calls w (Doc.val n (.int v) .nil).calls = Asc.call w (.val n (.int v)) := rfl
  rw [e] at h
  simp only [Doc.shape, Val.kind, readShape, Doc.tree] at h
  generalize Asc.reader.val .int ⟨(Asc.call w (.val n (.int v))).ws.data ++ post, w.ws.pos⟩ = r at h
  cases r with
  | error e => cases h
  | ok p =>
    obtain ⟨a, s⟩ := p
    simp only [Except.ok.injEq, Prod.mk.injEq, Tree.val.injEq, and_true] at h
    rw [← h.1]; rfl

example : -10 ^ 9 < (-999999999 : BitVec 32).toInt ∧ Asc.OkKey b!"voices" := by decide

theorem takeWhile_mem {α} (p : α → Bool) (l : List α) : ∀ a ∈ l.takeWhile p, p a = true := by
  induction l with
  | nil => simp
  | cons b l ih =>
    intro a ha
    by_cases hb : p b = true
    · rw [List.takeWhile_cons_of_pos hb] at ha
      rcases List.mem_cons.1 ha with rfl | ha
      · exact hb
      · exact ih a ha
    · rw [List.takeWhile_cons_of_neg hb] at ha
      simp at ha

theorem digitsVal_lt_aux (ds : Bytes) (h : ∀ c ∈ ds, isDigit c = true) (a : Nat) :
    ds.foldl (fun a c => a * 10 + (c.toNat - 48)) a < (a + 1) * 10 ^ ds.length := by
  induction ds generalizing a with
  | nil => simp
  | cons c ds ih =>
    have h1 := ih (fun c hc => h c (by simp [hc])) (a * 10 + (c.toNat - 48))
    have h2 := (isDigit_iff c).1 (h c (by simp))
    rw [List.foldl_cons, List.length_cons]
    refine Nat.lt_of_lt_of_le h1 ?_
    rw [Nat.pow_succ, Nat.mul_comm (10 ^ ds.length), ← Nat.mul_assoc]
    exact Nat.mul_le_mul_right _ (by omega)

theorem digitsVal_lt (ds : Bytes) (h : ∀ c ∈ ds, isDigit c = true) : digitsVal ds < 10 ^ ds.length := by
  have := digitsVal_lt_aux ds h 0
  simpa [digitsVal] using this

/-- A negative number needs a character for each digit and one for its sign. -/
theorem strtol_neg_bound (s r : Bytes) (i : Int) (h : strtol s = some (i, r)) (hi : i < 0) :
    i.natAbs < 10 ^ (s.length - 1) := by
  unfold strtol at h
  simp only at h
  have hlen := (List.dropWhile_suffix (p := isSpace) (l := s)).length_le
  generalize s.dropWhile isSpace = t at h hlen
  generalize hsg : signOf t = sg at h
  obtain ⟨neg, u⟩ := sg
  simp only at h
  split at h
  · cases h
  · simp only [Option.some.injEq, Prod.mk.injEq] at h
    cases neg with
    | false => simp at h; omega
    | true =>
      simp only [if_true] at h
      have hu : t.length = u.length + 1 := by
        cases t with
        | nil => simp [signOf] at hsg
        | cons c t =>
          by_cases h45 : c = 45
          · simp only [signOf, h45, if_true, Prod.mk.injEq, true_and] at hsg
            rw [hsg]; rfl
          · by_cases h43 : c = 43
            · subst h43; simp [signOf] at hsg
            · simp [signOf, h45, h43] at hsg
      rw [← h.1, Int.natAbs_neg, Int.natAbs_natCast]
      have hd := digitsVal_lt (u.takeWhile isDigit) (fun c hc => takeWhile_mem isDigit u c hc)
      have hl := (List.takeWhile_prefix (p := isDigit) (l := u)).length_le
      exact Nat.lt_of_lt_of_le hd (Nat.pow_le_pow_right (by decide) (by omega))

theorem intosv_length (size : Nat) (junk text : Bytes) : (Asc.intosv size junk text).length ≤ size := by
  unfold Asc.intosv
  split
  · assumption
  · simp

/-- C15 fails: no integer of at most -10^9 is read back, whatever `std::to_chars` leaves in a buffer that is too small,
the name of the entry, and the content of the file around it. -/
theorem c15_ascii_int_violation (v : BitVec 32) (hv : v.toInt ≤ -10 ^ 9) (n : Bytes) (hn : NoEol n) (hn2 : (61 : Byte) ∉ n)
    (w : Asc.Wr) (hw : w.ws.pos ≤ w.ws.data.length) (post : Bytes) :
    (Asc.reader.val .int ⟨(Asc.call w (.val n (.int v))).ws.data ++ post, w.ws.pos⟩).map (·.1) ≠ .ok (.int v) := by
  intro h
  have he := readEntry_call w hw n b!"int" (Asc.intosv 10 w.junk (decInt v.toInt)) b!"int" post hn hn2 (by decide) (by decide)
  rw [if_pos rfl] at he
  have hl := intosv_length 10 w.junk (decInt v.toInt)
  generalize ht : Asc.intosv 10 w.junk (decInt v.toInt) = t at he hl
  have hl2 : (lineOf (t ++ [10])).length ≤ 10 := by
    have e : lineOf (t ++ [10]) = lineOf t := by
      unfold lineOf
      rw [List.takeWhile_append]
      split
      · rename_i h
        have := (List.takeWhile_prefix (p := fun c => !Rd.isEol c) (l := t)).eq_of_length h
        rw [this, List.takeWhile_cons_of_neg (by decide)]; simp
      · rfl
    rw [e]
    exact Nat.le_trans (List.takeWhile_prefix (p := fun c => !Rd.isEol c) (l := t)).length_le hl
  have hcall : Asc.call w (.val n (.int v)) =
    Asc.writeEntry n b!"int" (Asc.intosv 10 w.junk (decInt v.toInt)) w := rfl
  generalize lineOf (t ++ [10]) = line at he hl2
  rw [hcall, ht] at h
  change ((Asc.readEntry b!"int" >>= fun x => stoi x >>= fun i => (Pure.pure (Val.int (BitVec.ofInt 32 i)) : Rd Val)) _).map
    (·.1) = _ at h
  generalize (⟨(Asc.writeEntry n b!"int" t w).ws.data ++ post, w.ws.pos⟩ : Rs) = S at he h
  cases hr : Asc.readEntry b!"int" S with
  | error e => rw [hr] at he; cases he
  | ok p =>
    obtain ⟨x, s1⟩ := p
    rw [hr] at he
    have hx : x = line := by
      have : (Except.ok x : Except Fail Bytes) = .ok line := he
      injection this
    subst hx
    rw [Rd.bind_ok hr] at h
    unfold stoi at h
    cases hs : strtol x with
    | none => simp only [hs] at h; cases h
    | some q =>
      obtain ⟨i, r⟩ := q
      simp only [hs] at h
      by_cases hb : -2 ^ 31 ≤ i ∧ i < 2 ^ 31
      · rw [if_pos hb] at h
        have hv2 : BitVec.ofInt 32 i = v := by
          have : (Except.ok (Val.int (BitVec.ofInt 32 i)) : Except Fail Val) = .ok (.int v) := h
          injection this with this
          injection this
        have hi : v.toInt = i := by
          rw [← hv2, BitVec.toInt_ofInt]
          exact Int.bmod_eq_of_le (by omega) (by omega)
        have hbd := strtol_neg_bound x r i hs (by omega)
        have : 10 ^ (x.length - 1) ≤ 10 ^ 9 := Nat.pow_le_pow_right (by decide) (by omega)
        omega
      · rw [if_neg hb] at h; cases h

/-- -10^9 is such a number. -/
example : (-1000000000 : BitVec 32).toInt ≤ -10 ^ 9 ∧ (0x80000000 : BitVec 32).toInt ≤ -10 ^ 9 := by decide

/-! ## C16 -/

/-- Raw data that is read back unchanged: a byte below 16 may only follow a byte of at least 16 when it is zero and the
last byte of at least 16 before it ends with the digit zero. -/
def Survives (v : Bytes) : Prop :=
  ∀ a x m b c, v = a ++ x :: (m ++ b :: c) → 16 ≤ x.toNat → (∀ y ∈ m, y.toNat < 16) → b.toNat < 16 →
    b.toNat = 0 ∧ x.toNat % 16 = 0

/-- What a reader gets: behind a byte of at least 16 with the low digit `z`, a byte `b` below 16 becomes `16 * b + z`. -/
def Damaged (v v' : Bytes) : Prop :=
  v'.length = v.length ∧
    (∀ a b c, v = a ++ b :: c → 16 ≤ b.toNat → v'[a.length]? = some b) ∧
    (∀ a b c, v = a ++ b :: c → (∀ y ∈ a, y.toNat < 16) → b.toNat < 16 → v'[a.length]? = some b) ∧
    (∀ a x m b c, v = a ++ x :: (m ++ b :: c) → 16 ≤ x.toNat → (∀ y ∈ m, y.toNat < 16) → b.toNat < 16 →
      v'[(a ++ x :: m).length]? = some (UInt8.ofNat (16 * b.toNat + x.toNat % 16)))

theorem stale_length (z : Option Nat) (v : Bytes) : (Asc.stale z v).length = v.length := by
  induction v generalizing z with
  | nil => rfl
  | cons b v ih => simp only [Asc.stale]; split <;> simp [ih]

/-- The state behind a prefix. -/
def staleAfter : Option Nat → Bytes → Option Nat
  | z, [] => z
  | z, b :: v => if b.toNat < 16 then staleAfter z v else staleAfter (some (b.toNat % 16)) v

theorem stale_append (z : Option Nat) (a b : Bytes) :
    Asc.stale z (a ++ b) = Asc.stale z a ++ Asc.stale (staleAfter z a) b := by
  induction a generalizing z with
  | nil => rfl
  | cons x a ih =>
    simp only [List.cons_append, Asc.stale, staleAfter]
    split <;> simp [ih]

theorem staleAfter_append (z : Option Nat) (a b : Bytes) : staleAfter z (a ++ b) = staleAfter (staleAfter z a) b := by
  induction a generalizing z with
  | nil => rfl
  | cons x a ih =>
    simp only [List.cons_append, staleAfter]
    split <;> exact ih _

theorem staleAfter_low (z : Option Nat) (m : Bytes) (h : ∀ y ∈ m, y.toNat < 16) : staleAfter z m = z := by
  induction m with
  | nil => rfl
  | cons y m ih => simp only [staleAfter, h y (by simp), if_true]; exact ih (fun y hy => h y (by simp [hy]))

theorem stale_at (z : Option Nat) (a : Bytes) (b : Byte) (c : Bytes) :
    (Asc.stale z (a ++ b :: c))[a.length]? =
      some (if b.toNat < 16 then (match staleAfter z a with | none => b | some z => UInt8.ofNat (b.toNat * 16 + z)) else b) := by
  rw [stale_append, List.getElem?_append_right (by rw [stale_length]), stale_length, Nat.sub_self]
  simp only [Asc.stale]
  split <;> rfl

theorem stale_damaged (v : Bytes) : Damaged v (Asc.stale none v) := by
  refine ⟨stale_length _ _, ?_, ?_, ?_⟩
  · rintro a b c rfl hb
    rw [stale_at, if_neg (by omega)]
  · rintro a b c rfl ha hb
    rw [stale_at, if_pos hb, staleAfter_low none a ha]
  · rintro a x m b c rfl hx hm hb
    have e : a ++ x :: (m ++ b :: c) = (a ++ x :: m) ++ b :: c := by simp
    rw [e, stale_at, if_pos hb, staleAfter_append]
    have : ¬ x.toNat < 16 := by omega
    simp only [staleAfter, this, if_false, staleAfter_low _ m hm, Nat.mul_comm]

theorem survives_iff (v : Bytes) : Asc.stale none v = v ↔ Survives v := by
  constructor
  · rintro h a x m b c hv hx hm hb
    have h1 := (stale_damaged v).2.2.2 a x m b c hv hx hm hb
    rw [h, hv] at h1
    have e : a ++ x :: (m ++ b :: c) = (a ++ x :: m) ++ b :: c := by simp
    rw [e, List.getElem?_append_right (Nat.le_refl _), Nat.sub_self] at h1
    simp only [List.getElem?_cons_zero, Option.some.injEq] at h1
    have h2 := congrArg UInt8.toNat h1
    rw [UInt8.toNat_ofNat', Nat.mod_eq_of_lt (by omega)] at h2
    omega
  · intro h
    apply List.ext_getElem? 
    intro i
    by_cases hi : i < v.length
    · obtain ⟨a, b, c, hv, hl⟩ : ∃ a b c, v = a ++ b :: c ∧ a.length = i :=
        ⟨v.take i, v[i], v.drop (i + 1), by simp, by simp; omega⟩
      have e : v[i]? = some b := by rw [hv, ← hl]; simp
      rw [e]
      by_cases hb : b.toNat < 16
      · by_cases ha : ∀ y ∈ a, y.toNat < 16
        · rw [← hl]; exact (stale_damaged v).2.2.1 a b c hv ha hb
        · obtain ⟨p, x, m, hp, hx, hm⟩ : ∃ p x m, a = p ++ x :: m ∧ 16 ≤ x.toNat ∧ ∀ y ∈ m, y.toNat < 16 := by
            clear hv hl e
            induction a with
            | nil => exact absurd (by simp) ha
            | cons y a ih =>
              by_cases hy : ∀ y ∈ a, y.toNat < 16
              · refine ⟨[], y, a, rfl, ?_, hy⟩
                apply Nat.le_of_not_lt
                intro hlt
                apply ha
                intro z hz
                rcases List.mem_cons.1 hz with rfl | hz
                · exact hlt
                · exact hy z hz
              · obtain ⟨p, x, m, rfl, h1, h2⟩ := ih hy
                exact ⟨y :: p, x, m, rfl, h1, h2⟩
          have hv2 : v = p ++ x :: (m ++ b :: c) := by rw [hv, hp]; simp
          have h1 := (stale_damaged v).2.2.2 p x m b c hv2 hx hm hb
          obtain ⟨h2, h3⟩ := h p x m b c hv2 hx hm hb
          rw [h2, h3] at h1
          rw [← hl, hp, h1]
          congr 1
          rw [← UInt8.toNat_inj]
          simp [h2]
      · rw [← hl]; exact (stale_damaged v).2.1 a b c hv (by omega)
    · rw [List.getElem?_eq_none (by rw [stale_length]; omega), List.getElem?_eq_none (by omega)]

/-- What `read_raw` gives for data written by `write_raw`. -/
theorem raw_echo (v : Bytes) (hv : v.length < 65536) (n : Bytes) (hn : Asc.OkKey n) (w : Asc.Wr)
    (hw : w.ws.pos ≤ w.ws.data.length) (post : Bytes) :
    (Asc.reader.val (.raw v.length) ⟨(Asc.call w (.val n (.raw v))).ws.data ++ post, w.ws.pos⟩).map (·.1) =
      .ok (.raw (Asc.stale none v)) := by
  obtain ⟨u1, u2, u3⟩ := Asc.unhex_hexText v 0 none rfl
  have ht : v.take (v.length % 65536) = v := by
    rw [Nat.mod_eq_of_lt hv, List.take_length]
  have he := readEntry_call w hw n b!"raw" (Asc.hexText 0 v) b!"raw" post hn.2.1 hn.2.2.1 (by decide) (by decide)
  rw [if_pos rfl] at he
  have hc : Asc.call w (.val n (.raw v)) = Asc.writeEntry n b!"raw" (Asc.hexText 0 v) w := by
    show Asc.writeEntry n b!"raw" (Asc.hexText 0 (v.take (v.length % 65536))) w = _
    rw [ht]
  rw [hc]
  rw [lineOf_noEol _ [] u3 10 rfl] at he
  show ((Asc.readEntry b!"raw" >>= fun t : Bytes => if t.length / 2 < v.length then Rd.fail (.throw .parser)
    else (Pure.pure (Val.raw (Asc.unhex t)) : Rd Val)) _).map (·.1) = _
  generalize (⟨(Asc.writeEntry n b!"raw" (Asc.hexText 0 v) w).ws.data ++ post, w.ws.pos⟩ : Rs) = S at he ⊢
  cases hr : Asc.readEntry b!"raw" S with
  | error e => rw [hr] at he; cases he
  | ok p =>
    obtain ⟨x, s1⟩ := p
    rw [hr] at he
    have hx : x = Asc.hexText 0 v := by
      have : (Except.ok x : Except Fail Bytes) = .ok _ := he
      injection this
    subst hx
    rw [Rd.bind_ok hr, if_neg (by omega), u1]
    rfl

/-- C16: what is read back instead of the data, for all data of less than 64 KiB. -/
theorem c16_ascii_raw_damage (v : Bytes) (hv : v.length < 65536) (n : Bytes) (hn : Asc.OkKey n) (w : Asc.Wr)
    (hw : w.ws.pos ≤ w.ws.data.length) (post : Bytes) :
    ∃ v', (Asc.reader.val (.raw v.length) ⟨(Asc.call w (.val n (.raw v))).ws.data ++ post, w.ws.pos⟩).map (·.1) = .ok (.raw v') ∧
      Damaged v v' :=
  ⟨_, raw_echo v hv n hn w hw post, stale_damaged v⟩

/-- C16, part: data is read back unchanged exactly when no byte below 16 follows a byte of at least 16, apart from zeros
behind a byte with the low digit zero. Missing: all other data, which is damaged. -/
theorem c16_ascii_raw_partial (v : Bytes) (hv : v.length < 65536) (n : Bytes) (hn : Asc.OkKey n) (w : Asc.Wr)
    (hw : w.ws.pos ≤ w.ws.data.length) (post : Bytes) :
    (Asc.reader.val (.raw v.length) ⟨(Asc.call w (.val n (.raw v))).ws.data ++ post, w.ws.pos⟩).map (·.1) = .ok (.raw v) ↔
      Survives v := by
  rw [raw_echo v hv n hn w hw post, ← survives_iff]
  simp

/-- C16 fails: the bytes 1F 05 are read back as 1F 5F. -/
theorem c16_ascii_raw_violation : ascEcho (.raw [0x1F, 0x05]) = .ok (.raw [0x1F, 0x5F]) := by decide +kernel

/-- C16 fails: of data with 65536 bytes nothing is written, and reading it throws. -/
theorem c16_ascii_raw_long_violation (v : Bytes) (hv : v.length = 65536) (n : Bytes) (hn : Asc.OkKey n) (w : Asc.Wr)
    (hw : w.ws.pos ≤ w.ws.data.length) (post : Bytes) :
    (Asc.reader.val (.raw v.length) ⟨(Asc.call w (.val n (.raw v))).ws.data ++ post, w.ws.pos⟩).map (·.1) =
      .error (.throw .parser) := by
  have he := readEntry_call w hw n b!"raw" [] b!"raw" post hn.2.1 hn.2.2.1 (by decide) (by decide)
  rw [if_pos rfl] at he
  have hc : Asc.call w (.val n (.raw v)) = Asc.writeEntry n b!"raw" [] w := by
    show Asc.writeEntry n b!"raw" (Asc.hexText 0 (v.take (v.length % 65536))) w = _
    rw [hv]; rfl
  rw [hc]
  show ((Asc.readEntry b!"raw" >>= fun t : Bytes => if t.length / 2 < v.length then Rd.fail (.throw .parser)
    else (Pure.pure (Val.raw (Asc.unhex t)) : Rd Val)) _).map (·.1) = _
  generalize (⟨(Asc.writeEntry n b!"raw" [] w).ws.data ++ post, w.ws.pos⟩ : Rs) = S at he ⊢
  cases hr : Asc.readEntry b!"raw" S with
  | error e => rw [hr] at he; cases he
  | ok p =>
    obtain ⟨x, s1⟩ := p
    rw [hr] at he
    have hx : x = [] := by
      have : (Except.ok x : Except Fail Bytes) = .ok _ := he
      injection this
    subst hx
    rw [Rd.bind_ok hr, if_pos (by simp; omega)]
    rfl

example : Survives [0, 5, 15] ∧ Asc.stale none [3, 0x30, 0, 0xFF] = [3, 0x30, 0, 0xFF] := by
  refine ⟨(survives_iff _).1 (by decide), by decide⟩

/-! ## C60 -/

/-- C60: an object can be skipped in front of it with `skip_object(false)`, and after `read_object_begin`, wherever
its first entries `done` have been read, with `skip_object(true)`. Either way the reader goes on with what follows the
object. `rest` is what follows in the archive, `post` in the file. -/
theorem c60_ascii_skip (n c : Bytes) (ver : BitVec 16) (ix : BitVec 32) (done ch rest : Doc) (w : Asc.Wr)
    (hw : w.ws.pos = w.ws.data.length) (hi : w.indent = 0) (d : Doc) (hd : d = .obj n c ver ix (done.app ch) rest)
    (hnum : d.Numbered w.index) (hok : Asc.SkipDoc d) (post : Bytes) (hpost : Solid post) (s0 : Rs)
    (hs0 : s0 = ⟨(Asc.calls w d.calls).ws.data ++ post, w.ws.pos⟩) :
    (∃ s1, Asc.reader.skipObj false s0 = .ok ((), s1) ∧
      (readShape Asc.reader rest.shape s1).map (·.1) = .ok rest.tree) ∧
    ∃ s1 s2 s3, Asc.reader.objBegin s0 = .ok (some ⟨n, c, ver, ix⟩, s1) ∧
      readShape Asc.reader done.shape s1 = .ok (done.tree, s2) ∧ Asc.reader.skipObj true s2 = .ok ((), s3) ∧
      (readShape Asc.reader rest.shape s3).map (·.1) = .ok rest.tree := by
  obtain ⟨_, _, _, h⟩ := asc_start d w hw hi hnum hok.1 post hpost
  rw [← hs0] at h
  generalize (Asc.calls w d.calls).ws.data ++ post = data at h
  subst hd
  obtain ⟨⟨hok1, hok2, hok3⟩, hsk1, hsk2, hsk3⟩ := hok
  have hch : ∀ a b : Doc, Asc.SkipDoc (a.app b) → Asc.SkipDoc b := by
    intro a b hab
    induction a with
    | nil => exact hab
    | val _ _ _ ih => exact ih ⟨hab.1.2, hab.2.2⟩
    | obj _ _ _ _ _ _ _ ih => exact ih ⟨hab.1.2.2, hab.2.2.2⟩
    | ref _ _ _ ih => exact ih ⟨hab.1.2, hab.2.2⟩
  have S := Asc.sim w.junk data post hpost
  constructor
  · obtain ⟨s', e1, h1⟩ := Asc.skip_whole w.junk data post hpost n c ver ix (done.app ch) rest [] ⟨hok2, hsk2⟩ s0 h
    obtain ⟨s'', e2, _⟩ := (Asc.sim w.junk data post hpost).readShape rest [] s' h1
    exact ⟨s', e1, by rw [e2]; rfl⟩
  · obtain ⟨s1, e1, h1⟩ := (Asc.sim w.junk data post hpost).obj _ _ _ _ _ _ _ _ h
    obtain ⟨s2, e2, h2⟩ := (Asc.sim w.junk data post hpost).readShape_app done ch [rest] s1 h1
    obtain ⟨s3, e3, h3⟩ := Asc.skip_rest w.junk data post hpost ch rest [] (hch done ch ⟨hok2, hsk2⟩) s2 h2
    obtain ⟨s4, e4, _⟩ := (Asc.sim w.junk data post hpost).readShape rest [] s3 h3
    exact ⟨s1, s2, s3, e1, e2, e3, by rw [e4]; rfl⟩

example : Asc.SkipDoc demoDocAsc := by decide +kernel

/-- Opening an object, reading one entry and skipping the rest. -/
example : (do
    let w := Asc.calls ⟨⟨[], 0⟩, 0, 0, []⟩ demoDocAsc.calls
    let (_, s) ← Asc.reader.objBegin ⟨w.ws.data, 0⟩
    let (_, s) ← Asc.reader.val .string s
    let (_, s) ← Asc.reader.skipObj true s
    return decide (s.pos = w.ws.pos)) = .ok true := by decide +kernel

/-- C60 fails: inside of an object, at the end of the file, skipping never ends, however many rounds it is given. -/
theorem c60_ascii_skip_hang_violation (data : Bytes) (level : Int) (hl : 0 < level) (rounds : Nat) :
    Asc.skipLoop rounds level ⟨data, data.length⟩ = .error .hang := by
  have heof : Rd.eof ⟨data, data.length⟩ = .ok (true, ⟨data, data.length⟩) := by
    simp [Rd.eof]
  have hb : Asc.readObjBegin ⟨data, data.length⟩ = .ok (none, ⟨data, data.length⟩) := by
    unfold Asc.readObjBegin
    rw [Rd.bind_ok heof]
    rfl
  have he : Asc.readObjEnd ⟨data, data.length⟩ = .ok (false, ⟨data, data.length⟩) := by
    unfold Asc.readObjEnd
    rw [Rd.bind_ok heof]
    rfl
  have hline : Rd.line true ⟨data, data.length⟩ = .ok ([], ⟨data, data.length⟩) := by
    unfold Rd.line Rd.lineThenIgnore
    simp only [if_true]
    rw [Rd.bind_ok (lineLoop_eq data _ data.length [] (by omega))]
    simp only [List.drop_length, lineOf, List.takeWhile_nil, List.length_nil, Nat.add_zero, Nat.lt_irrefl, if_false,
      Nat.max_self, List.append_nil, List.headD_nil]
    rw [Rd.bind_ok heof]
    rfl
  have hstep : Asc.skipStep ⟨data, data.length⟩ = .ok (0, ⟨data, data.length⟩) := by
    unfold Asc.skipStep
    rw [Rd.bind_ok hb]
    simp only
    rw [Rd.bind_ok he]
    simp only [Bool.false_eq_true, if_false]
    rw [Rd.bind_ok hline]
    rfl
  induction rounds with
  | zero => rfl
  | succ k ih =>
    rw [Asc.skipLoop, Rd.bind_ok hstep]
    simp only [Int.add_zero]
    rw [if_pos hl]
    exact ih

/-- Skipping an object whose end is missing in the file does not return. -/
theorem c60_ascii_truncated_violation :
    Asc.reader.skipObj false ⟨b!"[a b 0 0]\nx=int:1\n", 0⟩ = .error .hang := by decide +kernel

/-! ## C59 for ASCII archives -/

/-- The three steps of writing an ASCII archive. -/
def ascFile (w : Ws) (save save' : Bool) (e e' : Env) (junk : Bytes) (cs : List Call) : Ws × Asc.Wr × Ws :=
  let w1 := Asc.writeHeader w.pos save e 0 w
  let w2 := Asc.calls ⟨w1, 0, 0, junk⟩ cs
  (w1, w2, Asc.writeHeader w.pos save' e' w2.index w2.ws)

/-- C59, part: a document is found again when the finished ASCII archive is opened and read. Missing: archives whose date
and user do not have the same length when the archive is opened and when it is finished, and documents that are
excluded by C17. -/
theorem c59_ascii_file_partial (w : Ws) (hw : w.pos = w.data.length) (save save' : Bool) (e e' : Env) (junk : Bytes) (d : Doc)
    (hn : d.Numbered 0) (hok : Asc.OkDoc d)
    (hde : e.date.length + e.user.length = e'.date.length + e'.user.length) (hd : NoEol e'.date) (hu : NoEol e'.user)
    (hidx : (d.next 0).toNat < 2 ^ 31) (w1 : Ws) (w2 : Asc.Wr) (w3 : Ws)
    (hf : ascFile w save save' e e' junk d.calls = (w1, w2, w3)) :
    ∃ o s, openArchive ⟨w3.data, w.pos⟩ = .ok (o, s) ∧
      o = ⟨⟨1, b!"zCArchiverGeneric", .ascii, save', e'.date, e'.user⟩, (d.next 0).toNat, []⟩ ∧
      readShape Asc.reader d.shape s = .ok (d.tree, ⟨w3.data, w2.ws.pos⟩) := by
  have h1 := emits_countHeader .ascii 10 11 save e 0 w (by omega)
  have hw1 := Ws.write_le w (linesBytes .ascii save e ++ countBytes 10 11 0) (by omega)
  have hwr := Asc.write_doc d ⟨w.write (linesBytes .ascii save e ++ countBytes 10 11 0), 0, 0, junk⟩ hw1 hn []
  rw [List.append_nil] at hwr
  unfold ascFile at hf
  simp only [Asc.writeHeader, h1, hwr] at hf
  simp only [Asc.calls, List.foldl_nil, Prod.mk.injEq] at hf
  obtain ⟨_, hf2, hf3⟩ := hf
  rw [Ws.write_write _ _ _ (by omega)] at hf2 hf3
  rw [rewrite_countHeader _ _ _ _ _ _ _ _ _ (by decide) w (by omega) hde] at hf3
  have hl : (linesBytes .ascii save' e' ++ countBytes 10 11 (d.next 0)).length =
      (linesBytes .ascii save e ++ countBytes 10 11 0).length := by
    have c1 := countField_length 10 11 (by decide) 0
    have c2 := countField_length 10 11 (by decide) (d.next 0)
    simp only [linesBytes, countBytes, List.length_append, c1, c2]
    cases save <;> cases save' <;> simp <;> omega
  have hop := open_count .ascii (by decide) 10 11 save' e' (d.next 0) (dec_length_le _ 10 (by decide) (by omega)) hidx hd hu
  generalize linesBytes .ascii save e ++ countBytes 10 11 0 = H at *
  generalize linesBytes .ascii save' e' ++ countBytes 10 11 (d.next 0) = H' at *
  generalize hT : Asc.text (Asc.lines junk 0 d) = T at *
  have hdata : w3.data = w.data ++ (H' ++ T) := by
    rw [← hf3, Ws.write, splice_le _ _ _ (by omega), hw, List.take_length, List.drop_of_length_le (by omega)]
    simp
  have hpos2 : w2.ws.pos = w3.data.length := by
    rw [← hf2, hdata]
    simp only [Ws.write, List.length_append, hl, hw]
  obtain ⟨ws, b', e1, e2, e3⟩ := Asc.body_text [] (Asc.lines junk 0 d) 0 T (Asc.lines_head _ _ _) (by rw [hT]; simp)
  have hws : ws = [] := by rw [e2]; split <;> rfl
  rw [hws, List.nil_append] at e1
  have hsolid : Solid T := by
    rw [e1]
    refine Asc.body_solid [] ⟨by simp, by simp⟩ _ ?_ b' e3
    intro l hl
    obtain ⟨p, hp, rfl⟩ := List.mem_map.1 hl
    exact Asc.lines_ok junk 0 d hok p hp
  have ho := hop.atPos w3.data w.pos T (by rw [hdata]; simp; omega) (by rw [hdata, hw, List.drop_left]) hsolid
  refine ⟨_, _, ho.1, rfl, ?_⟩
  obtain ⟨⟨sd, sp⟩, e4, r1, _, r3, r4⟩ := (Asc.sim junk w3.data [] ⟨by simp, by simp⟩).readShape d []
    ⟨w3.data, w.pos + H'.length⟩ (by
    refine ⟨rfl, by simpa using hok, ho.2.1, ?_⟩
    show Asc.Body [] ((Asc.lines junk 0 d).map (·.2)) (List.drop _ _)
    rw [ho.2.2, e1]
    exact e3)
  rw [e4]
  simp only at r1 r3 r4
  subst r1
  have hb : List.drop sp w3.data = [] := r4
  have hsp : sp = w2.ws.pos := by
    have := congrArg List.length hb
    simp at this
    omega
  rw [hsp]

/-- Opening the archive and reading the document gives `true`. -/
def ascReadsBack (e e' : Env) (d : Doc) : Bool :=
  match openArchive ⟨(ascFile ⟨[], 0⟩ false false e e' [] d.calls).2.2.data, 0⟩ with
  | .error _ => false
  | .ok (_, s) => (readShape Asc.reader d.shape s).map (·.1) == .ok d.tree

example : ascReadsBack env1 env1 demoDocAsc = true := by decide +kernel

/-- C59 fails: when the date grows by a digit between opening and finishing the archive, the final header overwrites
the beginning of the content. -/
theorem c59_ascii_longer_date_violation :
    ascReadsBack ⟨b!"9.1.2026 23:59:59", b!"Diego"⟩ ⟨b!"10.1.2026 00:00:00", b!"Diego"⟩ demoDocAsc = false := by
  decide +kernel

end Verif.Props
