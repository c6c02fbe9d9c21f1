import Verif.Lemmas.Stream

/-! # Lemmas about reading lines -/

namespace Verif

theorem Rd.char_at (data : Bytes) (pos : Nat) (h : pos < data.length) :
    Rd.char ⟨data, pos⟩ = .ok (data[pos], ⟨data, pos + 1⟩) := by
  have := Reads.char data[pos] (data.take pos) (data.drop (pos + 1))
  have e : data.take pos ++ [data[pos]] ++ data.drop (pos + 1) = data := by
    simp
  rw [e] at this
  have hl : (data.take pos).length = pos := by simp; omega
  rw [hl] at this
  simpa using this

theorem Rd.char_eof (data : Bytes) (pos : Nat) (h : data.length ≤ pos) :
    Rd.char ⟨data, pos⟩ = .ok (0, ⟨data, pos⟩) := by
  simp only [Rd.char, Rd.bind_def, Rd.readPadded, Rd.read]
  rw [if_pos (by omega)]
  have : data.length - pos = 0 := by omega
  simp [this]

/-- Bytes of a line: everything up to the first NUL, CR or LF. -/
def lineOf (bs : Bytes) : Bytes := bs.takeWhile (fun c => !Rd.isEol c)

/-- No NUL, CR or LF. -/
def NoEol (bs : Bytes) : Prop := ∀ c ∈ bs, c ≠ 0 ∧ c ≠ 13 ∧ c ≠ 10

instance (bs : Bytes) : Decidable (NoEol bs) := inferInstanceAs (Decidable (∀ c ∈ bs, _))

theorem isEol_iff (c : Byte) : Rd.isEol c = true ↔ c = 0 ∨ c = 13 ∨ c = 10 := by
  simp [Rd.isEol, or_assoc]

theorem noEol_iff (bs : Bytes) : NoEol bs ↔ ∀ c ∈ bs, Rd.isEol c = false := by
  constructor
  · intro h c hc
    have := h c hc
    rw [← Bool.not_eq_true, isEol_iff]
    simp [this]
  · intro h c hc
    have := h c hc
    rw [← Bool.not_eq_true, isEol_iff] at this
    simpa [not_or] using this

theorem lineOf_noEol (v rest : Bytes) (h : NoEol v) (e : Byte) (he : Rd.isEol e = true) :
    lineOf (v ++ e :: rest) = v := by
  unfold lineOf
  rw [List.takeWhile_append_of_pos]
  · simp [he]
  · intro c hc; simp [(noEol_iff v).1 h c hc]

theorem lineLoop_eq (data : Bytes) (fuel pos : Nat) (acc : Bytes) (hf : data.length - pos < fuel) :
    Rd.lineLoop fuel acc ⟨data, pos⟩ =
      .ok ((acc ++ lineOf (data.drop pos), (data.drop (pos + (lineOf (data.drop pos)).length)).headD 0),
        ⟨data, if pos + (lineOf (data.drop pos)).length < data.length
          then pos + (lineOf (data.drop pos)).length + 1 else max pos data.length⟩) := by
  induction fuel generalizing pos acc with
  | zero => omega
  | succ fuel ih =>
    simp only [Rd.lineLoop]
    by_cases h : pos < data.length
    · rw [Rd.bind_ok (Rd.char_at data pos h)]
      have hd : data.drop pos = data[pos] :: data.drop (pos + 1) := List.drop_eq_getElem_cons h
      by_cases he : Rd.isEol data[pos] = true
      · have hl : lineOf (data.drop pos) = [] := by
          unfold lineOf
          rw [hd, List.takeWhile_cons_of_neg (by simp [he])]
        simp only [he, if_true, hl, List.length_nil, Nat.add_zero, h, if_true, List.append_nil, Rd.pure_def]
        rw [hd]; rfl
      · have hl : lineOf (data.drop pos) = data[pos] :: lineOf (data.drop (pos + 1)) := by
          unfold lineOf
          rw [hd, List.takeWhile_cons_of_pos (by simp [he])]
        simp only [he]
        rw [if_neg (by simp), ih (pos + 1) _ (by omega)]
        rw [hl]
        simp only [List.append_assoc, List.singleton_append, List.length_cons]
        have e1 : pos + 1 + (lineOf (data.drop (pos + 1))).length = pos + ((lineOf (data.drop (pos + 1))).length + 1) := by omega
        rw [e1]
        congr 3
        split <;> omega
    · rw [Rd.bind_ok (Rd.char_eof data pos (by omega))]
      have hd : data.drop pos = [] := List.drop_of_length_le (by omega)
      have h0 : Rd.isEol 0 = true := rfl
      simp only [h0, if_true, hd]
      simp only [lineOf, List.takeWhile_nil, List.length_nil, List.append_nil, Nat.add_zero, hd, List.headD_nil, h,
        if_false, Rd.pure_def]
      rw [Nat.max_eq_left (by omega)]

/-- Closed form of `read_line(false)`. -/
theorem line_false_eq (data : Bytes) (pos : Nat) (hp : pos ≤ data.length) :
    Rd.line false ⟨data, pos⟩ = .ok (lineOf (data.drop pos),
      ⟨data, if pos + (lineOf (data.drop pos)).length < data.length
          then pos + (lineOf (data.drop pos)).length + 1 else data.length⟩) := by
  unfold Rd.line Rd.lineThenIgnore
  simp only
  rw [Rd.bind_ok (lineLoop_eq data _ pos [] (by omega))]
  simp only [List.nil_append]
  rw [Rd.bind_def]
  simp only [Rd.eof]
  simp only [Bool.false_eq_true, if_false, List.isEmpty_nil, Bool.true_or, if_true, Rd.pure_def]
  rw [Nat.max_eq_right hp]

theorem Reads.line (v : Bytes) (h : NoEol v) (e : Byte) (he : Rd.isEol e = true) :
    Reads (Rd.line false) (v ++ [e]) v := by
  intro pre post
  rw [line_false_eq _ _ (by simp)]
  have hd : List.drop pre.length (pre ++ (v ++ [e]) ++ post) = v ++ e :: post := by simp
  rw [hd, lineOf_noEol v post h e he, if_pos (by simp)]
  simp [Nat.add_assoc]

theorem Reads.line0 (v : Bytes) (h : NoEol v) : Reads (Rd.line false) (v ++ [0]) v := Reads.line v h 0 rfl
theorem Reads.lineLf (v : Bytes) (h : NoEol v) : Reads (Rd.line false) (v ++ [10]) v := Reads.line v h 10 rfl

/-- The run of ignored characters at the start of `bs`. -/
def ignoredOf (chars bs : Bytes) : Bytes := bs.takeWhile (fun c => c != 0 && chars.contains c)

theorem ignoreLoop_eq (chars : Bytes) (data : Bytes) (fuel pos : Nat) (hp : pos ≤ data.length)
    (hf : data.length - pos < fuel) :
    Rd.ignoreLoop chars fuel ⟨data, pos⟩ =
      .ok ((data.drop (pos + (ignoredOf chars (data.drop pos)).length)).headD 0,
        ⟨data, if pos + (ignoredOf chars (data.drop pos)).length < data.length
          then pos + (ignoredOf chars (data.drop pos)).length + 1 else data.length⟩) := by
  induction fuel generalizing pos with
  | zero => omega
  | succ fuel ih =>
    simp only [Rd.ignoreLoop]
    by_cases h : pos < data.length
    · rw [Rd.bind_ok (Rd.char_at data pos h)]
      have hd : data.drop pos = data[pos] :: data.drop (pos + 1) := List.drop_eq_getElem_cons h
      by_cases he : (data[pos] != 0 && chars.contains data[pos]) = true
      · have ht : ignoredOf chars (data.drop pos) = data[pos] :: ignoredOf chars (data.drop (pos + 1)) := by
          unfold ignoredOf
          rw [hd, List.takeWhile_cons_of_pos (p := fun c => c != 0 && chars.contains c) he]
        rw [if_pos he, ih (pos + 1) (by omega) (by omega), ht]
        simp only [List.length_cons]
        have e1 : ∀ k, pos + 1 + k = pos + (k + 1) := by omega
        simp only [e1]
      · have ht : ignoredOf chars (data.drop pos) = [] := by
          unfold ignoredOf
          rw [hd, List.takeWhile_cons_of_neg (p := fun c => c != 0 && chars.contains c) he]
        rw [if_neg he, ht]
        simp only [List.length_nil, Nat.add_zero, h, if_true, Rd.pure_def]
        rw [hd]; rfl
    · rw [Rd.bind_ok (Rd.char_eof data pos (by omega))]
      have e0 : pos = data.length := by omega
      subst e0
      simp [ignoredOf]

/-- Closed form of `read_line_then_ignore` when the line ends in CR or LF, for streams that do not end in a
single NUL right behind the ignored run. -/
theorem lineThenIgnore_eq (chars : Bytes) (hc : chars ≠ []) (pre v ws post : Bytes) (e : Byte) (hv : NoEol v)
    (he : e = 13 ∨ e = 10) (hws : ∀ c ∈ ws, c ≠ 0 ∧ c ∈ chars)
    (hpost : ∀ c rest, post = c :: rest → c = 0 ∨ c ∉ chars) (hnul : post ≠ [0]) :
    Rd.lineThenIgnore chars ⟨pre ++ (v ++ e :: ws) ++ post, pre.length⟩ =
      .ok (v, ⟨pre ++ (v ++ e :: ws) ++ post, pre.length + (v ++ e :: ws).length⟩) := by
  have he' : Rd.isEol e = true := by rcases he with rfl | rfl <;> rfl
  have he0 : e ≠ 0 := by rcases he with rfl | rfl <;> decide
  generalize hdata : pre ++ (v ++ e :: ws) ++ post = data
  have hlen : data.length = pre.length + v.length + 1 + ws.length + post.length := by
    rw [← hdata]; simp; omega
  have hd : data.drop pre.length = v ++ e :: (ws ++ post) := by rw [← hdata]; simp
  have hd2 : data.drop (pre.length + v.length) = e :: (ws ++ post) := by
    rw [← List.drop_drop, hd]; simp
  have hd3 : data.drop (pre.length + v.length + 1) = ws ++ post := by
    rw [← List.drop_drop, hd2]; simp
  have hd4 : data.drop (pre.length + v.length + 1 + ws.length) = post := by
    rw [← List.drop_drop, hd3]; simp
  unfold Rd.lineThenIgnore
  simp only
  rw [Rd.bind_ok (lineLoop_eq data _ pre.length [] (by omega))]
  simp only [List.nil_append, hd, lineOf_noEol v _ hv e he', hd2, List.headD_cons]
  rw [if_pos (by omega), Rd.bind_def]
  simp only [Rd.eof]
  have hce : chars.isEmpty = false := by cases chars <;> simp_all
  have hig : ignoredOf chars (ws ++ post) = ws := by
    unfold ignoredOf
    rw [List.takeWhile_append_of_pos (by intro c hcw; have := hws c hcw; simp [this])]
    cases post with
    | nil => simp
    | cons c rest =>
      rw [List.takeWhile_cons_of_neg]
      · simp
      · rcases hpost c rest rfl with h | h <;> simp [h]
  by_cases heof : pre.length + v.length + 1 ≥ data.length
  · have hw0 : ws = [] := by apply List.length_eq_zero_iff.1; omega
    simp only [heof, decide_true, Bool.or_true, if_true, Rd.pure_def]
    subst hw0; simp; omega
  · have hed : (e == 0) = false := by simpa using he0
    simp only [heof, decide_false, hce, hed, Bool.or_false, Bool.false_eq_true, if_false]
    rw [Rd.bind_ok (ignoreLoop_eq chars data _ _ (by omega) (by omega)), hd3, hig, hd4]
    cases post with
    | nil =>
      simp only [List.length_nil] at hlen
      have hpos : (if pre.length + v.length + 1 + ws.length < data.length
        then pre.length + v.length + 1 + ws.length + 1 else data.length) = data.length := if_neg (by omega)
      rw [hpos]
      have he1 : Rd.eof ⟨data, data.length⟩ = .ok (true, ⟨data, data.length⟩) := by simp [Rd.eof]
      rw [Rd.bind_ok he1]
      simp
      omega
    | cons c rest =>
      simp only [List.length_cons] at hlen
      have hpos : (if pre.length + v.length + 1 + ws.length < data.length
        then pre.length + v.length + 1 + ws.length + 1 else data.length)
          = pre.length + v.length + 1 + ws.length + 1 := if_pos (by omega)
      rw [hpos]
      have hnot : (decide (pre.length + v.length + 1 + ws.length + 1 ≥ data.length) && (c == 0)) = false := by
        by_cases hcz : c = 0
        · have : rest ≠ [] := by intro hr; subst hr; subst hcz; exact hnul rfl
          have : 0 < rest.length := List.length_pos_iff.2 this
          simp; intro; omega
        · simp [hcz]
      have he1 : Rd.eof ⟨data, pre.length + v.length + 1 + ws.length + 1⟩ =
        .ok (decide (pre.length + v.length + 1 + ws.length + 1 ≥ data.length),
          ⟨data, pre.length + v.length + 1 + ws.length + 1⟩) := rfl
      rw [Rd.bind_ok he1]
      simp only [List.headD_cons, hnot, Bool.false_eq_true, if_false]
      have hs : Rd.seek (-1) .cur ⟨data, pre.length + v.length + 1 + ws.length + 1⟩ =
          .ok ((), ⟨data, pre.length + (v ++ e :: ws).length⟩) :=
        Rd.seek_ok (by simp [Rd.seekTarget]; omega) (by simp; omega)
      rw [Rd.bind_ok hs]
      rfl

end Verif
