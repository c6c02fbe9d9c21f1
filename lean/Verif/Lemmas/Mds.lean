import Verif.Spec.Mds
import Verif.Lemmas.Stream

namespace Verif.Mds

/-- The stream of `d` at `p` has `s` left. -/
def At (d : Bytes) (p : Nat) (s : Bytes) : Prop := p ≤ d.length ∧ d.drop p = s

theorem At.split {d : Bytes} {p : Nat} {s : Bytes} (h : At d p s) : d = d.take p ++ s ∧ (d.take p).length = p := by
  refine ⟨?_, ?_⟩
  · rw [← h.2, List.take_append_drop]
  · simpa using Nat.min_eq_left h.1

theorem At.of_split (a b : Bytes) : At (a ++ b) a.length b := ⟨by simp, by simp⟩

theorem At.append {d : Bytes} {p : Nat} {a b : Bytes} (h : At d p (a ++ b)) : At d (p + a.length) b := by
  obtain ⟨h1, h2⟩ := h.split
  rw [h1, ← List.append_assoc]
  have : p + a.length = (d.take p ++ a).length := by rw [List.length_append, h2]
  rw [this]
  exact At.of_split _ _

theorem At.succ {d : Bytes} {p : Nat} {c : Byte} {r : Bytes} (h : At d p (c :: r)) : At d (p + 1) r :=
  At.append (a := [c]) h

theorem At.lt {d : Bytes} {p : Nat} {c : Byte} {r : Bytes} (h : At d p (c :: r)) : p < d.length := by
  have := h.succ.1
  omega

theorem At.length {d : Bytes} {p : Nat} {s : Bytes} (h : At d p s) : d.length = p + s.length := by
  have := congrArg List.length h.2
  have := h.1
  simp at *
  omega

theorem char_at {d : Bytes} {p : Nat} {c : Byte} {r : Bytes} (h : At d p (c :: r)) :
    Rd.char ⟨d, p⟩ = .ok (c, ⟨d, p + 1⟩) := by
  obtain ⟨h1, h2⟩ := h.split
  have := Reads.char c (d.take p) r
  rw [h2, List.append_assoc, List.singleton_append, ← h1] at this
  exact this

theorem char_eof {d : Bytes} : Rd.char ⟨d, d.length⟩ = .ok (0, ⟨d, d.length⟩) := by
  simp [Rd.char, Rd.readPadded, Rd.read, Rd.bind_def]

theorem seek_back {d : Bytes} {p : Nat} (h : p + 1 ≤ d.length) :
    Rd.seek (-1) .cur ⟨d, p + 1⟩ = .ok ((), ⟨d, p⟩) := by
  apply Rd.seek_ok
  · simp only [Rd.seekTarget]; push_cast; omega
  · omega

/-- What holds of 256 bytes holds of all. -/
theorem byte_all (p : Byte → Bool) (h : (List.range 256).all (fun i => p (UInt8.ofNat i)) = true) (c : Byte) : p c = true := by
  rw [List.all_eq_true] at h
  have := h c.toNat (List.mem_range.2 c.toNat_lt)
  simpa using this

theorem isBlank_eq (c : Byte) : isBlank c = isIgnored c := by
  have := byte_all (fun c => isBlank c == isIgnored c) (by decide +kernel) c
  simpa using this

theorem wordStart_eq : wordStart = isKwFirst := funext fun c => by
  have := byte_all (fun c => wordStart c == isKwFirst c) (by decide +kernel) c
  exact eq_of_beq this

theorem wordRest_eq : wordRest = isKwRest := funext fun c => by
  have := byte_all (fun c => wordRest c == isKwRest c) (by decide +kernel) c
  exact eq_of_beq this

theorem lexTok_eq (c : Byte) (r : Bytes) : lexTok c r =
    if isKwFirst c then ((.keyword, c :: r.takeWhile isKwRest), r.dropWhile isKwRest)
    else if c == 34 then
      ((.string, if (((strBody r).filter (fun x => !isSpace x)).getLast? == some 41) then (strBody r).dropLast else strBody r),
        match r.drop (strBody r).length with
        | 34 :: q => q
        | q => q)
    else if isDigit c || c == 45 then
      ((if 46 ∈ numRest r then .float else .integer, c :: numRest r), r.drop (numRest r).length)
    else if c == 123 then ((.lbrace, []), r)
    else if c == 125 then ((.rbrace, []), r)
    else if c == 58 then ((.colon, []), r)
    else ((.nothing, []), r) := by
  unfold lexTok
  rw [wordStart_eq, wordRest_eq]
  rfl

theorem kwFirst_char {c : Byte} (h : isKwFirst c = true) : isIgnored c = false ∧ c ≠ 47 := by
  have := byte_all (fun c => !isKwFirst c || (!isIgnored c && c != 47)) (by decide +kernel) c
  simpa [h] using this

theorem digit_char {c : Byte} (h : isDigit c = true) : isIgnored c = false ∧ c ≠ 47 ∧ isKwFirst c = false ∧ c ≠ 34 := by
  have := byte_all (fun c => !isDigit c || (!isIgnored c && (c != 47 && (!isKwFirst c && c != 34)))) (by decide +kernel) c
  simpa [h] using this

/-- Only a brace is a closing brace. -/
theorem lexTok_rbrace {c : Byte} {r : Bytes} (h : (lexTok c r).1.1 = .rbrace) : c = 125 := by
  rw [lexTok_eq] at h
  split at h
  · cases h
  · split at h
    · cases h
    · split at h
      · revert h
        split <;> intro h <;> cases h
      · split at h
        · cases h
        · split at h
          · rename_i h5; simpa using h5
          · split at h <;> cases h

theorem strip_mem (n : Nat) : ∀ (b : Bool) (s : Bytes), s.length ≤ n → ∀ x ∈ strip b s, x ∈ s := by
  induction n with
  | zero =>
    intro b s hs x hx
    have : s = [] := List.length_eq_zero_iff.1 (by omega)
    subst this; simp [strip] at hx
  | succ n ih =>
    intro b s hs x hx
    rcases s with _ | ⟨c, _ | ⟨e, r⟩⟩
    · simp [strip] at hx
    · rw [strip] at hx
      split at hx
      · simp at hx
      · exact hx
    · rw [strip] at hx
      have h1 : (e :: r).length ≤ n := by simp at hs; simp; omega
      split at hx
      · exact List.mem_cons_of_mem _ (ih _ _ h1 x hx)
      · split at hx
        · exact List.mem_cons_of_mem _ (ih _ _ h1 x hx)
        · split at hx
          · exact List.mem_cons_of_mem _ (List.mem_cons_of_mem _ (ih _ _ (by simp at h1; omega) x hx))
          · exact hx

/-! ## Texts of whole lines -/

theorem Ended.suffix {a b : Bytes} (h : Ended (a ++ b)) : Ended b := by
  rcases h with h | h | ⟨body, c, hc, h⟩
  · left; simp at h; exact h.2
  · rcases a with _ | ⟨x, a⟩
    · right; left; simpa using h
    · left; simp at h; exact h.2.2
  · rcases List.eq_nil_or_concat b with rfl | ⟨b1, x, rfl⟩
    · left; rfl
    · rw [List.concat_eq_append] at h ⊢
      rcases List.eq_nil_or_concat b1 with rfl | ⟨b2, y, rfl⟩
      · right; left
        have : a ++ [x] = (body ++ [c]) ++ [10] := by simpa using h
        have := (List.append_inj' this rfl).2
        simpa using this
      · rw [List.concat_eq_append] at h ⊢
        right; right
        have : (a ++ b2) ++ [y, x] = body ++ [c, 10] := by simpa using h
        have := (List.append_inj' this rfl).2
        simp only [List.cons.injEq, and_true] at this
        obtain ⟨rfl, rfl⟩ := this
        exact ⟨b2, y, hc, by simp⟩

theorem Ended.mem {s : Bytes} (h : Ended s) (hs : s ≠ []) : (10 : Byte) ∈ s := by
  rcases h with h | h | ⟨body, c, hc, h⟩
  · exact absurd h hs
  · simp [h]
  · simp [h]

theorem Ended.tail_mem {c : Byte} {r : Bytes} (h : Ended (c :: r)) (hc : c ≠ 10) : (10 : Byte) ∈ r := by
  have hm := h.mem (by simp)
  simpa [Ne.symm hc] using hm

theorem Ended.comment_mem {c : Byte} {r : Bytes} (h : Ended (47 :: c :: r)) : (10 : Byte) ∈ r := by
  have h1 : Ended r := Ended.suffix (a := [47, c]) h
  rcases r with _ | ⟨x, r⟩
  · exfalso
    rcases h with h | h | ⟨body, e, he, h⟩
    · simp at h
    · simp at h
    · have : ([] : Bytes) ++ [47, c] = body ++ [e, 10] := h
      have := (List.append_inj' this rfl).2
      simp at this
      exact he this.1.symm
  · exact h1.mem (by simp)

/-! ## The loops -/

theorem lineLoop_eq : ∀ (s : Bytes) (fuel p : Nat) (d : Bytes), At d p s → (10 : Byte) ∈ s → s.length < fuel →
    ∃ a b, s = a ++ b ∧ a ≠ [] ∧ strip true s = strip false b ∧ lineLoop fuel ⟨d, p⟩ = .ok ((), ⟨d, p + a.length⟩)
  | [], _, _, _, _, hm, _ => by simp at hm
  | c :: r, 0, _, _, _, _, hf => by simp at hf
  | c :: r, fuel + 1, p, d, h, hm, hf => by
    have hstep : lineLoop (fuel + 1) ⟨d, p⟩ =
        (if c == 10 then (pure () : Rd Unit) else lineLoop fuel) ⟨d, p + 1⟩ := by
      rw [lineLoop, Rd.bind_ok (char_at h)]
    by_cases hc : c = 10
    · subst hc
      refine ⟨[10], r, rfl, by simp, ?_, ?_⟩
      · rcases r with _ | ⟨x, r⟩
        · simp [strip]
        · rw [strip]; simp
      · rw [hstep]; simp
    · have hm' : (10 : Byte) ∈ r := by simpa [Ne.symm hc] using hm
      obtain ⟨a, b, rfl, ha, hs, hl⟩ := lineLoop_eq r fuel (p + 1) d h.succ hm' (by simp at hf; omega)
      refine ⟨c :: a, b, rfl, by simp, ?_, ?_⟩
      · obtain ⟨x, a', rfl⟩ := List.exists_cons_of_ne_nil ha
        have hb : (c != 10) = true := by simpa using hc
        rw [← hs, List.cons_append, strip, if_pos rfl, hb]
      · rw [hstep, if_neg (by simpa using hc), hl]
        simp [Nat.add_assoc, Nat.add_comm 1]

theorem isKwRest_nl : isKwRest 10 = false := by decide

theorem kwLoop_eq : ∀ (r : Bytes) (fuel p : Nat) (d : Bytes) (chr : Byte) (v : Bytes), At d p r → (10 : Byte) ∈ r →
    r.length < fuel →
    kwLoop fuel chr v ⟨d, p⟩ = .ok (v ++ chr :: r.takeWhile isKwRest, ⟨d, p + (r.takeWhile isKwRest).length + 1⟩)
  | [], _, _, _, _, _, _, hm, _ => by simp at hm
  | c :: r, 0, _, _, _, _, _, _, hf => by simp at hf
  | c :: r, fuel + 1, p, d, chr, v, h, hm, hf => by
    rw [kwLoop, Rd.bind_ok (char_at h)]
    by_cases hc : isKwRest c = true
    · have hne : c ≠ 10 := by rintro rfl; simp [isKwRest_nl] at hc
      have hm' : (10 : Byte) ∈ r := by simpa [Ne.symm hne] using hm
      rw [if_pos hc, kwLoop_eq r fuel (p + 1) d c _ h.succ hm' (by simp at hf; omega)]
      simp [List.takeWhile_cons, hc]
      omega
    · rw [if_neg hc]
      simp [List.takeWhile_cons, hc]

/-- The character kept by a string: the last one that is no space. -/
def lastOr (b : Byte) (s : Bytes) : Byte := (((s).filter (fun x => !isSpace x)).getLast?).getD b

theorem lastOr_cons (b c : Byte) (s : Bytes) : lastOr b (c :: s) = lastOr (if isSpace c then b else c) s := by
  unfold lastOr
  by_cases h : isSpace c = true
  · simp [h]
  · simp only [List.filter_cons, h]
    simp only [Bool.not_false, Bool.false_eq_true, if_true, if_false]
    rw [List.getLast?_cons]
    cases (List.filter (fun x => !isSpace x) s).getLast? <;> simp

theorem strLoop_eq : ∀ (r : Bytes) (fuel p : Nat) (d : Bytes) (chr prev : Byte) (v : Bytes), At d p r →
    (10 : Byte) ∈ chr :: r → r.length + 1 < fuel →
    ∃ e q, (chr :: r).drop (strBody (chr :: r)).length = e :: q ∧ (e = 34 ∨ e = 10) ∧
      strLoop fuel chr prev v ⟨d, p⟩ =
        .ok ((e, lastOr prev (strBody (chr :: r)), v ++ strBody (chr :: r)), ⟨d, p + (strBody (chr :: r)).length⟩)
  | r, 0, _, _, _, _, _, _, _, hf => by simp at hf
  | [], fuel + 1, p, d, chr, prev, v, h, hm, hf => by
    have : chr = 10 := by simpa [eq_comm] using hm
    subst this
    exact ⟨10, [], by simp [strBody], .inr rfl, by simp [strLoop, strBody, lastOr]⟩
  | c :: r, fuel + 1, p, d, chr, prev, v, h, hm, hf => by
    by_cases hc : (chr != 34 && chr != 10) = true
    · have hne : chr ≠ 10 := by rintro rfl; simp at hc
      have hm' : (10 : Byte) ∈ c :: r := by
        rcases List.mem_cons.1 hm with h1 | h1
        · exact absurd h1.symm hne
        · exact h1
      obtain ⟨e, q, h1, h2, h3⟩ := strLoop_eq r fuel (p + 1) d c (if isSpace chr then prev else chr) (v ++ [chr])
        h.succ hm' (by simp at hf; omega)
      have hb : strBody (chr :: c :: r) = chr :: strBody (c :: r) := by
        rw [strBody, List.takeWhile_cons, if_pos hc]; rfl
      refine ⟨e, q, ?_, h2, ?_⟩
      · rw [hb, List.length_cons, List.drop_succ_cons, h1]
      · rw [strLoop, if_pos hc, Rd.bind_ok (char_at h), h3, hb, lastOr_cons]
        simp [Nat.add_assoc, Nat.add_comm 1]
    · have hb : strBody (chr :: c :: r) = [] := by rw [strBody, List.takeWhile_cons, if_neg hc]
      refine ⟨chr, c :: r, by simp [hb], ?_, ?_⟩
      · simp only [Bool.and_eq_true, bne_iff_ne, ne_eq, not_and, Decidable.not_not] at hc
        by_cases h34 : chr = 34
        · exact .inl h34
        · exact .inr (hc h34)
      · rw [strLoop, if_neg hc, hb]; simp [lastOr]

theorem numLoop_eq (n : Nat) : ∀ (r : Bytes) (fuel p : Nat) (d : Bytes) (chr : Byte) (dot : Bool) (v : Bytes), r.length ≤ n →
    At d p r → (10 : Byte) ∈ r → r.length < fuel →
    numLoop fuel chr dot v ⟨d, p⟩ =
      .ok ((dot || decide (46 ∈ numRest r), v ++ chr :: numRest r), ⟨d, p + (numRest r).length + 1⟩) := by
  induction n with
  | zero =>
    intro r fuel p d chr dot v hn h hm hf
    have : r = [] := List.length_eq_zero_iff.1 (by omega)
    subst this; simp at hm
  | succ n ih =>
    intro r fuel p d chr dot v hn h hm hf
    rcases fuel with _ | fuel
    · simp at hf
    rcases r with _ | ⟨c, r⟩
    · simp at hm
    rw [numLoop, Rd.bind_ok (char_at h)]
    by_cases h46 : c = 46
    · subst h46
      have hm' : (10 : Byte) ∈ r := by
        rcases List.mem_cons.1 hm with h1 | h1
        · exact absurd h1 (by decide)
        · exact h1
      rcases r with _ | ⟨x, r⟩
      · simp at hm'
      rw [if_pos (by simp), Rd.bind_ok (char_at h.succ)]
      by_cases hx : isDigit x = true
      · have hx10 : x ≠ 10 := by rintro rfl; exact absurd hx (by decide)
        have hm2 : (10 : Byte) ∈ r := by
          rcases List.mem_cons.1 hm' with h1 | h1
          · exact absurd h1.symm hx10
          · exact h1
        rw [if_pos hx, ih r fuel (p + 1 + 1) d x true _ (by simp at hn; omega) h.succ.succ hm2 (by simp at hf; omega)]
        have e : numRest (46 :: x :: r) = 46 :: x :: numRest r := by rw [numRest]; simp [hx]
        rw [e]
        simp
        omega
      · rw [if_neg hx]
        have e : numRest (46 :: x :: r) = [46] := by rw [numRest]; simp [hx]
        rw [e]; simp
    · rw [if_neg (by simpa using h46)]
      by_cases hd : isDigit c = true
      · have hc10 : c ≠ 10 := by rintro rfl; exact absurd hd (by decide)
        have hm2 : (10 : Byte) ∈ r := by
          rcases List.mem_cons.1 hm with h1 | h1
          · exact absurd h1.symm hc10
          · exact h1
        rw [if_pos hd, ih r fuel (p + 1) d c dot _ (by simp at hn; omega) h.succ hm2 (by simp at hf; omega)]
        have e : numRest (c :: r) = c :: numRest r := by
          rcases r with _ | ⟨y, r⟩
          · simp at hm2
          · rw [numRest]; simp [hd, h46]
        rw [e]
        have e2 : decide ((46 : Byte) ∈ c :: numRest r) = decide ((46 : Byte) ∈ numRest r) := by
          simp [Ne.symm h46]
        rw [e2]
        simp
        omega
      · rw [if_neg hd]
        have e : numRest (c :: r) = [] := by
          rcases r with _ | ⟨y, r⟩
          · rw [numRest]; simp [hd, h46]
          · rw [numRest]; simp [hd, h46]
        rw [e]; simp

theorem numRest_prefix (n : Nat) : ∀ r : Bytes, r.length ≤ n → r = numRest r ++ r.drop (numRest r).length := by
  induction n with
  | zero =>
    intro r h
    have : r = [] := List.length_eq_zero_iff.1 (by omega)
    subst this; rfl
  | succ n ih =>
    intro r h
    rcases r with _ | ⟨c, _ | ⟨d, r⟩⟩
    · rfl
    · rw [numRest]; split <;> simp
    · rw [numRest]
      split
      · split
        · have := ih r (by simp at h; omega)
          simpa using this
        · simp
      · split
        · have := ih (d :: r) (by simp at h; simp; omega)
          simpa using this
        · simp

theorem token_string (fuel : Nat) : token fuel 34 = (do
    let c ← Rd.char
    let (c, prev, v) ← strLoop fuel c 0 []
    (if c != 34 then Rd.seek (-1) .cur else return () : Rd Unit)
    return (.string, if prev == 41 then v.dropLast else v)) := rfl

theorem lexTok_string (r : Bytes) : lexTok 34 r =
    ((.string, if (((strBody r).filter (fun x => !isSpace x)).getLast? == some 41) then (strBody r).dropLast else strBody r),
      match r.drop (strBody r).length with
      | 34 :: q => q
      | q => q) := rfl

theorem token_num {c : Byte} (h1 : isKwFirst c = false) (h2 : c ≠ 34) (h3 : (isDigit c || c == 45) = true) (fuel : Nat) :
    token fuel c = (do
      let (dot, v) ← numLoop fuel c false []
      Rd.seek (-1) .cur
      return (if dot then .float else .integer, v)) := by
  rw [token, if_neg (by simp [h1]), if_neg (by simpa using h2), if_pos h3]

theorem lexTok_num {c : Byte} (h1 : isKwFirst c = false) (h2 : c ≠ 34) (h3 : (isDigit c || c == 45) = true) (r : Bytes) :
    lexTok c r = ((if 46 ∈ numRest r then .float else .integer, c :: numRest r), r.drop (numRest r).length) := by
  rw [lexTok_eq, if_neg (by simp [h1]), if_neg (by simpa using h2), if_pos h3]

theorem token_other {c : Byte} (h1 : isKwFirst c = false) (h2 : c ≠ 34) (h3 : (isDigit c || c == 45) = false) (fuel : Nat) :
    token fuel c = if c == 123 then return (.lbrace, []) else if c == 125 then return (.rbrace, [])
      else if c == 58 then return (.colon, []) else return (.nothing, []) := by
  rw [token, if_neg (by simp [h1]), if_neg (by simpa using h2), if_neg (by simp only [h3]; decide)]

theorem lexTok_other {c : Byte} (h1 : isKwFirst c = false) (h2 : c ≠ 34) (h3 : (isDigit c || c == 45) = false) (r : Bytes) :
    lexTok c r = if c == 123 then ((.lbrace, []), r) else if c == 125 then ((.rbrace, []), r)
      else if c == 58 then ((.colon, []), r) else ((.nothing, []), r) := by
  rw [lexTok_eq, if_neg (by simp [h1]), if_neg (by simpa using h2), if_neg (by simp only [h3]; decide)]

theorem token_eq {d : Bytes} {p : Nat} {c : Byte} {r : Bytes} (h : At d p r) (he : Ended (c :: r)) (hc : c ≠ 10)
    (fuel : Nat) (hf : d.length + 2 ≤ fuel) :
    ∃ a, r = a ++ (lexTok c r).2 ∧ token fuel c ⟨d, p⟩ = .ok ((lexTok c r).1, ⟨d, p + a.length⟩) := by
  have hm := he.tail_mem hc
  have hlen := h.length
  by_cases h1 : isKwFirst c = true
  · rw [token, if_pos h1, lexTok_eq, if_pos h1]
    refine ⟨r.takeWhile isKwRest, by simp, ?_⟩
    rw [Rd.bind_ok (kwLoop_eq r fuel p d c [] h hm (by omega)), Rd.bind_ok (seek_back ?_)]
    · simp
    · have : (r.takeWhile isKwRest).length < r.length := by
        have e := List.takeWhile_append_dropWhile (p := isKwRest) (l := r)
        have : r.dropWhile isKwRest ≠ [] := by
          intro h0
          rw [h0, List.append_nil] at e
          rw [← e] at hm
          have := List.all_takeWhile (p := isKwRest) (l := r)
          rw [List.all_eq_true] at this
          have := this 10 hm
          simp [isKwRest_nl] at this
        have h2 := List.length_pos_iff.2 this
        have h3 := congrArg List.length e
        rw [List.length_append] at h3
        omega
      omega
  by_cases h2 : c = 34
  · subst h2
    rw [token_string, lexTok_string]
    rcases r with _ | ⟨x, r⟩
    · simp at hm
    have hl : d.length = p + (r.length + 1) := by simpa using hlen
    obtain ⟨e, q, g1, g2, g3⟩ := strLoop_eq r fuel (p + 1) d x 0 [] h.succ hm (by omega)
    have hpre : x :: r = strBody (x :: r) ++ e :: q := by
      rw [← g1]
      have e := List.takeWhile_append_dropWhile (p := fun c => c != 34 && c != 10) (l := x :: r)
      have e2 : (x :: r).drop (strBody (x :: r)).length = (x :: r).dropWhile (fun c => c != 34 && c != 10) := by
        conv => lhs; rhs; rw [← e]
        exact List.drop_left
      rw [e2]
      exact e.symm
    have hval : (if (lastOr 0 (strBody (x :: r))) == 41 then (strBody (x :: r)).dropLast else strBody (x :: r)) =
        if (((strBody (x :: r)).filter (fun x => !isSpace x)).getLast? == some 41) then (strBody (x :: r)).dropLast
          else strBody (x :: r) := by
      unfold lastOr
      cases ((strBody (x :: r)).filter (fun x => !isSpace x)).getLast? <;> simp
    rw [Rd.bind_ok (char_at h), Rd.bind_ok g3]
    simp only [List.nil_append]
    rw [hval, g1]
    have hlen2 := congrArg List.length hpre
    simp only [List.length_cons, List.length_append] at hlen2
    rcases g2 with rfl | rfl
    · refine ⟨strBody (x :: r) ++ [34], by simp [← hpre], ?_⟩
      rw [if_neg (by simp), Rd.bind_ok (Rd.pure_def _ _)]
      simp; omega
    · refine ⟨strBody (x :: r), hpre, ?_⟩
      rw [if_pos (by decide)]
      have e1 : p + 1 + (strBody (x :: r)).length = p + (strBody (x :: r)).length + 1 := by omega
      rw [e1, Rd.bind_ok (seek_back (by omega))]
      rfl
  by_cases h3 : (isDigit c || c == 45) = true
  · rw [token_num (by simpa using h1) h2 h3, lexTok_num (by simpa using h1) h2 h3]
    have hpre := numRest_prefix r.length r (Nat.le_refl _)
    refine ⟨numRest r, hpre, ?_⟩
    have hlt : (numRest r).length < r.length := by
      have hno : (10 : Byte) ∉ numRest r := by
        have : ∀ n (r : Bytes), r.length ≤ n → ∀ x ∈ numRest r, isDigit x = true ∨ x = 46 := by
          intro n
          induction n with
          | zero =>
            intro r h x hx
            have : r = [] := List.length_eq_zero_iff.1 (by omega)
            subst this; simp [numRest] at hx
          | succ n ih =>
            intro r h x hx
            rcases r with _ | ⟨c, _ | ⟨d, r⟩⟩
            · simp [numRest] at hx
            · rw [numRest] at hx
              split at hx
              · rename_i hh
                simp at hx; subst hx; simpa using hh
              · simp at hx
            · rw [numRest] at hx
              split at hx
              · rename_i hh
                split at hx
                · rename_i hd
                  simp only [List.mem_cons] at hx
                  rcases hx with rfl | rfl | hx
                  · right; simpa using hh
                  · left; exact hd
                  · exact ih r (by simp at h; omega) x hx
                · simp at hx; subst hx; right; simpa using hh
              · split at hx
                · rename_i hd
                  rcases List.mem_cons.1 hx with rfl | hx
                  · left; exact hd
                  · exact ih (d :: r) (by simp at h; simp; omega) x hx
                · simp at hx
        intro hmem
        rcases this r.length r (Nat.le_refl _) 10 hmem with h | h
        · exact absurd h (by decide)
        · exact absurd h (by decide)
      have hne : r.drop (numRest r).length ≠ [] := by
        intro h0
        rw [h0, List.append_nil] at hpre
        rw [hpre] at hm
        exact hno hm
      have h4 := List.length_pos_iff.2 hne
      simp at h4; omega
    rw [Rd.bind_ok (numLoop_eq r.length r fuel p d c false [] (Nat.le_refl _) h hm (by omega))]
    simp only [Bool.false_or, List.nil_append, decide_eq_true_eq]
    rw [Rd.bind_ok (seek_back (by omega))]
    rfl
  rw [token_other (by simpa using h1) h2 (by simpa using h3), lexTok_other (by simpa using h1) h2 (by simpa using h3)]
  refine ⟨[], ?_⟩
  split
  · simp
  · split
    · simp
    · split <;> simp

theorem strip_char {c : Byte} (h1 : isIgnored c = false) (h2 : c ≠ 47) (r : Bytes) : strip false (c :: r) = c :: r := by
  rcases r with _ | ⟨d, r⟩ <;> rw [strip] <;> simp [isBlank_eq, h1, h2]

theorem strip_ignored {c : Byte} (h1 : isIgnored c = true) (r : Bytes) : strip false (c :: r) = strip false r := by
  rcases r with _ | ⟨d, r⟩
  · rw [strip]; simp [isBlank_eq, h1, strip]
  · rw [strip]; simp [isBlank_eq, h1]

theorem isIgnored_nl : isIgnored 10 = true := by decide

/-- The loop of `next`: the token, its text, and what is left; the mark is at a place from which the same token is found. -/
theorem nextLoop_eq (n : Nat) : ∀ (s : Bytes) (fuel : Nat) (d : Bytes) (p m : Nat), s.length ≤ n → At d p s → Ended s →
    s.length < fuel →
    ∃ q m' a, nextLoop fuel ⟨⟨d, p⟩, m, []⟩ = .ok ((lexOne s).1.1, ⟨⟨d, q⟩, m', (lexOne s).1.2⟩) ∧
      At d q (lexOne s).2 ∧ s = a ++ (lexOne s).2 ∧ ((lexOne s).1.1 ≠ .endOfFile → a ≠ []) ∧
      ((s = [] ∧ m' = m) ∨ ∃ b u, s = b ++ u ∧ u ≠ [] ∧ At d m' u ∧ strip false u = strip false s) := by
  induction n with
  | zero =>
    intro s fuel d p m hn h he hf
    have : s = [] := List.length_eq_zero_iff.1 (by omega)
    subst this
    rcases fuel with _ | fuel
    · simp at hf
    have hl := h.length
    refine ⟨p, m, [], ?_, h, rfl, ?_, .inl ⟨rfl, rfl⟩⟩
    · rw [nextLoop, if_pos (by simp at hl; simp; omega)]; rfl
    · intro hh; exact absurd rfl hh
  | succ n ih =>
    intro s fuel d p m hn h he hf
    rcases s with _ | ⟨c, r⟩
    · exact ih [] fuel d p m (by simp) h he hf
    rcases fuel with _ | fuel
    · simp at hf
    have hlt := h.lt
    have hstep : nextLoop (fuel + 1) ⟨⟨d, p⟩, m, []⟩ =
        if isIgnored c then nextLoop fuel ⟨⟨d, p + 1⟩, p, []⟩
        else if c == 47 then
          match comment (d.length + 2) ⟨d, p + 1⟩ with
          | .error e => .error e
          | .ok (_, s) => nextLoop fuel ⟨s, p, []⟩
        else
          match token (d.length + 2) c ⟨d, p + 1⟩ with
          | .error e => .error e
          | .ok ((k, v), s) => .ok (k, ⟨s, p, v⟩) := by
      rw [nextLoop, if_neg (by simpa using hlt)]
      simp only [char_at h]
      rfl
    rw [hstep]
    by_cases h1 : isIgnored c = true
    · rw [if_pos h1]
      obtain ⟨q, m', a, g1, g2, g3, g4, g5⟩ := ih r fuel d (p + 1) p (by simp at hn; omega) h.succ
        (Ended.suffix (a := [c]) he) (by simp at hf; omega)
      have hl : lexOne (c :: r) = lexOne r := by rw [lexOne, strip_ignored h1]; rfl
      rw [hl]
      refine ⟨q, m', c :: a, g1, g2, by rw [List.cons_append, ← g3], by simp, ?_⟩
      right
      rcases g5 with ⟨rfl, rfl⟩ | ⟨b, u, e1, e2, e3, e4⟩
      · exact ⟨[], [c], rfl, by simp, h, rfl⟩
      · exact ⟨c :: b, u, by rw [e1]; rfl, e2, e3, by rw [e4, strip_ignored h1]⟩
    rw [if_neg h1]
    have hc10 : c ≠ 10 := by rintro rfl; exact h1 isIgnored_nl
    by_cases h2 : c = 47
    · subst h2
      rw [if_pos (by simp)]
      rcases r with _ | ⟨x, r⟩
      · have := he.tail_mem (by decide); simp at this
      have hm := he.comment_mem
      obtain ⟨a1, b1, rfl, ha1, hs, hl⟩ := lineLoop_eq r (d.length + 2) (p + 1 + 1) d h.succ.succ hm
        (by have := h.length; simp at this; omega)
      have hcom : comment (d.length + 2) ⟨d, p + 1⟩ = .ok ((), ⟨d, p + 1 + 1 + a1.length⟩) := by
        rw [comment, Rd.bind_ok (char_at h.succ), hl]
      simp only [hcom]
      have hat := h.succ.succ.append
      obtain ⟨q, m', a, g1, g2, g3, g4, g5⟩ := ih b1 fuel d (p + 1 + 1 + a1.length) p (by simp at hn; omega)
        hat (Ended.suffix (a := 47 :: x :: a1) (by simpa using he)) (by simp at hf; omega)
      have hst : strip false (47 :: x :: (a1 ++ b1)) = strip false b1 := by
        rw [← hs, strip]
        rw [if_neg (by decide), if_neg (by decide), if_pos (by decide)]
      have hlx : lexOne (47 :: x :: (a1 ++ b1)) = lexOne b1 := by rw [lexOne, hst]; rfl
      rw [hlx]
      refine ⟨q, m', 47 :: x :: a1 ++ a, g1, g2, ?_, by simp, ?_⟩
      · rw [List.append_assoc, ← g3]; rfl
      right
      rcases g5 with ⟨rfl, rfl⟩ | ⟨b, u, e1, e2, e3, e4⟩
      · exact ⟨[], _, rfl, by simp, h, rfl⟩
      · exact ⟨47 :: x :: a1 ++ b, u, by rw [e1]; simp, e2, e3, by rw [e4, hst]⟩
    · rw [if_neg (by simpa using h2)]
      obtain ⟨a, g1, g2⟩ := token_eq h.succ he hc10 (d.length + 2) (Nat.le_refl _)
      have hst : strip false (c :: r) = c :: r := strip_char (by simpa using h1) h2 r
      have hlx : lexOne (c :: r) = lexTok c r := by rw [lexOne, hst]
      rw [hlx]
      simp only [g2]
      refine ⟨p + 1 + a.length, p, c :: a, rfl, ?_, ?_, by simp, ?_⟩
      · have := h.succ
        rw [g1] at this
        exact this.append
      · rw [List.cons_append, ← g1]
      · exact .inr ⟨[], c :: r, rfl, by simp, h, rfl⟩

theorem next_eq {d : Bytes} {p m : Nat} {v : Bytes} {s : Bytes} (h : At d p s) (he : Ended s) :
    ∃ q m' a, next ⟨⟨d, p⟩, m, v⟩ = .ok ((lexOne s).1.1, ⟨⟨d, q⟩, m', (lexOne s).1.2⟩) ∧
      At d q (lexOne s).2 ∧ s = a ++ (lexOne s).2 ∧ ((lexOne s).1.1 ≠ .endOfFile → a ≠ []) ∧
      ((s = [] ∧ m' = m) ∨ ∃ b u, s = b ++ u ∧ u ≠ [] ∧ At d m' u ∧ strip false u = strip false s) :=
  nextLoop_eq s.length s _ d p m (Nat.le_refl _) h he (by have := h.length; simp only; omega)

theorem lexOne_ended {s : Bytes} (he : Ended s) : Ended (lexOne s).2 := by
  obtain ⟨q, m', a, _, _, h, _⟩ := next_eq (m := 0) (v := []) (At.of_split [] s) he
  rw [h] at he
  exact he.suffix

theorem lexOne_lt {s : Bytes} (he : Ended s) (hk : (lexOne s).1.1 ≠ .endOfFile) : (lexOne s).2.length < s.length := by
  obtain ⟨q, m', a, _, _, h, hp, _⟩ := next_eq (m := 0) (v := []) (At.of_split [] s) he
  have := List.length_pos_iff.2 (hp hk)
  have h2 := congrArg List.length h
  rw [List.length_append] at h2
  omega

theorem runs_lexN (n : Nat) : ∀ (s : Bytes) (d : Bytes) (p m : Nat) (v : Bytes), s.length ≤ n → At d p s → Ended s →
    Runs ⟨⟨d, p⟩, m, v⟩ (lexN n s) ∧ (lexN n s).length ≤ s.length := by
  induction n with
  | zero =>
    intro s d p m v hn h he
    obtain ⟨q, m', a, g1, _⟩ := next_eq (m := m) (v := v) h he
    have : s = [] := List.length_eq_zero_iff.1 (by omega)
    subst this
    exact ⟨.stop g1, by simp [lexN]⟩
  | succ n ih =>
    intro s d p m v hn h he
    obtain ⟨q, m', a, g1, g2, g3, g4, _⟩ := next_eq (m := m) (v := v) h he
    by_cases hk : (lexOne s).1.1 = .endOfFile
    · rw [lexN, if_pos hk]
      rw [hk] at g1
      exact ⟨.stop g1, by simp⟩
    · have hlt := lexOne_lt he hk
      obtain ⟨r1, r2⟩ := ih (lexOne s).2 d q m' (lexOne s).1.2 (by omega) g2 (lexOne_ended he)
      rw [lexN, if_neg hk]
      exact ⟨Runs.step g1 hk r1, by rw [List.length_cons]; omega⟩

/-! ## Inputs without an end -/

theorem lineLoop_hang : ∀ (fuel : Nat) (s : Bytes) (d : Bytes) (p : Nat), At d p s → (10 : Byte) ∉ s →
    lineLoop fuel ⟨d, p⟩ = .error .hang
  | 0, _, _, _, _, _ => rfl
  | fuel + 1, [], d, p, h, hm => by
    have hp : p = d.length := by have := h.length; simpa using this.symm
    subst hp
    rw [lineLoop, Rd.bind_ok char_eof, if_neg (by decide)]
    exact lineLoop_hang fuel [] d _ h hm
  | fuel + 1, c :: r, d, p, h, hm => by
    rw [List.mem_cons, not_or] at hm
    rw [lineLoop, Rd.bind_ok (char_at h), if_neg (by simpa using Ne.symm hm.1)]
    exact lineLoop_hang fuel r d _ h.succ hm.2

theorem strLoop_hang : ∀ (fuel : Nat) (s : Bytes) (d : Bytes) (p : Nat) (chr prev : Byte) (v : Bytes), At d p s →
    (chr != 34 && chr != 10) = true → (∀ c ∈ s, (c != 34 && c != 10) = true) →
    strLoop fuel chr prev v ⟨d, p⟩ = .error .hang
  | 0, _, _, _, _, _, _, _, _, _ => rfl
  | fuel + 1, [], d, p, chr, prev, v, h, hc, hm => by
    have hp : p = d.length := by have := h.length; simpa using this.symm
    subst hp
    rw [strLoop, if_pos hc, Rd.bind_ok char_eof]
    exact strLoop_hang fuel [] d _ 0 _ _ h (by decide) hm
  | fuel + 1, c :: r, d, p, chr, prev, v, h, hc, hm => by
    rw [strLoop, if_pos hc, Rd.bind_ok (char_at h)]
    exact strLoop_hang fuel r d _ c _ _ h.succ (hm c (by simp)) (fun x hx => hm x (by simp [hx]))

theorem next_step {d : Bytes} {p m : Nat} {v : Bytes} {c : Byte} {r : Bytes} (h : At d p (c :: r)) :
    ∃ fuel, next ⟨⟨d, p⟩, m, v⟩ =
      if isIgnored c then nextLoop fuel ⟨⟨d, p + 1⟩, p, []⟩
      else if c == 47 then
        match comment (d.length + 2) ⟨d, p + 1⟩ with
        | .error e => .error e
        | .ok (_, s) => nextLoop fuel ⟨s, p, []⟩
      else
        match token (d.length + 2) c ⟨d, p + 1⟩ with
        | .error e => .error e
        | .ok ((k, v), s) => .ok (k, ⟨s, p, v⟩) := by
  refine ⟨d.length + 1, ?_⟩
  have hlt := h.lt
  rw [next, nextLoop, if_neg (by simpa using hlt)]
  simp only [char_at h]
  rfl

end Verif.Mds
