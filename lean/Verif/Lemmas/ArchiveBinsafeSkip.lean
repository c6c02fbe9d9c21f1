import Verif.Lemmas.ArchiveBinsafe

/-! # Lemmas about skipping objects of BINSAFE archives -/

namespace Verif.Ar.Bs

/-! ## Termination -/

theorem word_total (w k : Nat) (data : Bytes) (pos : Nat) (hp : pos ≤ data.length) :
    ∃ v, Rd.word w k ⟨data, pos⟩ = .ok (v, ⟨data, min (pos + k) data.length⟩) := Rd.word_ok w k data pos hp

theorem readPadded_total (n : Nat) (data : Bytes) (pos : Nat) (hp : pos ≤ data.length) :
    ∃ v, Rd.readPadded n ⟨data, pos⟩ = .ok (v, ⟨data, min (pos + n) data.length⟩) := by
  unfold Rd.readPadded
  rw [Rd.read_eq _ _ hp]
  exact ⟨_, rfl⟩

theorem seek_total (off : Int) (wh : Whence) (data : Bytes) (pos : Nat) (hp : pos ≤ data.length) :
    ∃ p', Rd.seek off wh ⟨data, pos⟩ = .ok ((), ⟨data, p'⟩) ∧ p' ≤ data.length ∧
      (wh = .cur → 0 ≤ off → pos ≤ p') := by
  by_cases h : Rd.seekTarget pos data.length off wh < 0 ∨ Rd.seekTarget pos data.length off wh > data.length
  · exact ⟨pos, Rd.seek_ignored h, hp, fun _ _ => Nat.le_refl _⟩
  · have hn : Rd.seekTarget pos data.length off wh = ((Rd.seekTarget pos data.length off wh).toNat : Int) := by omega
    refine ⟨_, Rd.seek_ok hn (by omega), by omega, ?_⟩
    rintro rfl h0
    simp only [Rd.seekTarget]
    omega

theorem objBegin_total (data : Bytes) (pos : Nat) (hp : pos ≤ data.length) :
    ∃ o p', readObjBegin ⟨data, pos⟩ = .ok (o, ⟨data, p'⟩) ∧ p' ≤ data.length ∧
      (o = none → p' = pos) ∧ (o.isSome → pos < p') := by
  unfold readObjBegin
  by_cases he : pos < data.length
  · have heof : Rd.eof ⟨data, pos⟩ = .ok (false, ⟨data, pos⟩) := by simp [Rd.eof]; omega
    have htell : Rd.tell ⟨data, pos⟩ = .ok (pos, ⟨data, pos⟩) := rfl
    obtain ⟨ty, h1⟩ := word_total 8 1 data pos hp
    rw [Rd.bind_ok heof]
    simp only [Bool.false_eq_true, if_false]
    rw [Rd.bind_ok htell, Rd.bind_ok (p := Rd.u8) h1]
    by_cases ht : ty = tSTRING
    · subst ht
      simp only [bne_self_eq_false, Bool.false_eq_true, if_false]
      obtain ⟨len, h2⟩ := word_total 16 2 data (min (pos + 1) data.length) (by omega)
      rw [Rd.bind_ok (p := Rd.u16) h2]
      obtain ⟨line, h3⟩ := readPadded_total len.toNat data (min (min (pos + 1) data.length + 2) data.length) (by omega)
      rw [Rd.bind_ok (p := Rd.string len.toNat) h3]
      cases parseHdr line with
      | none =>
        simp only
        rw [Rd.bind_ok (Rd.seek_beg hp)]
        exact ⟨none, pos, rfl, hp, fun _ => rfl, by simp⟩
      | some h =>
        refine ⟨some h, _, rfl, by omega, by simp, fun _ => by omega⟩
    · have : (ty != tSTRING) = true := by simpa using ht
      rw [this]
      simp only [if_true]
      rw [Rd.bind_ok (Rd.seek_beg hp)]
      exact ⟨none, pos, rfl, hp, fun _ => rfl, by simp⟩
  · have heof : Rd.eof ⟨data, pos⟩ = .ok (true, ⟨data, pos⟩) := by simp [Rd.eof]; omega
    rw [Rd.bind_ok heof]
    exact ⟨none, pos, rfl, hp, fun _ => rfl, by simp⟩

theorem objEnd_total (data : Bytes) (pos : Nat) (hp : pos ≤ data.length) :
    ∃ b p', readObjEnd ⟨data, pos⟩ = .ok (b, ⟨data, p'⟩) ∧ p' ≤ data.length ∧ pos ≤ p' ∧
      (b = false → p' = pos ∧ pos < data.length) := by
  unfold readObjEnd
  by_cases he : pos < data.length
  · have heof : Rd.eof ⟨data, pos⟩ = .ok (false, ⟨data, pos⟩) := by simp [Rd.eof]; omega
    have htell : Rd.tell ⟨data, pos⟩ = .ok (pos, ⟨data, pos⟩) := rfl
    obtain ⟨ty, h1⟩ := word_total 8 1 data pos hp
    rw [Rd.bind_ok heof]
    simp only [Bool.false_eq_true, if_false]
    rw [Rd.bind_ok htell, Rd.bind_ok (p := Rd.u8) h1]
    by_cases ht : ty = tSTRING
    · subst ht
      simp only [bne_self_eq_false, Bool.false_eq_true, if_false]
      obtain ⟨len, h2⟩ := word_total 16 2 data (min (pos + 1) data.length) (by omega)
      rw [Rd.bind_ok (p := Rd.u16) h2]
      by_cases hl : len = 2
      · subst hl
        simp only [bne_self_eq_false, Bool.false_eq_true, if_false]
        obtain ⟨line, h3⟩ := readPadded_total 2 data (min (min (pos + 1) data.length + 2) data.length) (by omega)
        rw [Rd.bind_ok (p := Rd.string 2) h3]
        by_cases hx : line = b!"[]"
        · have : (line != b!"[]") = false := by simpa using hx
          rw [this]
          exact ⟨true, _, rfl, by omega, by omega, by simp⟩
        · have : (line != b!"[]") = true := by simpa using hx
          rw [this]
          simp only [if_true]
          rw [Rd.bind_ok (Rd.seek_beg hp)]
          exact ⟨false, pos, rfl, hp, Nat.le_refl _, fun _ => ⟨rfl, he⟩⟩
      · have : (len != 2) = true := by simpa using hl
        rw [this]
        simp only [if_true]
        rw [Rd.bind_ok (Rd.seek_beg hp)]
        exact ⟨false, pos, rfl, hp, Nat.le_refl _, fun _ => ⟨rfl, he⟩⟩
    · have : (ty != tSTRING) = true := by simpa using ht
      rw [this]
      simp only [if_true]
      rw [Rd.bind_ok (Rd.seek_beg hp)]
      exact ⟨false, pos, rfl, hp, Nat.le_refl _, fun _ => ⟨rfl, he⟩⟩
  · have heof : Rd.eof ⟨data, pos⟩ = .ok (true, ⟨data, pos⟩) := by simp [Rd.eof]; omega
    rw [Rd.bind_ok heof]
    exact ⟨true, pos, rfl, hp, Nat.le_refl _, by simp⟩

theorem skipEntry_total (data : Bytes) (pos : Nat) (hp : pos < data.length) :
    ∃ p', skipEntry ⟨data, pos⟩ = .ok ((), ⟨data, p'⟩) ∧ p' ≤ data.length ∧ pos < p' := by
  unfold skipEntry
  obtain ⟨ty, h1⟩ := word_total 8 1 data pos (by omega)
  rw [Rd.bind_ok (p := Rd.u8) h1]
  have hq : min (pos + 1) data.length = pos + 1 := by omega
  rw [hq]
  have word1 : ∀ w k, ∃ p', (do let _ ← Rd.word w k; return () : Rd Unit) ⟨data, pos + 1⟩ = .ok ((), ⟨data, p'⟩) ∧
      p' ≤ data.length ∧ pos < p' := by
    intro w k
    obtain ⟨v, h⟩ := word_total w k data (pos + 1) (by omega)
    exact ⟨_, by rw [Rd.bind_ok h]; rfl, by omega, by omega⟩
  repeat' split
  · obtain ⟨len, h2⟩ := word_total 16 2 data (pos + 1) (by omega)
    rw [Rd.bind_ok (p := Rd.u16) h2]
    obtain ⟨p', h3, h4, h5⟩ := seek_total (len.toNat : Int) .cur data (min (pos + 1 + 2) data.length) (by omega)
    exact ⟨p', h3, h4, by have := h5 rfl (by omega); omega⟩
  · exact word1 32 4
  · exact word1 8 1
  · exact word1 16 2
  · obtain ⟨v1, h2⟩ := word_total 32 4 data (pos + 1) (by omega)
    rw [Rd.bind_ok (p := Rd.f32) h2]
    obtain ⟨v2, h3⟩ := word_total 32 4 data (min (pos + 1 + 4) data.length) (by omega)
    rw [Rd.bind_ok (p := Rd.f32) h3]
    obtain ⟨v3, h4⟩ := word_total 32 4 data (min (min (pos + 1 + 4) data.length + 4) data.length) (by omega)
    rw [Rd.bind_ok (p := Rd.f32) h4]
    exact ⟨_, rfl, by omega, by omega⟩
  · exact ⟨_, rfl, by omega, by omega⟩

/-- Every step goes on or closes a level. -/
theorem skipStep_total (data : Bytes) (pos : Nat) (hp : pos ≤ data.length) :
    ∃ d p', skipStep ⟨data, pos⟩ = .ok (d, ⟨data, p'⟩) ∧ p' ≤ data.length ∧ pos ≤ p' ∧
      ((d = -1) ∨ (d = 0 ∧ pos < p') ∨ (d = 1 ∧ pos < p')) := by
  unfold skipStep
  obtain ⟨o, p1, h1, h2, h3, h4⟩ := objBegin_total data pos hp
  rw [Rd.bind_ok h1]
  cases o with
  | some h => exact ⟨1, p1, rfl, h2, by have := h4 rfl; omega, .inr (.inr ⟨rfl, h4 rfl⟩)⟩
  | none =>
    obtain rfl := h3 rfl
    obtain ⟨b, p2, k1, k2, k3, k4⟩ := objEnd_total data p1 hp
    simp only
    rw [Rd.bind_ok k1]
    cases b with
    | true => exact ⟨-1, p2, rfl, k2, k3, .inl rfl⟩
    | false =>
      obtain ⟨rfl, hlt⟩ := k4 rfl
      obtain ⟨p3, m1, m2, m3⟩ := skipEntry_total data p2 hlt
      simp only [Bool.false_eq_true, if_false]
      rw [Rd.bind_ok m1]
      exact ⟨0, p3, rfl, m2, by omega, .inr (.inl ⟨rfl, m3⟩)⟩

theorem skipLoop_total (fuel : Nat) (level : Int) (data : Bytes) (pos : Nat) (hp : pos ≤ data.length)
    (hf : 2 * ((data.length : Int) - pos) + level < fuel) (hf1 : 0 < fuel) :
    ∃ p', skipLoop fuel level ⟨data, pos⟩ = .ok ((), ⟨data, p'⟩) ∧ p' ≤ data.length ∧ pos ≤ p' := by
  induction fuel generalizing level pos with
  | zero => omega
  | succ fuel ih =>
    unfold skipLoop
    obtain ⟨d, p1, h1, h2, h3, h4⟩ := skipStep_total data pos hp
    rw [Rd.bind_ok h1]
    by_cases hl : level + d > 0
    · rw [if_pos hl]
      obtain ⟨p2, k1, k2, k3⟩ := ih (level + d) p1 h2 (by rcases h4 with h | h | h <;> omega)
        (by rcases h4 with h | h | h <;> omega)
      exact ⟨p2, k1, k2, by omega⟩
    · rw [if_neg hl]
      exact ⟨p1, rfl, h2, h3⟩

theorem skipLoop_mono (fuel k : Nat) (level : Int) (s s' : Rs) (h : skipLoop fuel level s = .ok ((), s')) :
    skipLoop (fuel + k) level s = .ok ((), s') := by
  induction fuel generalizing level s with
  | zero => simp [skipLoop, Rd.fail] at h
  | succ fuel ih =>
    rw [show fuel + 1 + k = (fuel + k) + 1 by omega]
    unfold skipLoop at h ⊢
    cases hs : skipStep s with
    | error e => rw [Rd.bind_err hs] at h; simp at h
    | ok r =>
      obtain ⟨d, s1⟩ := r
      rw [Rd.bind_ok hs] at h ⊢
      by_cases hl : level + d > 0
      · rw [if_pos hl] at h ⊢
        exact ih _ _ h
      · rw [if_neg hl] at h ⊢
        exact h

/-! ## Well formed objects -/

/-- What a value must look like so that it is not taken for the begin or end of an object. -/
def SkipSafe : Val → Prop
  | .string v => v.head? ≠ some 91
  | _ => True

instance : (v : Val) → Decidable (SkipSafe v)
  | .string v => inferInstanceAs (Decidable (v.head? ≠ some 91))
  | .raw _ | .int _ | .float _ | .byte _ | .word _ | .enum _ | .bool _ | .color _ | .vec3 _ | .vec2 _ | .bbox _
  | .mat3 _ => isTrue trivial

theorem parseHdr_safe (v : Bytes) (h : v.head? ≠ some 91) : parseHdr v = none := by
  unfold parseHdr
  split
  · rfl
  · split
    · simp at h
    · rfl

theorem step_begin (text : Bytes) (h : Hdr) (ht : text.length < 65536) (hp : parseHdr text = some h) :
    Reads skipStep (mark text) 1 := by
  unfold skipStep
  refine (Reads.bind (reads_begin text h ht hp) (b2 := []) ?_).congr (by simp) rfl
  exact Reads.pure 1

/-- In front of anything but a STRING, or of a STRING that is not a mark, neither begin nor end is found. -/
theorem step_none (data : Bytes) (pos : Nat) (hp : pos < data.length) (ty : BitVec 8)
    (h1 : ∃ s, Rd.u8 ⟨data, pos⟩ = .ok (ty, s)) (hty : ty ≠ tSTRING) :
    skipStep ⟨data, pos⟩ = (do skipEntry; return 0 : Rd Int) ⟨data, pos⟩ := by
  obtain ⟨s, h1⟩ := h1
  have hb : (ty != tSTRING) = true := by simpa using hty
  have hs : s.data = data := by
    obtain ⟨v, h⟩ := word_total 8 1 data pos (by omega)
    have : Rd.u8 ⟨data, pos⟩ = _ := h
    rw [this] at h1
    cases h1; rfl
  obtain ⟨sd, sp⟩ := s
  simp only at hs
  subst hs
  have heof : Rd.eof ⟨sd, pos⟩ = .ok (false, ⟨sd, pos⟩) := by simp [Rd.eof]; omega
  have htell : Rd.tell ⟨sd, pos⟩ = .ok (pos, ⟨sd, pos⟩) := rfl
  have e1 : readObjBegin ⟨sd, pos⟩ = .ok (none, ⟨sd, pos⟩) := by
    unfold readObjBegin
    rw [Rd.bind_ok heof]
    simp only [Bool.false_eq_true, if_false]
    rw [Rd.bind_ok htell, Rd.bind_ok h1, hb]
    simp only [if_true]
    rw [Rd.bind_ok (Rd.seek_beg (by omega))]
    rfl
  have e2 : readObjEnd ⟨sd, pos⟩ = .ok (false, ⟨sd, pos⟩) := by
    unfold readObjEnd
    rw [Rd.bind_ok heof]
    simp only [Bool.false_eq_true, if_false]
    rw [Rd.bind_ok htell, Rd.bind_ok h1, hb]
    simp only [if_true]
    rw [Rd.bind_ok (Rd.seek_beg (by omega))]
    rfl
  unfold skipStep
  rw [Rd.bind_ok e1]
  simp only
  rw [Rd.bind_ok e2]
  rfl

theorem Reads.step_of_entry (ty : BitVec 8) (body : Bytes) (hty : ty ≠ tSTRING)
    (h : Reads skipEntry (encW 1 ty ++ body) ()) : Reads skipStep (encW 1 ty ++ body) 0 := by
  intro pre post
  have hu := Reads.u8 ty pre (body ++ post)
  have e : pre ++ encW 1 ty ++ (body ++ post) = pre ++ (encW 1 ty ++ body) ++ post := by simp
  rw [e] at hu
  rw [step_none _ _ (by simp; omega) ty ⟨_, hu⟩ hty, Rd.bind_ok (h pre post)]
  rfl

theorem skipEntry_u8 (ty : BitVec 8) (body : Bytes) (rest : Rd Unit) (h : Reads rest body ())
    (he : ∀ s s', Rd.u8 s = .ok (ty, s') → skipEntry s = rest s') :
    Reads skipEntry (encW 1 ty ++ body) () := by
  intro pre post
  have hu := Reads.u8 ty pre (body ++ post)
  have e : pre ++ encW 1 ty ++ (body ++ post) = pre ++ (encW 1 ty ++ body) ++ post := by simp
  rw [e] at hu
  rw [he _ _ hu]
  have := h (pre ++ encW 1 ty) post
  simp only [List.append_assoc, List.length_append] at this ⊢
  rw [this]
  simp [Nat.add_assoc]

theorem entry_4 (ty : BitVec 8) (v : BitVec 32)
    (hty : ty = tENUM ∨ ty = tHASH ∨ ty = tINTEGER ∨ ty = tFLOAT ∨ ty = tBOOL ∨ ty = tCOLOR) :
    Reads skipEntry (encW 1 ty ++ encW 4 v) () := by
  refine skipEntry_u8 ty _ (do let _ ← Rd.u32; return ()) ((Reads.u32 v).bind_pure (f := fun _ => ())) ?_
  intro s s' h
  unfold skipEntry
  rw [Rd.bind_ok h]
  rcases hty with rfl | rfl | rfl | rfl | rfl | rfl <;> rfl

theorem entry_blob (ty : BitVec 8) (v : Bytes) (hv : v.length < 65536)
    (hty : ty = tSTRING ∨ ty = tRAW ∨ ty = tRAW_FLOAT) :
    Reads skipEntry (encW 1 ty ++ (encW 2 (BitVec.ofNat 16 v.length) ++ v)) () := by
  refine skipEntry_u8 ty _ (do let len ← Rd.u16; Rd.seek len.toNat .cur) ?_ ?_
  · refine Reads.bind (Reads.u16 _) (Reads.seekCur v _ ?_)
    simp; omega
  · intro s s' h
    unfold skipEntry
    rw [Rd.bind_ok h]
    rcases hty with rfl | rfl | rfl <;> rfl

theorem color_bytes (c : Color) : ∃ v : BitVec 32,
    encW 1 c.b ++ encW 1 c.g ++ encW 1 c.r ++ encW 1 c.a = encW 4 v := by
  refine ⟨decW 32 (encW 1 c.b ++ encW 1 c.g ++ encW 1 c.r ++ encW 1 c.a), ?_⟩
  rw [encW_decW 4 rfl _ (by simp)]

theorem step_val (v : Val) (hv : OkVal v) (hs : SkipSafe v) : Reads skipStep (encW 1 (tag v) ++ payload v) 0 := by
  cases v with
  | string v =>
    have hsafe : v.head? ≠ some 91 := hs
    have hlen : v.length < 65536 := hv
    have he : (BitVec.ofNat 16 v.length).toNat = v.length := by simp; exact hlen
    intro pre post
    generalize hdata : pre ++ (encW 1 (tag (.string v)) ++ payload (.string v)) ++ post = data
    have hdl : data.length = pre.length + (3 + v.length) + post.length := by
      rw [← hdata]; simp [payload]; omega
    have hd0 : data.drop pre.length = encW 1 tSTRING ++ (encW 2 (BitVec.ofNat 16 v.length) ++ (v ++ post)) := by
      rw [← hdata]; simp [payload, tag]
    have hu := (Reads.u8 tSTRING).atPos data pre.length _ (by omega) hd0
    have hu2 := (Reads.u16 (BitVec.ofNat 16 v.length)).atPos data _ _ hu.2.1 hu.2.2
    have hu3 := (Reads.string v).atPos data _ _ hu2.2.1 hu2.2.2
    simp only [encW_length] at hu hu2 hu3
    have heof : Rd.eof ⟨data, pre.length⟩ = .ok (false, ⟨data, pre.length⟩) := by simp [Rd.eof]; omega
    have htell : Rd.tell ⟨data, pre.length⟩ = .ok (pre.length, ⟨data, pre.length⟩) := rfl
    have hseek : ∀ q, Rd.seek (pre.length : Int) .beg ⟨data, q⟩ = .ok ((), ⟨data, pre.length⟩) :=
      fun q => Rd.seek_beg (by omega)
    have e1 : readObjBegin ⟨data, pre.length⟩ = .ok (none, ⟨data, pre.length⟩) := by
      unfold readObjBegin
      rw [Rd.bind_ok heof]
      simp only [Bool.false_eq_true, if_false]
      rw [Rd.bind_ok htell, Rd.bind_ok hu.1]
      simp only [bne_self_eq_false, Bool.false_eq_true, if_false]
      rw [Rd.bind_ok hu2.1, he, Rd.bind_ok hu3.1, parseHdr_safe v hsafe]
      simp only
      rw [Rd.bind_ok (hseek _)]
      rfl
    have e2 : readObjEnd ⟨data, pre.length⟩ = .ok (false, ⟨data, pre.length⟩) := by
      unfold readObjEnd
      rw [Rd.bind_ok heof]
      simp only [Bool.false_eq_true, if_false]
      rw [Rd.bind_ok htell, Rd.bind_ok hu.1]
      simp only [bne_self_eq_false, Bool.false_eq_true, if_false]
      rw [Rd.bind_ok hu2.1]
      by_cases hl : BitVec.ofNat 16 v.length = 2
      · have hl2 : v.length = 2 := by
          rw [← he, hl]; rfl
        have hb : (BitVec.ofNat 16 v.length != 2) = false := by simpa using hl
        rw [hb]
        simp only [Bool.false_eq_true, if_false]
        have h3 := hu3.1
        rw [hl2] at h3
        rw [Rd.bind_ok h3]
        have hne : (v != b!"[]") = true := by
          simp only [bne_iff_ne, ne_eq]
          rintro rfl
          exact hsafe rfl
        rw [hne]
        simp only [if_true]
        rw [Rd.bind_ok (hseek _)]
        rfl
      · have hb : (BitVec.ofNat 16 v.length != 2) = true := by simpa using hl
        rw [hb]
        simp only [if_true]
        rw [Rd.bind_ok (hseek _)]
        rfl
    have e3 := entry_blob tSTRING v hlen (.inl rfl) pre post
    have e4 : pre ++ (encW 1 tSTRING ++ (encW 2 (BitVec.ofNat 16 v.length) ++ v)) ++ post = data := hdata
    rw [e4] at e3
    unfold skipStep
    rw [Rd.bind_ok e1]
    simp only
    rw [Rd.bind_ok e2]
    simp only [Bool.false_eq_true, if_false]
    rw [Rd.bind_ok e3]
    rfl
  | int v => exact Reads.step_of_entry _ _ (by simp [tag]; decide) (entry_4 _ _ (by simp [tag]))
  | float v => exact Reads.step_of_entry _ _ (by simp [tag]; decide) (entry_4 _ _ (by simp [tag]))
  | enum v => exact Reads.step_of_entry _ _ (by simp [tag]; decide) (entry_4 _ _ (by simp [tag]))
  | bool v => exact Reads.step_of_entry _ _ (by simp [tag]; decide) (entry_4 _ _ (by simp [tag]))
  | color v =>
    obtain ⟨x, hx⟩ := color_bytes v
    simp only [payload, hx]
    exact Reads.step_of_entry _ _ (by simp [tag]; decide) (entry_4 _ _ (by simp [tag]))
  | byte v =>
    refine Reads.step_of_entry _ _ (by simp [tag]; decide) ?_
    refine skipEntry_u8 tBYTE _ (do let _ ← Rd.u8; return ()) ((Reads.u8 v).bind_pure (f := fun _ => ())) ?_
    intro s s' h
    unfold skipEntry
    rw [Rd.bind_ok h]
    rfl
  | word v =>
    refine Reads.step_of_entry _ _ (by simp [tag]; decide) ?_
    refine skipEntry_u8 tWORD _ (do let _ ← Rd.u16; return ()) ((Reads.u16 v).bind_pure (f := fun _ => ())) ?_
    intro s s' h
    unfold skipEntry
    rw [Rd.bind_ok h]
    rfl
  | vec3 v =>
    refine Reads.step_of_entry _ _ (by simp [tag]; decide) ?_
    refine skipEntry_u8 tVEC3 _ (do let _ ← Rd.f32; let _ ← Rd.f32; let _ ← Rd.f32; return ()) ?_ ?_
    · refine (Reads.bind (Reads.f32 v.x) (Reads.bind (Reads.f32 v.y)
        ((Reads.f32 v.z).bind_pure (f := fun _ => ())))).congr ?_ rfl
      simp [payload, Vec3.mem]
    · intro s s' h
      unfold skipEntry
      rw [Rd.bind_ok h]
      rfl
  | vec2 v =>
    refine Reads.step_of_entry _ _ (by simp [tag]; decide) ?_
    exact (entry_blob tRAW_FLOAT v.mem (by rw [Vec2.mem_length]; decide) (.inr (.inr rfl))).congr
      (by rw [Vec2.mem_length]; rfl) rfl
  | bbox v =>
    refine Reads.step_of_entry _ _ (by simp [tag]; decide) ?_
    have hl : v.enc.length = 24 := by simp [Aabb.enc, Vec3.mem_length]
    exact (entry_blob tRAW_FLOAT v.enc (by rw [hl]; decide) (.inr (.inr rfl))).congr (by rw [hl]; rfl) rfl
  | mat3 v =>
    refine Reads.step_of_entry _ _ (by simp [tag]; decide) ?_
    have hl : v.transpose.mem.length < 65536 := by rw [Mat3.mem_length]; decide
    exact (entry_blob tRAW _ hl (.inr (.inl rfl))).congr (by simp only [payload, tag]; rw [blob_eq _ hl]) rfl
  | raw v =>
    refine Reads.step_of_entry _ _ (by simp [tag]; decide) ?_
    exact (entry_blob tRAW _ hv (.inr (.inl rfl))).congr (by simp only [payload, tag]; rw [blob_eq _ hv]) rfl

theorem step_head (k : BitVec 32) : Reads skipStep (encW 1 tHASH ++ encW 4 k) 0 :=
  Reads.step_of_entry _ _ (by decide) (entry_4 _ _ (by simp))

theorem parseHdr_end : parseHdr b!"[]" = none := by decide

theorem step_end : Reads skipStep (mark b!"[]") (-1) := by
  intro pre post
  have h2 := reads_end pre post
  have hm : mark b!"[]" = encW 1 tSTRING ++ (encW 2 (2 : BitVec 16) ++ b!"[]") := by decide
  generalize hdata : pre ++ mark b!"[]" ++ post = data at h2
  have hd0 : data.drop pre.length = encW 1 tSTRING ++ (encW 2 (2 : BitVec 16) ++ (b!"[]" ++ post)) := by
    rw [← hdata, hm]; simp
  have hdl : pre.length < data.length := by rw [← hdata, hm]; simp; omega
  have hu := (Reads.u8 tSTRING).atPos data pre.length _ (by omega) hd0
  have hu2 := (Reads.u16 2).atPos data _ _ hu.2.1 hu.2.2
  have hu3 := (Reads.string b!"[]").atPos data _ _ hu2.2.1 hu2.2.2
  have heof : Rd.eof ⟨data, pre.length⟩ = .ok (false, ⟨data, pre.length⟩) := by simp [Rd.eof]; omega
  have htell : Rd.tell ⟨data, pre.length⟩ = .ok (pre.length, ⟨data, pre.length⟩) := rfl
  have e1 : readObjBegin ⟨data, pre.length⟩ = .ok (none, ⟨data, pre.length⟩) := by
    unfold readObjBegin
    rw [Rd.bind_ok heof]
    simp only [Bool.false_eq_true, if_false]
    rw [Rd.bind_ok htell, Rd.bind_ok hu.1]
    simp only [bne_self_eq_false, Bool.false_eq_true, if_false]
    rw [Rd.bind_ok hu2.1, Rd.bind_ok (p := Rd.string (2 : BitVec 16).toNat) hu3.1, parseHdr_end]
    simp only
    rw [Rd.bind_ok (Rd.seek_beg (by omega))]
    rfl
  unfold skipStep
  rw [Rd.bind_ok e1]
  simp only
  rw [Rd.bind_ok h2]
  rfl

/-- Documents that can be skipped. -/
def SkipDoc (d : Doc) : Prop := d.All (fun _ v => OkVal v ∧ SkipSafe v) (fun n c _ _ => OkName n ∧ OkName c)

instance (d : Doc) : Decidable (SkipDoc d) := Doc.decAll d

/-- Number of iterations for a document. -/
def steps : Doc → Nat
  | .nil => 0
  | .val _ _ rest => 2 + steps rest
  | .obj _ _ _ _ ch rest => 2 + steps ch + steps rest
  | .ref _ _ rest => 2 + steps rest

theorem loop_step {d : Int} {bs : Bytes} (h : Reads skipStep bs d) (data : Bytes) (pos : Nat) (rest : Bytes)
    (hp : pos ≤ data.length) (hd : data.drop pos = bs ++ rest) (fuel : Nat) (level : Int) :
    skipLoop (fuel + 1) level ⟨data, pos⟩ =
      (if level + d > 0 then skipLoop fuel (level + d) ⟨data, pos + bs.length⟩
        else .ok ((), ⟨data, pos + bs.length⟩)) ∧
    pos + bs.length ≤ data.length ∧ data.drop (pos + bs.length) = rest := by
  obtain ⟨h1, h2, h3⟩ := h.atPos data pos rest hp hd
  refine ⟨?_, h2, h3⟩
  conv => lhs; unfold skipLoop
  rw [Rd.bind_ok h1]
  split <;> rfl

theorem loop_doc (d : Doc) (hok : SkipDoc d) (ks : Keys) (data : Bytes) (pos : Nat) (rest : Bytes)
    (hp : pos ≤ data.length) (hd : data.drop pos = enc ks d ++ rest) (fuel : Nat) (level : Int) (hl : 0 < level) :
    skipLoop (steps d + fuel) level ⟨data, pos⟩ = skipLoop fuel level ⟨data, pos + (enc ks d).length⟩ ∧
      pos + (enc ks d).length ≤ data.length ∧ data.drop (pos + (enc ks d).length) = rest := by
  induction d generalizing ks pos rest fuel level with
  | nil => exact ⟨by simp [steps, enc], by simpa [enc] using hp, by simpa [enc] using hd⟩
  | val n v tl ih =>
    obtain ⟨⟨hv, hs⟩, ht⟩ := hok
    have hsplit : enc ks (.val n v tl) = (encW 1 tHASH ++ encW 4 (keyFor ks n)) ++ ((encW 1 (tag v) ++ payload v) ++
        enc (addKey ks n) tl) := by simp [enc, head]
    rw [hsplit] at hd ⊢
    obtain ⟨a1, a2, a3⟩ := loop_step (step_head (keyFor ks n)) data pos _ hp (by rw [hd, List.append_assoc])
      (1 + steps tl + fuel) level
    obtain ⟨b1, b2, b3⟩ := loop_step (step_val v hv hs) data _ _ a2 (by rw [a3, List.append_assoc])
      (steps tl + fuel) level
    obtain ⟨c1, c2, c3⟩ := ih ht (addKey ks n) _ rest b2 b3 fuel level hl
    refine ⟨?_, ?_, ?_⟩
    · rw [show steps (.val n v tl) + fuel = 1 + steps tl + fuel + 1 by simp only [steps]; omega, a1,
        if_pos (by omega), Int.add_zero, show 1 + steps tl + fuel = steps tl + fuel + 1 by omega, b1,
        if_pos (by omega), Int.add_zero, c1]
      congr 2
      simp only [List.length_append]; omega
    · rw [← List.append_assoc]; simp only [List.length_append] at c2 ⊢; omega
    · have e : pos + ((encW 1 tHASH ++ encW 4 (keyFor ks n)) ++ ((encW 1 (tag v) ++ payload v) ++
        enc (addKey ks n) tl)).length = pos + (encW 1 tHASH ++ encW 4 (keyFor ks n)).length +
          (encW 1 (tag v) ++ payload v).length + (enc (addKey ks n) tl).length := by
        simp only [List.length_append]; omega
      rw [e]; exact c3
  | ref n ix tl ih =>
    obtain ⟨⟨hn, hc⟩, ht⟩ := hok
    have hsplit : enc ks (.ref n ix tl) = mark (hdrText n refClass 0 ix) ++ (mark b!"[]" ++ enc ks tl) := by
      simp [enc]
    rw [hsplit] at hd ⊢
    obtain ⟨a1, a2, a3⟩ := loop_step (step_begin _ _ (hdrText_length n refClass 0 ix hn hc)
      (parseHdr_hdrText n refClass 0 ix hn hc)) data pos _ hp (by rw [hd, List.append_assoc])
      (1 + steps tl + fuel) level
    obtain ⟨b1, b2, b3⟩ := loop_step step_end data _ _ a2 (by rw [a3, List.append_assoc])
      (steps tl + fuel) (level + 1)
    obtain ⟨c1, c2, c3⟩ := ih ht ks _ rest b2 b3 fuel level hl
    refine ⟨?_, ?_, ?_⟩
    · rw [show steps (.ref n ix tl) + fuel = 1 + steps tl + fuel + 1 by simp only [steps]; omega, a1,
        if_pos (by omega), show 1 + steps tl + fuel = steps tl + fuel + 1 by omega, b1,
        if_pos (by omega), show level + 1 + -1 = level by omega, c1]
      congr 2
      simp only [List.length_append]; omega
    · simp only [List.length_append] at c2 ⊢; omega
    · rw [← c3]; congr 1; simp only [List.length_append]; omega
  | obj n c ver ix ch tl ihc iht =>
    obtain ⟨⟨hn, hc⟩, hch, ht⟩ := hok
    have hce : c.isEmpty = false := by simpa using hc.1
    have hsplit : enc ks (.obj n c ver ix ch tl) = mark (hdrText n c ver ix) ++ (enc ks ch ++ (mark b!"[]" ++
        enc (keysAfter ks ch) tl)) := by simp [enc, hce]
    rw [hsplit] at hd ⊢
    obtain ⟨a1, a2, a3⟩ := loop_step (step_begin _ _ (hdrText_length n c ver ix hn hc)
      (parseHdr_hdrText n c ver ix hn hc)) data pos _ hp (by rw [hd, List.append_assoc])
      (steps ch + (1 + steps tl + fuel)) level
    obtain ⟨d1, d2, d3⟩ := ihc hch ks _ _ a2 (by rw [a3, List.append_assoc]) (1 + steps tl + fuel) (level + 1)
      (by omega)
    obtain ⟨b1, b2, b3⟩ := loop_step step_end data _ _ d2 (by rw [d3, List.append_assoc])
      (steps tl + fuel) (level + 1)
    obtain ⟨c1, c2, c3⟩ := iht ht (keysAfter ks ch) _ rest b2 b3 fuel level hl
    refine ⟨?_, ?_, ?_⟩
    · rw [show steps (.obj n c ver ix ch tl) + fuel = steps ch + (1 + steps tl + fuel) + 1 by
          simp only [steps]; omega, a1,
        if_pos (by omega), d1, show 1 + steps tl + fuel = steps tl + fuel + 1 by omega, b1,
        if_pos (by omega), show level + 1 + -1 = level by omega, c1]
      congr 2
      simp only [List.length_append]; omega
    · simp only [List.length_append] at c2 ⊢; omega
    · rw [← c3]; congr 1; simp only [List.length_append]; omega

/-- Skipping the rest of an object. -/
theorem skip_rest (d : Doc) (hok : SkipDoc d) (ks : Keys) (data : Bytes) (pos : Nat) (rest : Bytes)
    (hp : pos ≤ data.length) (hd : data.drop pos = enc ks d ++ (mark b!"[]" ++ rest)) :
    skipObj true ⟨data, pos⟩ = .ok ((), ⟨data, pos + (enc ks d ++ mark b!"[]").length⟩) := by
  obtain ⟨a1, a2, a3⟩ := loop_doc d hok ks data pos _ hp hd 1 1 (by omega)
  obtain ⟨b1, b2, b3⟩ := loop_step step_end data _ _ a2 a3 0 1
  rw [if_neg (by omega)] at b1
  have e := a1.trans b1
  obtain ⟨p', t1, t2, t3⟩ := skipLoop_total (2 * (data.length - pos) + 3) 1 data pos hp (by omega) (by omega)
  have m1 := skipLoop_mono _ (2 * (data.length - pos) + 3) _ _ _ e
  have m2 := skipLoop_mono _ (steps d + 1) _ _ _ t1
  rw [Nat.add_comm] at m2
  rw [m1] at m2
  unfold skipObj
  simp only [if_true]
  rw [t1]
  cases m2
  simp [Nat.add_assoc]

/-- Skipping an object from in front of it. -/
theorem skip_object (n c : Bytes) (ver : BitVec 16) (ix : BitVec 32) (ch : Doc) (hn : OkName n) (hc : OkName c)
    (hok : SkipDoc ch) (ks : Keys) (data : Bytes) (pos : Nat) (rest : Bytes) (hp : pos ≤ data.length)
    (hd : data.drop pos = mark (hdrText n c ver ix) ++ (enc ks ch ++ (mark b!"[]" ++ rest))) :
    skipObj false ⟨data, pos⟩ =
      .ok ((), ⟨data, pos + (mark (hdrText n c ver ix) ++ enc ks ch ++ mark b!"[]").length⟩) := by
  obtain ⟨z1, z2, z3⟩ := loop_step (step_begin _ _ (hdrText_length n c ver ix hn hc)
      (parseHdr_hdrText n c ver ix hn hc)) data pos _ hp hd (steps ch + 1) 0
  obtain ⟨a1, a2, a3⟩ := loop_doc ch hok ks data _ _ z2 z3 1 1 (by omega)
  obtain ⟨b1, b2, b3⟩ := loop_step step_end data _ _ a2 a3 0 1
  rw [if_neg (by omega)] at b1
  rw [if_pos (by omega)] at z1
  have e := z1.trans (a1.trans b1)
  obtain ⟨p', t1, t2, t3⟩ := skipLoop_total (2 * (data.length - pos) + 3) 0 data pos hp (by omega) (by omega)
  have m1 := skipLoop_mono _ (2 * (data.length - pos) + 3) _ _ _ e
  have m2 := skipLoop_mono _ (steps ch + 1 + 1) _ _ _ t1
  rw [Nat.add_comm] at m2
  rw [m1] at m2
  unfold skipObj
  simp only [Bool.false_eq_true, if_false]
  rw [t1]
  cases m2
  simp [Nat.add_assoc]

end Verif.Ar.Bs
