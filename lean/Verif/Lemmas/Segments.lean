import Verif.Lemmas.Chunked
import Verif.Lemmas.Line

/-! # Loaders of chunks that need not end where the size of the chunk says -/

namespace Verif

/-- `Loads p bs a`: in every stream that contains `bs` at the current position, `p` returns `a`; it may leave the stream anywhere. -/
def Loads {α} (p : Rd α) (bs : Bytes) (a : α) : Prop :=
  ∀ pre post : Bytes, ∃ pos', p ⟨pre ++ bs ++ post, pre.length⟩ = .ok (a, ⟨pre ++ bs ++ post, pos'⟩)

theorem Reads.loads {α} {p : Rd α} {bs : Bytes} {a : α} (h : Reads p bs a) : Loads p bs a := fun pre post => ⟨_, h pre post⟩

namespace Loads

theorem bind {α β} {p : Rd α} {f : α → Rd β} {b1 b2 : Bytes} {a : α} {b : β} (h1 : Reads p b1 a) (h2 : Loads (f a) b2 b) :
    Loads (p >>= f) (b1 ++ b2) b := by
  intro pre post
  have e1 := h1 pre (b2 ++ post)
  obtain ⟨pos', e2⟩ := h2 (pre ++ b1) post
  have e : pre ++ (b1 ++ b2) ++ post = pre ++ b1 ++ (b2 ++ post) := by simp
  have e' : pre ++ b1 ++ b2 ++ post = pre ++ b1 ++ (b2 ++ post) := by simp
  rw [e', List.length_append] at e2
  refine ⟨pos', ?_⟩
  rw [e, Rd.bind_ok e1]
  exact e2

theorem bindIf {α β} {p : Rd α} {f : α → Rd β} {b1 b2 : Bytes} {a : α} {b : β} {Q : Bytes → Prop} (h1 : ReadsIf p b1 a Q)
    (hQ : ∀ post, Q (b2 ++ post)) (h2 : Loads (f a) b2 b) : Loads (p >>= f) (b1 ++ b2) b := by
  intro pre post
  have e1 := h1 pre (b2 ++ post) (hQ post)
  obtain ⟨pos', e2⟩ := h2 (pre ++ b1) post
  have e : pre ++ (b1 ++ b2) ++ post = pre ++ b1 ++ (b2 ++ post) := by simp
  have e' : pre ++ b1 ++ b2 ++ post = pre ++ b1 ++ (b2 ++ post) := by simp
  rw [e', List.length_append] at e2
  refine ⟨pos', ?_⟩
  rw [e, Rd.bind_ok e1]
  exact e2

theorem bind_pure {α β} {p : Rd α} {f : α → β} {bs : Bytes} {a : α} (h : Loads p bs a) :
    Loads (p >>= fun x => Pure.pure (f x)) bs (f a) := by
  intro pre post
  obtain ⟨pos', e⟩ := h pre post
  exact ⟨pos', by rw [Rd.bind_ok e]; rfl⟩

theorem congr {α} {p : Rd α} {bs bs' : Bytes} {a a' : α} (h : Loads p bs a) (hb : bs = bs') (ha : a = a') : Loads p bs' a' :=
  hb ▸ ha ▸ h

theorem rest {α} {p : Rd α} {bs : Bytes} {a : α} (h : Loads p bs a) (rest : Bytes) : Loads p (bs ++ rest) a := by
  intro pre post
  obtain ⟨pos', e⟩ := h pre (rest ++ post)
  have e' : pre ++ (bs ++ rest) ++ post = pre ++ bs ++ (rest ++ post) := by simp
  rw [e']
  exact ⟨pos', e⟩

end Loads

/-! ## Segments -/

/-- A chunk whose size need not be that of what it holds. -/
structure Seg where
  type : BitVec 16
  size : BitVec 32
  payload : Bytes

def Seg.bytes (c : Seg) : Bytes := encW 2 c.type ++ encW 4 c.size ++ c.payload

theorem Seg.bytes_length (c : Seg) : c.bytes.length = 6 + c.payload.length := by
  simp [Seg.bytes]; omega

/-- A chunk with the right size. -/
def Seg.of (type : BitVec 16) (payload : Bytes) : Seg := ⟨type, BitVec.ofNat 32 payload.length, payload⟩

theorem Seg.of_bytes (type : BitVec 16) (payload : Bytes) : (Seg.of type payload).bytes = chunkBytes type payload := rfl

def segsBytes (cs : List Seg) : Bytes := (cs.map Seg.bytes).flatten

theorem segsBytes_cons (c : Seg) (cs : List Seg) : segsBytes (c :: cs) = c.bytes ++ segsBytes cs := rfl

/-- The handler, called for `c` anywhere in a stream, turns the state `s` into `s'` and says that the chunk ends behind its payload. -/
def HandlesSeg {σ} (cb : ChunkCb σ) (s : σ) (c : Seg) (s' : σ) (done : Bool) : Prop :=
  ∀ pre post : Bytes, ∃ pos',
    cb s c.type (pre.length + 6 + c.size.toNat) ⟨pre ++ c.bytes ++ post, pre.length + 6⟩ =
      .ok ((s', done, pre.length + 6 + c.payload.length), ⟨pre ++ c.bytes ++ post, pos'⟩)

theorem HandlesSeg.of_loads {σ} {cb : σ → BitVec 16 → Rd (σ × Bool)} {s s' : σ} {t : BitVec 16} {bs : Bytes} {done : Bool}
    (h : Loads (cb s t) bs (s', done)) (hl : bs.length < 2 ^ 32) : HandlesSeg (simpleCb cb) s (Seg.of t bs) s' done := by
  intro pre post
  obtain ⟨pos', this⟩ := h (pre ++ (encW 2 t ++ encW 4 (BitVec.ofNat 32 bs.length))) post
  refine ⟨pos', ?_⟩
  have e : pre ++ (encW 2 t ++ encW 4 (BitVec.ofNat 32 bs.length)) ++ bs ++ post = pre ++ (Seg.of t bs).bytes ++ post := by
    simp [Seg.bytes, Seg.of]
  have e2 : (pre ++ (encW 2 t ++ encW 4 (BitVec.ofNat 32 bs.length))).length = pre.length + 6 := by simp
  rw [e, e2] at this
  unfold simpleCb
  dsimp only [Seg.of] at this ⊢
  rw [Rd.bind_ok this]
  have : (BitVec.ofNat 32 bs.length).toNat = bs.length := by simp; exact hl
  rw [this]
  rfl

/-- As `of_loads`, for a handler that is given the end of the chunk. -/
theorem HandlesSeg.of_target {σ} {cb : ChunkCb σ} {s s' : σ} {t : BitVec 16} {bs : Bytes} {done : Bool}
    (h : ∀ target, Loads (cb s t target) bs (s', done, target)) (hl : bs.length < 2 ^ 32) : HandlesSeg cb s (Seg.of t bs) s' done := by
  intro pre post
  have hz : (BitVec.ofNat 32 bs.length).toNat = bs.length := by simp; exact hl
  obtain ⟨pos', this⟩ := h (pre.length + 6 + bs.length) (pre ++ (encW 2 t ++ encW 4 (BitVec.ofNat 32 bs.length))) post
  refine ⟨pos', ?_⟩
  have e : pre ++ (encW 2 t ++ encW 4 (BitVec.ofNat 32 bs.length)) ++ bs ++ post = pre ++ (Seg.of t bs).bytes ++ post := by
    simp [Seg.bytes, Seg.of]
  have e2 : (pre ++ (encW 2 t ++ encW 4 (BitVec.ofNat 32 bs.length))).length = pre.length + 6 := by simp
  rw [e, e2] at this
  dsimp only [Seg.of] at this ⊢
  rw [hz]
  exact this

/-- The handler goes through a list of chunks; `done` is what it says at the last one. -/
inductive SegRun {σ} (cb : ChunkCb σ) : σ → List Seg → σ → Bool → Prop
  | last {s s' c done} (h : HandlesSeg cb s c s' done) : SegRun cb s [c] s' done
  | step {s s' s'' c cs done} (h : HandlesSeg cb s c s' false) (hs : SegRun cb s' cs s'' done) : SegRun cb s (c :: cs) s'' done

theorem SegRun.append {σ} {cb : ChunkCb σ} {s s' s'' : σ} {cs cs' : List Seg} {done : Bool} (h : SegRun cb s cs s' false)
    (h' : SegRun cb s' cs' s'' done) : SegRun cb s (cs ++ cs') s'' done := by
  generalize hd : false = d at h
  induction h with
  | last h => exact .step (hd ▸ h) h'
  | step h hs ih => exact .step h (ih h' hd)

theorem readChunkedFuel_segs {σ} {cb : ChunkCb σ} {s s' : σ} {cs : List Seg} {done : Bool} (h : SegRun cb s cs s' done)
    (pre post : Bytes) (hdone : done = true ∨ post = []) (fuel : Nat) (hf : cs.length ≤ fuel) :
    readChunkedFuel cb fuel s ⟨pre ++ segsBytes cs ++ post, pre.length⟩ =
      .ok (s', ⟨pre ++ segsBytes cs ++ post, pre.length + (segsBytes cs).length⟩) := by
  induction h generalizing pre fuel with
  | last hh =>
    rename_i s s' c done
    cases fuel with
    | zero => simp at hf
    | succ fuel =>
      have hcs : segsBytes [c] = c.bytes := by simp [segsBytes]
      rw [hcs]
      obtain ⟨pos', hcb⟩ := hh pre post
      have hr := Reads.header c.type c.size pre (c.payload ++ post)
      have e : pre ++ (encW 2 c.type ++ encW 4 c.size) ++ (c.payload ++ post) = pre ++ c.bytes ++ post := by simp [Seg.bytes]
      rw [e] at hr
      simp only [readChunkedFuel]
      rw [Rd.bind_ok hr.1, Rd.bind_ok hr.2, Rd.bind_ok (show Rd.tell _ = .ok (pre.length + 6, _) from rfl), Rd.bind_ok hcb]
      dsimp only
      rw [Rd.bind_ok (Rd.seek_beg (by simp [Seg.bytes_length]; omega))]
      rcases hdone with hd | hd
      · subst hd
        simp [Seg.bytes_length, Nat.add_assoc]
      · subst hd
        cases done with
        | true => simp [Seg.bytes_length, Nat.add_assoc]
        | false =>
          simp only [Bool.false_eq_true, if_false]
          rw [Rd.bind_ok (show Rd.eof _ = .ok (true, _) by
            simp only [Rd.eof]
            rw [decide_eq_true]
            simp [Seg.bytes_length]; omega)]
          simp [Seg.bytes_length, Nat.add_assoc]
  | step hh hs ih =>
    rename_i s s' s'' c cs done
    cases fuel with
    | zero => simp at hf
    | succ fuel =>
      rw [segsBytes_cons]
      obtain ⟨pos', hcb⟩ := hh pre (segsBytes cs ++ post)
      have hr := Reads.header c.type c.size pre (c.payload ++ (segsBytes cs ++ post))
      have e : pre ++ (encW 2 c.type ++ encW 4 c.size) ++ (c.payload ++ (segsBytes cs ++ post)) =
        pre ++ (c.bytes ++ segsBytes cs) ++ post := by simp [Seg.bytes]
      have e2 : pre ++ c.bytes ++ (segsBytes cs ++ post) = pre ++ (c.bytes ++ segsBytes cs) ++ post := by simp
      rw [e] at hr
      rw [e2] at hcb
      simp only [readChunkedFuel]
      rw [Rd.bind_ok hr.1, Rd.bind_ok hr.2, Rd.bind_ok (show Rd.tell _ = .ok (pre.length + 6, _) from rfl), Rd.bind_ok hcb]
      dsimp only
      rw [Rd.bind_ok (Rd.seek_beg (by simp [Seg.bytes_length]; omega))]
      simp only [Bool.false_eq_true, if_false]
      have hne : 0 < (segsBytes cs).length := by
        cases hs <;> rw [segsBytes_cons] <;> simp [Seg.bytes_length] <;> omega
      rw [Rd.bind_ok (show Rd.eof _ = .ok (false, _) by
        simp only [Rd.eof]
        rw [decide_eq_false]
        simp [Seg.bytes_length]; omega)]
      simp only [Bool.false_eq_true, if_false]
      have := ih (pre ++ c.bytes) hdone fuel (by simpa using hf)
      have e3 : pre ++ c.bytes ++ segsBytes cs ++ post = pre ++ (c.bytes ++ segsBytes cs) ++ post := by simp
      have e4 : (pre ++ c.bytes).length = pre.length + 6 + c.payload.length := by
        simp [Seg.bytes_length]; omega
      rw [e3, e4] at this
      rw [this]
      simp [Seg.bytes_length, Nat.add_assoc]

theorem segs_length (cs : List Seg) : cs.length ≤ (segsBytes cs).length := by
  induction cs with
  | nil => simp
  | cons c cs ih => rw [segsBytes_cons]; simp [Seg.bytes_length]; omega

/-- A loader reads the chunks up to the one at which it is done and nothing behind it. -/
theorem Reads.segs {σ} {cb : ChunkCb σ} {s s' : σ} {cs : List Seg} (h : SegRun cb s cs s' true) :
    Reads (readChunked cb s) (segsBytes cs) s' := by
  intro pre post
  unfold readChunked
  refine readChunkedFuel_segs h pre post (.inl rfl) _ ?_
  have := segs_length cs
  simp only [List.length_append]
  omega

/-- A loader that is never done reads the chunks to the end of the stream. -/
theorem readChunked_segs {σ} {cb : ChunkCb σ} {s s' : σ} {cs : List Seg} (h : SegRun cb s cs s' false) (pre : Bytes) :
    readChunked cb s ⟨pre ++ segsBytes cs, pre.length⟩ = .ok (s', ⟨pre ++ segsBytes cs, (pre ++ segsBytes cs).length⟩) := by
  unfold readChunked
  have := readChunkedFuel_segs h pre [] (.inr rfl) ((pre ++ segsBytes cs).length - pre.length + 1) (by
    have := segs_length cs
    simp only [List.length_append]
    omega)
  simpa using this

/-! ## Lines followed by white space that is skipped -/

/-- The byte that follows a line is not taken for white space. -/
def NoSpace (post : Bytes) : Prop := (∀ c rest, post = c :: rest → c = 0 ∨ c ∉ Rd.lineSpaces) ∧ post ≠ [0]

theorem ReadsIf.lineSkip (v : Bytes) (h : NoEol v) : ReadsIf (Rd.line true) (v ++ [10]) v NoSpace := by
  intro pre post hQ
  exact lineThenIgnore_eq Rd.lineSpaces (by decide) pre v [] post 10 h (.inr rfl) (by simp) hQ.1 hQ.2

/-- The last steps of `read_line_then_ignore` do not change the line. -/
theorem skipTail_ok (v : Bytes) (c : Byte) (data : Bytes) (q : Nat) : ∃ pos', (do
    let e ← Rd.eof
    if e && c == 0 then return v
    Rd.seek (-1) .cur
    return v : Rd Bytes) ⟨data, q⟩ = .ok (v, ⟨data, pos'⟩) := by
  rw [Rd.bind_ok (show Rd.eof ⟨data, q⟩ = .ok (decide (q ≥ data.length), ⟨data, q⟩) from rfl)]
  by_cases h : (decide (q ≥ data.length) && c == 0) = true
  · rw [if_pos h]
    exact ⟨q, rfl⟩
  · rw [if_neg h]
    have : ∃ p, Rd.seek (-1) .cur ⟨data, q⟩ = .ok ((), ⟨data, p⟩) := by
      unfold Rd.seek
      simp only
      split <;> exact ⟨_, rfl⟩
    obtain ⟨p, hp⟩ := this
    exact ⟨p, by rw [Rd.bind_ok hp]; rfl⟩

theorem Loads.lineSkip (v : Bytes) (h : NoEol v) : Loads (Rd.line true) (v ++ [10]) v := by
  intro pre post
  generalize hdata : pre ++ (v ++ [10]) ++ post = data
  have hlen : data.length = pre.length + v.length + 1 + post.length := by rw [← hdata]; simp; omega
  have hd : data.drop pre.length = v ++ 10 :: post := by rw [← hdata]; simp
  have hd2 : data.drop (pre.length + v.length) = 10 :: post := by
    rw [← List.drop_drop, hd]; simp
  unfold Rd.line Rd.lineThenIgnore
  simp only [if_true]
  rw [Rd.bind_ok (lineLoop_eq data _ pre.length [] (by omega))]
  simp only [List.nil_append, hd, lineOf_noEol v _ h 10 rfl, hd2, List.headD_cons]
  rw [if_pos (by omega), Rd.bind_def]
  simp only [Rd.eof]
  by_cases heof : pre.length + v.length + 1 ≥ data.length
  · simp only [heof, decide_true, Bool.or_true, if_true, Rd.pure_def]
    exact ⟨_, rfl⟩
  · simp only [heof, decide_false, show Rd.lineSpaces.isEmpty = false from rfl, show ((10 : Byte) == 0) = false from rfl, Bool.or_false,
      Bool.false_eq_true, if_false]
    rw [Rd.bind_ok (ignoreLoop_eq _ data _ _ (by omega) (by omega))]
    exact skipTail_ok v _ data _

end Verif
