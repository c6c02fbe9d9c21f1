import Verif.Lemmas.StreamIoLines

/-!
# Programs on memory and the models of the loaders; programs on streams that always end
-/

namespace Verif.Io

/-! ## The models of the loaders -/

/-- A program does on memory what a model of a reader does, on contents of fewer than `D` bytes. -/
def Is (D : Nat) {α} (p : Prog α) (q : Rd α) : Prop := ∀ s : Rs, s.data.length < D → p.run mem s = q s

variable {D : Nat}

theorem Is.pure {α} (a : α) : Is D (Pure.pure a : Prog α) (Pure.pure a : Rd α) := fun _ _ => rfl

theorem Is.bind {α β} {p : Prog α} {q : Rd α} (h : Is D p q) {f : α → Prog β} {g : α → Rd β} (hf : ∀ a, Is D (f a) (g a)) :
    Is D (p >>= f) (q >>= g) := by
  intro s hs
  rw [Prog.run_bind]
  cases hp : p.run mem s with
  | error e =>
    rw [h s hs] at hp
    rw [Rd.bind_err hp]
  | ok x =>
    obtain ⟨a, s'⟩ := x
    have hd := keep_data_mem _ _ _ _ hp
    rw [h s hs] at hp
    rw [Rd.bind_ok hp]
    exact hf a s' (by rw [hd]; exact hs)

theorem Is.padded (k : Nat) : Is D (Prog.padded k) (Rd.readPadded k) := fun _ _ => rfl
theorem Is.word (w k : Nat) : Is D (Prog.word w k) (Rd.word w k) := fun _ _ => rfl
theorem Is.char : Is D Prog.char Rd.char := fun _ _ => rfl
theorem Is.vec3 : Is D Prog.vec3 Rd.vec3 := fun _ _ => rfl

theorem Is.times {α} {p : Prog α} {q : Rd α} (h : Is D p q) (n : Nat) : Is D (p.times n) (q.times n) := by
  induction n with
  | zero => exact .pure _
  | succ n ih => exact h.bind fun _ => ih.bind fun _ => .pure _

/-- One character from memory. -/
theorem char_mem (s : Rs) : ∃ c s', Prog.char.run mem s = .ok (c, s') ∧ s'.data = s.data ∧
    (c ≠ 0 → s'.pos = s.pos + 1 ∧ s.pos < s.data.length) := by
  have e : Prog.char.run mem s = .ok
      (((mem.read 1 s).1 ++ List.replicate (1 - (mem.read 1 s).1.length) 0).headD 0, (mem.read 1 s).2) := rfl
  refine ⟨_, _, e, rfl, fun hc => ?_⟩
  by_cases hx : s.pos + 1 > s.data.length
  · exfalso
    apply hc
    have : (mem.read 1 s).1 = [] := by
      show (s.data.drop s.pos).take _ = []
      rw [List.drop_eq_nil_of_le (by omega), List.take_nil]
    rw [this]
    rfl
  · refine ⟨?_, by omega⟩
    show s.pos + (if s.pos + 1 > s.data.length then s.data.length - s.pos else 1) = _
    rw [if_neg hx]

theorem lineLoop_is (n m : Nat) (acc : Bytes) (s : Rs) (hn : s.data.length - s.pos < n) (hm : s.data.length - s.pos < m) :
    (Prog.lineLoop n acc).run mem s = Rd.lineLoop m acc s := by
  induction n generalizing m acc s with
  | zero => omega
  | succ n ih =>
    obtain ⟨m, rfl⟩ : ∃ k, m = k + 1 := ⟨m - 1, by omega⟩
    obtain ⟨c, s', h1, h2, h3⟩ := char_mem s
    unfold Prog.lineLoop Rd.lineLoop
    rw [Prog.run_bind_ok h1, Rd.bind_ok (show Rd.char s = _ from h1)]
    by_cases hc : Rd.isEol c = true
    · rw [if_pos hc, if_pos hc]
      rfl
    · rw [if_neg hc, if_neg hc]
      have hne : c ≠ 0 := by
        intro e
        rw [e] at hc
        exact hc rfl
      obtain ⟨h4, h5⟩ := h3 hne
      exact ih m _ s' (by rw [h2, h4]; omega) (by rw [h2, h4]; omega)

theorem ignoreLoop_is (chars : Bytes) (n m : Nat) (s : Rs) (hn : s.data.length - s.pos < n) (hm : s.data.length - s.pos < m) :
    (Prog.ignoreLoop chars n).run mem s = Rd.ignoreLoop chars m s := by
  induction n generalizing m s with
  | zero => omega
  | succ n ih =>
    obtain ⟨m, rfl⟩ : ∃ k, m = k + 1 := ⟨m - 1, by omega⟩
    obtain ⟨c, s', h1, h2, h3⟩ := char_mem s
    unfold Prog.ignoreLoop Rd.ignoreLoop
    rw [Prog.run_bind_ok h1, Rd.bind_ok (show Rd.char s = _ from h1)]
    by_cases hc : (c != 0 && chars.contains c) = true
    · rw [if_pos hc, if_pos hc]
      have hne : c ≠ 0 := by
        intro e
        rw [e] at hc
        cases hc
      obtain ⟨h4, h5⟩ := h3 hne
      exact ih m s' (by rw [h2, h4]; omega) (by rw [h2, h4]; omega)
    · rw [if_neg hc, if_neg hc]
      rfl

theorem lineLoop_fwd (n : Nat) (acc : Bytes) (s s' : Rs) (x : Bytes × Byte) (h : (Prog.lineLoop n acc).run mem s = .ok (x, s')) :
    s.pos ≤ s'.pos := by
  induction n generalizing acc s with
  | zero => cases h
  | succ n ih =>
    have e : Prog.char.run mem s = .ok
      (((mem.read 1 s).1 ++ List.replicate (1 - (mem.read 1 s).1.length) 0).headD 0, (mem.read 1 s).2) := rfl
    have hle : s.pos ≤ (mem.read 1 s).2.pos := Nat.le_add_right _ _
    unfold Prog.lineLoop at h
    rw [Prog.run_bind_ok e] at h
    split at h
    · cases h; exact hle
    · exact Nat.le_trans hle (ih _ _ h)

theorem Is.lineThenIgnore (chars : Bytes) : Is D (Prog.lineThenIgnore D chars) (Rd.lineThenIgnore chars) := by
  intro s hs
  unfold Prog.lineThenIgnore Rd.lineThenIgnore
  dsimp only
  have h1 := lineLoop_is D (s.data.length - s.pos + 1) [] s (by omega) (by omega)
  cases hp : (Prog.lineLoop D []).run mem s with
  | error e =>
    rw [h1] at hp
    rw [Rd.bind_err hp, Prog.run_bind, h1, hp]
  | ok x =>
    obtain ⟨⟨str, c⟩, s1⟩ := x
    have hd := keep_data_mem _ _ _ _ hp
    have hfwd := lineLoop_fwd _ _ _ _ _ hp
    rw [Prog.run_bind_ok hp]
    rw [h1] at hp
    rw [Rd.bind_ok hp]
    dsimp only
    rw [Rd.bind_ok (show Rd.eof s1 = .ok (decide (s1.pos ≥ s1.data.length), s1) from rfl)]
    by_cases hc : (chars.isEmpty || c == 0) = true
    · rw [if_pos hc, if_pos (by rw [hc]; rfl)]
      rfl
    rw [if_neg hc]
    have hc' : (chars.isEmpty || c == 0) = false := Bool.eq_false_iff.mpr hc
    rw [hc', Bool.false_or]
    show (if decide (s1.pos ≥ s1.data.length) then _ else _ : Prog Bytes).run mem s1 = _
    by_cases he : decide (s1.pos ≥ s1.data.length) = true
    · rw [if_pos he, if_pos he]
      rfl
    rw [if_neg he, if_neg he]
    have h2 := ignoreLoop_is chars D (s.data.length - s.pos + 1) s1 (by rw [hd]; omega) (by rw [hd]; omega)
    cases hq : (Prog.ignoreLoop chars D).run mem s1 with
    | error e =>
      rw [h2] at hq
      rw [Rd.bind_err hq, Prog.run_bind, h2, hq]
    | ok y =>
      obtain ⟨c2, s2⟩ := y
      rw [Prog.run_bind_ok hq]
      rw [h2] at hq
      rw [Rd.bind_ok hq, Rd.bind_ok (show Rd.eof s2 = .ok (decide (s2.pos ≥ s2.data.length), s2) from rfl)]
      show (if decide (s2.pos ≥ s2.data.length) && c2 == 0 then _ else _ : Prog Bytes).run mem s2 = _
      split
      · rfl
      · show Except.ok (str, mem.seek (-1) .cur s2) = _
        have : Rd.seek (-1) .cur s2 = .ok ((), mem.seek (-1) .cur s2) := by
          show (if _ then _ else _) = Except.ok ((), if _ then _ else _)
          split <;> rfl
        rw [Rd.bind_ok this]
        rfl

theorem Is.line (b : Bool) : Is D (Prog.line D b) (Rd.line b) := Is.lineThenIgnore _

theorem rd_seek (off : Int) (w : Whence) (s : Rs) : Rd.seek off w s = .ok ((), mem.seek off w s) := by
  show (if _ then _ else _) = Except.ok ((), if _ then _ else _)
  split <;> rfl

theorem Is.chunked {σ} {cb : σ → BitVec 16 → Nat → Prog (σ × Bool × Nat)} {cb' : ChunkCb σ} (h : ∀ s t n, Is D (cb s t n) (cb' s t n))
    (fuel : Nat) (s : σ) : Is D (Prog.chunked cb fuel s) (readChunkedFuel cb' fuel s) := by
  induction fuel generalizing s with
  | zero => exact fun _ _ => rfl
  | succ n ih =>
    unfold Prog.chunked readChunkedFuel
    refine (Is.word 16 2).bind fun type => (Is.word 32 4).bind fun size => ?_
    intro st hst
    rw [Rd.bind_ok (show Rd.tell st = .ok (st.pos, st) from rfl)]
    show (cb s type (st.pos + size.toNat) >>= _).run mem st = _
    refine (h s type (st.pos + size.toNat)).bind (fun x => ?_) st hst
    obtain ⟨s', done, target⟩ := x
    intro st hst
    dsimp only
    rw [Rd.bind_ok (rd_seek _ _ st)]
    show (if done then _ else _ : Prog σ).run mem (mem.seek (target : Int) .beg st) = _
    cases done with
    | true => rfl
    | false =>
      have hd : (mem.seek (target : Int) .beg st).data = st.data := by
        show (if _ then st else { st with pos := _ }).data = _
        split <;> rfl
      generalize mem.seek (target : Int) .beg st = st' at hd ⊢
      rw [if_neg (by decide), if_neg (by decide),
        Rd.bind_ok (show Rd.eof st' = .ok (decide (st'.pos ≥ st'.data.length), st') from rfl)]
      show (if decide (st'.pos ≥ st'.data.length) then _ else _ : Prog σ).run mem st' = _
      split
      · rfl
      · exact ih s' st' (by rw [hd]; exact hst)

theorem Is.date : Is D Prog.date Date.load := by
  unfold Prog.date Date.load
  exact (Is.word 32 4).bind fun _ => (Is.word 16 2).bind fun _ => (Is.word 16 2).bind fun _ => (Is.word 16 2).bind fun _ =>
    (Is.word 16 2).bind fun _ => (Is.word 16 2).bind fun _ => (Is.word 16 2).bind fun _ => .pure _

theorem Is.aabb : Is D Prog.aabb Aabb.load := by
  unfold Prog.aabb Aabb.load
  exact Is.vec3.bind fun _ => Is.vec3.bind fun _ => .pure _

theorem Is.animSample (o : SampleOps) (a b : F32) : Is D (Prog.animSample o a b) (Animation.loadSample o a b) := by
  unfold Prog.animSample Animation.loadSample
  exact (Is.word 16 2).bind fun _ => (Is.word 16 2).bind fun _ => (Is.word 16 2).bind fun _ => (Is.word 16 2).bind fun _ =>
    (Is.word 16 2).bind fun _ => (Is.word 16 2).bind fun _ => .pure _

theorem Is.animEvent : Is D (Prog.animEvent D) Animation.loadEvent := by
  unfold Prog.animEvent Animation.loadEvent
  exact (Is.word 32 4).bind fun _ => (Is.word 32 4).bind fun _ => (Is.line true).bind fun _ => ((Is.line true).times 4).bind fun _ =>
    ((Is.word 32 4).times 4).bind fun _ => (Is.word 32 4).bind fun _ => .pure _

theorem Is.animChunk (o : SampleOps) (m : Animation) (t : BitVec 16) :
    Is D (Prog.animChunk D o m t) (Animation.onChunk o m t) := by
  unfold Prog.animChunk Animation.onChunk
  split
  · exact Is.date.bind fun _ => (Is.line false).bind fun _ => (Is.line false).bind fun _ => .pure _
  split
  · exact (Is.word 16 2).bind fun _ => (Is.line false).bind fun _ => (Is.word 32 4).bind fun _ => (Is.word 32 4).bind fun _ =>
      (Is.word 32 4).bind fun _ => (Is.word 32 4).bind fun _ => (Is.word 32 4).bind fun _ => (Is.word 32 4).bind fun _ =>
      (Is.word 32 4).bind fun _ => Is.aabb.bind fun _ => (Is.line false).bind fun _ => .pure _
  split
  · exact (Is.word 32 4).bind fun _ => (Is.animEvent.times _).bind fun _ => .pure _
  split
  · exact (Is.word 32 4).bind fun _ => ((Is.word 32 4).times _).bind fun _ => ((Is.animSample o _ _).times _).bind fun _ => .pure _
  · exact .pure _

theorem Is.simpleCb {σ} {cb : σ → BitVec 16 → Prog (σ × Bool)} {cb' : σ → BitVec 16 → Rd (σ × Bool)} (h : ∀ s t, Is D (cb s t) (cb' s t))
    (s : σ) (t : BitVec 16) (n : Nat) : Is D (Prog.simpleCb cb s t n) (Verif.simpleCb cb' s t n) :=
  (h s t).bind fun _ => .pure _

/-- On memory the program is `ModelAnimation::load` as modelled before. -/
theorem animation_is (o : SampleOps) (m : Animation) (s : Rs) :
    (Prog.animation (s.data.length + 1) (s.data.length - s.pos + 1) o m).run mem s = Animation.load o m s :=
  Is.chunked (fun m t n => Is.simpleCb (fun m t => Is.animChunk o m t) m t n) _ _ s (Nat.lt_succ_self _)

theorem Is.color : Is D Prog.color Tex.Color.load := by
  unfold Prog.color Tex.Color.load
  exact (Is.word 8 1).bind fun _ => (Is.word 8 1).bind fun _ => (Is.word 8 1).bind fun _ => (Is.word 8 1).bind fun _ => .pure _

theorem Is.texLevels (f : Tex.Format) (w h : BitVec 32) (n : Nat) (acc : List Bytes) :
    Is D (Prog.texLevels f w h n acc) (Tex.loadLevels f w h n acc) := by
  induction n generalizing acc with
  | zero => exact .pure _
  | succ n ih => exact (Is.padded _).bind fun _ => ih _

theorem Is.texture (t : Tex.Texture) : Is D (Prog.texture t) t.load := by
  unfold Prog.texture Tex.Texture.load
  refine (Is.padded 4).bind fun sig => ?_
  split
  · exact fun _ _ => rfl
  refine (Is.word 32 4).bind fun version => ?_
  split
  · exact fun _ _ => rfl
  refine (Is.word 32 4).bind fun _ => (Is.word 32 4).bind fun _ => (Is.word 32 4).bind fun _ => (Is.word 32 4).bind fun _ =>
    (Is.word 32 4).bind fun _ => (Is.word 32 4).bind fun _ => (Is.word 32 4).bind fun _ => Is.bind ?_ fun _ =>
    (Is.texLevels _ _ _ _ _).bind fun _ => .pure _
  unfold Prog.texPalette Tex.loadPalette
  split
  · exact Is.color.times _
  · exact .pure _

/-- On memory the program is `Texture::load` as modelled before. -/
theorem texture_is (t : Tex.Texture) (s : Rs) : (Prog.texture t).run mem s = t.load s := Is.texture t s (Nat.lt_succ_self _)

/-! ## Programs that always end -/

/-- A stream over `D` bytes: it is always possible to read as many characters other than NUL as `left` says, and no more. -/
structure Finite {σ} (S : Src σ) (inv : σ → Prop) (left : σ → Nat) (D : Nat) : Prop where
  read : ∀ n s, inv s → inv (S.read n s).2
  seek : ∀ off w s, inv s → inv (S.seek off w s)
  bound : ∀ s, inv s → left s < D
  less : ∀ s, inv s → (S.read 1 s).1 ≠ [] → left (S.read 1 s).2 < left s

/-- On such a stream the program ends with a value. -/
def Ends {σ} (S : Src σ) (inv : σ → Prop) {α} (p : Prog α) : Prop := ∀ s, inv s → ∃ a s', p.run S s = .ok (a, s') ∧ inv s'

section
variable {σ : Type} {S : Src σ} {inv : σ → Prop} {left : σ → Nat}

theorem Ends.pure {α} (a : α) : Ends S inv (Pure.pure a : Prog α) := fun s hs => ⟨a, s, rfl, hs⟩

theorem Ends.bind {α β} {p : Prog α} (h : Ends S inv p) {f : α → Prog β} (hf : ∀ a, Ends S inv (f a)) : Ends S inv (p >>= f) := by
  intro s hs
  obtain ⟨a, s', h1, h2⟩ := h s hs
  rw [Prog.run_bind_ok h1]
  exact hf a s' h2

theorem Ends.times {α} {p : Prog α} (h : Ends S inv p) (n : Nat) : Ends S inv (p.times n) := by
  induction n with
  | zero => exact .pure _
  | succ n ih => exact h.bind fun _ => ih.bind fun _ => .pure _

theorem Ends.padded (hF : Finite S inv left D) (k : Nat) : Ends S inv (Prog.padded k) := fun s hs => ⟨_, _, rfl, hF.read k s hs⟩
theorem Ends.word (hF : Finite S inv left D) (w k : Nat) : Ends S inv (Prog.word w k) := (Ends.padded hF k).bind fun _ => .pure _
theorem Ends.vec3 (hF : Finite S inv left D) : Ends S inv Prog.vec3 := (Ends.padded hF 12).bind fun _ => .pure _

theorem char_ends (hF : Finite S inv left D) (s : σ) (hs : inv s) :
    ∃ c s', Prog.char.run S s = .ok (c, s') ∧ inv s' ∧ (c ≠ 0 → left s' < left s) := by
  have e : Prog.char.run S s = .ok
      (((S.read 1 s).1 ++ List.replicate (1 - (S.read 1 s).1.length) 0).headD 0, (S.read 1 s).2) := rfl
  refine ⟨_, _, e, hF.read 1 s hs, fun hc => ?_⟩
  apply hF.less s hs
  intro hx
  rw [hx] at hc
  exact hc rfl

theorem lineLoop_ends (hF : Finite S inv left D) (n : Nat) (acc : Bytes) (s : σ) (hs : inv s) (hn : left s < n) :
    ∃ a s', (Prog.lineLoop n acc).run S s = .ok (a, s') ∧ inv s' := by
  induction n generalizing acc s with
  | zero => omega
  | succ n ih =>
    obtain ⟨c, s', h1, h2, h3⟩ := char_ends hF s hs
    unfold Prog.lineLoop
    rw [Prog.run_bind_ok h1]
    split
    · exact ⟨_, _, rfl, h2⟩
    · rename_i hc
      have hne : c ≠ 0 := by
        intro e
        rw [e] at hc
        exact hc rfl
      exact ih _ s' h2 (by have := h3 hne; omega)

theorem ignoreLoop_ends (hF : Finite S inv left D) (chars : Bytes) (n : Nat) (s : σ) (hs : inv s) (hn : left s < n) :
    ∃ a s', (Prog.ignoreLoop chars n).run S s = .ok (a, s') ∧ inv s' := by
  induction n generalizing s with
  | zero => omega
  | succ n ih =>
    obtain ⟨c, s', h1, h2, h3⟩ := char_ends hF s hs
    unfold Prog.ignoreLoop
    rw [Prog.run_bind_ok h1]
    split
    · rename_i hc
      have hne : c ≠ 0 := by
        intro e
        rw [e] at hc
        cases hc
      exact ih s' h2 (by have := h3 hne; omega)
    · exact ⟨_, _, rfl, h2⟩

theorem Ends.line (hF : Finite S inv left D) (b : Bool) : Ends S inv (Prog.line D b) := by
  unfold Prog.line
  generalize (if b then Rd.lineSpaces else []) = chars
  unfold Prog.lineThenIgnore
  refine Ends.bind (fun s hs => lineLoop_ends hF D [] s hs (hF.bound s hs)) fun x => ?_
  dsimp only
  split
  · exact .pure _
  intro s hs
  show ∃ a s', (if S.eof s then _ else _ : Prog Bytes).run S s = .ok (a, s') ∧ inv s'
  split
  · exact ⟨_, _, rfl, hs⟩
  rename_i hq
  clear hq
  revert s
  refine Ends.bind (fun s hs => ignoreLoop_ends hF _ D s hs (hF.bound s hs)) fun c => ?_
  intro s hs
  show ∃ a s', (if S.eof s && c == 0 then _ else _ : Prog Bytes).run S s = .ok (a, s') ∧ inv s'
  split
  · exact ⟨_, _, rfl, hs⟩
  · exact ⟨_, _, rfl, hF.seek _ _ s hs⟩

theorem Ends.animChunk (hF : Finite S inv left D) (o : SampleOps) (m : Animation) (t : BitVec 16) :
    Ends S inv (Prog.animChunk D o m t) := by
  have u16 : Ends S inv Prog.u16 := .word hF _ _
  have u32 : Ends S inv Prog.u32 := .word hF _ _
  have line : ∀ b, Ends S inv (Prog.line D b) := fun b => .line hF b
  unfold Prog.animChunk
  split
  · exact (u32.bind fun _ => u16.bind fun _ => u16.bind fun _ => u16.bind fun _ => u16.bind fun _ => u16.bind fun _ =>
      u16.bind fun _ => Ends.pure _).bind fun _ => (line _).bind fun _ => (line _).bind fun _ => .pure _
  split
  · exact u16.bind fun _ => (line _).bind fun _ => u32.bind fun _ => u32.bind fun _ => u32.bind fun _ => u32.bind fun _ =>
      u32.bind fun _ => u32.bind fun _ => u32.bind fun _ => ((Ends.vec3 hF).bind fun _ => (Ends.vec3 hF).bind fun _ => .pure _).bind
      fun _ => (line _).bind fun _ => .pure _
  split
  · exact u32.bind fun _ => (Ends.times (u32.bind fun _ => u32.bind fun _ => (line _).bind fun _ => ((line _).times 4).bind fun _ =>
      (u32.times 4).bind fun _ => u32.bind fun _ => .pure _) _).bind fun _ => .pure _
  split
  · exact u32.bind fun _ => (u32.times _).bind fun _ => (Ends.times (u16.bind fun _ => u16.bind fun _ => u16.bind fun _ =>
      u16.bind fun _ => u16.bind fun _ => u16.bind fun _ => .pure _) _).bind fun _ => .pure _
  · exact .pure _

/-- On a stream that forgets about its end when asked to seek, a handler that is never done is called forever. -/
theorem chunked_forever (hF : Finite S inv left D) (heof : ∀ off w s, 0 ≤ off → w = Whence.beg → S.eof (S.seek off w s) = false)
    {τ} {cb : τ → BitVec 16 → Nat → Prog (τ × Bool × Nat)} (h : ∀ t ty n, (cb t ty n).Gives fun x => x.2.1 = false)
    (he : ∀ t ty n, Ends S inv (cb t ty n)) (fuel : Nat) (t : τ) (s : σ) (hs : inv s) :
    (Prog.chunked cb fuel t).run S s = .error .hang := by
  induction fuel generalizing t s with
  | zero => rfl
  | succ n ih =>
    obtain ⟨type, s1, h1, i1⟩ := Ends.word hF 16 2 s hs
    obtain ⟨size, s2, h2, i2⟩ := Ends.word hF 32 4 s1 i1
    obtain ⟨⟨t', done, target⟩, s3, h3, i3⟩ := he t type (S.tell s2 + size.toNat) s2 i2
    have hd : done = false := (h _ _ _).run h3
    subst hd
    unfold Prog.chunked
    rw [Prog.run_bind_ok (show Prog.u16.run S s = _ from h1), Prog.run_bind_ok (show Prog.u32.run S s1 = _ from h2)]
    show (cb t type (S.tell s2 + size.toNat) >>= _).run S s2 = _
    rw [Prog.run_bind_ok h3]
    show (if S.eof (S.seek (target : Int) .beg s3) then .ret t' else Prog.chunked cb n t' : Prog τ).run S
      (S.seek (target : Int) .beg s3) = _
    rw [heof _ _ _ (by omega) rfl, if_neg (by decide)]
    exact ih _ _ (hF.seek _ _ _ i3)

end

theorem finite_file (data : Bytes) : Finite file (fun f => f.data = data) (fun f => f.data.length - f.pos) (data.length + 1) where
  read _ _ h := h
  seek off w s h := by
    show (if _ then s else { s with pos := _, eof := false }).data = _
    split <;> exact h
  bound s h := by rw [h]; omega
  less s _ hne := by
    have hl : ((s.data.drop s.pos).take 1).length ≠ 0 := fun e => hne (List.length_eq_zero_iff.mp e)
    show s.data.length - (s.pos + ((s.data.drop s.pos).take 1).length) < _
    rw [List.length_take, List.length_drop] at hl ⊢
    omega

theorem finite_stream (data : Bytes) :
    Finite stream (fun f => f.data = data) (fun f => f.data.length - f.pos) (data.length + 1) where
  read n s h := by
    show (if _ then (_, { s with fail := true }) else (_, { s with pos := _, eof := _, fail := _ })).2.data = _
    split <;> exact h
  seek off w s h := by
    show (if _ then { s with eof := false } else if _ then { s with eof := false, fail := true }
      else { s with pos := _, eof := false } : CStream).data = _
    split
    · exact h
    · split <;> exact h
  bound s h := by rw [h]; omega
  less s _ hne := by
    by_cases hg : (s.eof || s.fail) = true
    · exact absurd (show (stream.read 1 s).1 = [] by rw [show stream.read 1 s = ([], { s with fail := true }) from if_pos hg]) hne
    · have e : stream.read 1 s = ((s.data.drop s.pos).take 1, { s with
        pos := s.pos + ((s.data.drop s.pos).take 1).length, eof := decide (((s.data.drop s.pos).take 1).length < 1),
        fail := decide (((s.data.drop s.pos).take 1).length < 1) }) := if_neg hg
      rw [e] at hne ⊢
      have hl : ((s.data.drop s.pos).take 1).length ≠ 0 := fun e => hne (List.length_eq_zero_iff.mp e)
      show s.data.length - (s.pos + ((s.data.drop s.pos).take 1).length) < _
      rw [List.length_take, List.length_drop] at hl ⊢
      omega

theorem eof_file (off : Int) (w : Whence) (s : CFile) (h : 0 ≤ off) (hw : w = .beg) : file.eof (file.seek off w s) = false := by
  subst hw
  show (if off < 0 then s else { s with pos := _, eof := false }).eof = false
  rw [if_neg (by omega)]

theorem eof_stream (off : Int) (w : Whence) (s : CStream) : stream.eof (stream.seek off w s) = false := by
  show (if _ then { s with eof := false } else if _ then { s with eof := false, fail := true }
      else { s with pos := _, eof := false } : CStream).eof = false
  split
  · rfl
  · split <;> rfl

theorem simpleCb_false {σ} {cb : σ → BitVec 16 → Prog (σ × Bool)} (h : ∀ s t, (cb s t).Gives fun x => x.2 = false) (s : σ)
    (t : BitVec 16) (n : Nat) : (Prog.simpleCb cb s t n).Gives fun x => x.2.1 = false :=
  Prog.Gives.bind' (h s t) fun _ h => h

theorem simpleCb_ends {σ τ} {S : Src σ} {inv : σ → Prop} {cb : τ → BitVec 16 → Prog (τ × Bool)} (h : ∀ s t, Ends S inv (cb s t))
    (s : τ) (t : BitVec 16) (n : Nat) : Ends S inv (Prog.simpleCb cb s t n) := (h s t).bind fun _ => .pure _

/-! ## Writing -/

/-- A good C++ stream in the state of a vector. -/
structure OutAt (o : COut) (w : Ws) : Prop where
  data : o.data = w.data
  pos : o.pos = w.pos
  good : o.fail = false

theorem splice_nil (data : Bytes) (pos : Nat) (h : pos ≤ data.length) : splice data pos [] = data := by
  unfold splice
  rw [List.length_nil, Nat.add_zero, Nat.sub_eq_zero_of_le h]
  simp

theorem splice_length (data bs : Bytes) (pos : Nat) (h : pos ≤ data.length) : pos + bs.length ≤ (splice data pos bs).length := by
  unfold splice
  simp
  omega

theorem ws_write_nil (w : Ws) (h : w.pos ≤ w.data.length) : w.write [] = w := by
  show (⟨splice w.data w.pos [], w.pos + 0⟩ : Ws) = w
  rw [splice_nil _ _ h, Nat.add_zero]

theorem WProg.cfile_run {α} (p : WProg α) (w : Ws) (hw : w.pos ≤ w.data.length) (h : p.Fine w) : p.run cfile w = p.run vector w := by
  induction p generalizing w with
  | ret a => rfl
  | write bs k ih =>
    have e : cfile.write bs w = w.write bs := by
      show (if bs = [] then w else w.write bs) = _
      split
      · rename_i hb
        rw [hb, ws_write_nil w hw]
      · rfl
    show k.run cfile (cfile.write bs w) = k.run vector (w.write bs)
    rw [e]
    exact ih _ (splice_length _ _ _ hw) h
  | seek off wh k ih =>
    obtain ⟨⟨h1, h2⟩, h3⟩ := h
    have e : cfile.seek off wh w = w.seek off wh := by
      show (if _ then w else _) = _
      rw [if_neg (by omega)]
      rfl
    show k.run cfile (cfile.seek off wh w) = k.run vector (w.seek off wh)
    rw [e]
    refine ih _ ?_ h3
    show (Rd.seekTarget _ _ _ _).toNat ≤ w.data.length
    omega
  | tell k ih => exact ih _ _ hw h

theorem WProg.ostream_run {α} (p : WProg α) (o : COut) (w : Ws) (ho : OutAt o w) (hw : w.pos ≤ w.data.length) (h : p.Fine w) :
    (p.run ostream o).1 = (p.run vector w).1 ∧ OutAt (p.run ostream o).2 (p.run vector w).2 := by
  induction p generalizing o w with
  | ret a => exact ⟨rfl, ho⟩
  | write bs k ih =>
    refine ih _ _ ?_ (splice_length _ _ _ hw) h
    show OutAt (if _ then o else _) (w.write bs)
    rw [ho.good]
    split
    · rename_i hb
      rcases hb with hb | hb
      · cases hb
      · rw [hb, ws_write_nil w hw]
        exact ho
    · refine ⟨?_, ?_, rfl⟩
      · show splice o.data o.pos bs = splice w.data w.pos bs
        rw [ho.data, ho.pos]
      · show o.pos + bs.length = w.pos + bs.length
        rw [ho.pos]
  | seek off wh k ih =>
    obtain ⟨⟨h1, h2⟩, h3⟩ := h
    have e : ostream.seek off wh o = { o with pos := (Rd.seekTarget w.pos w.data.length off wh).toNat } := by
      show (if o.fail = true then o else if _ then _ else _) = _
      rw [ho.good, ho.data, ho.pos, if_neg (by decide), if_neg (by rintro (x | ⟨_, x⟩) <;> omega)]
    refine ih _ _ ?_ ?_ h3
    · rw [e]
      exact ⟨ho.data, rfl, ho.good⟩
    · show (Rd.seekTarget _ _ _ _).toNat ≤ w.data.length
      omega
  | tell k ih =>
    have e : ostream.tell o = w.pos := by
      show (if o.fail = true then _ else o.pos) = _
      rw [ho.good, if_neg (by decide), ho.pos]
    show ((k (ostream.tell o)).run _ _).1 = _ ∧ OutAt ((k (ostream.tell o)).run _ _).2 _
    rw [e]
    exact ih _ _ _ ho hw h

theorem WProg.ostream_failed {α} (p : WProg α) (o : COut) (h : o.fail = true) : (p.run ostream o).2 = o := by
  induction p generalizing o with
  | ret a => rfl
  | write bs k ih =>
    have e : ostream.write bs o = o := if_pos (.inl h)
    show (k.run ostream (ostream.write bs o)).2 = o
    rw [e]
    exact ih _ h
  | seek off wh k ih =>
    have e : ostream.seek off wh o = o := if_pos h
    show (k.run ostream (ostream.seek off wh o)).2 = o
    rw [e]
    exact ih _ h
  | tell k ih => exact ih _ _ h

end Verif.Io
