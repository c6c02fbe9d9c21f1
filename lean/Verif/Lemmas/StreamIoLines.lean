import Verif.Lemmas.StreamIo

/-! # Lines and chunks on all streams -/

namespace Verif.Io

/-! ## Lines -/

theorem char_file (f : CFile) : ∃ c f', Prog.char.run file f = .ok (c, f') ∧ f'.data = f.data ∧
    (c = 0 → f'.eof = true ∨ (f'.pos = f.pos + 1 ∧ f.data[f.pos]? = some 0)) := by
  have e : Prog.char.run file f = .ok
      ((((f.data.drop f.pos).take 1) ++ List.replicate (1 - ((f.data.drop f.pos).take 1).length) 0).headD 0, (file.read 1 f).2) := rfl
  refine ⟨_, _, e, rfl, ?_⟩
  intro h0
  cases hx : f.data.drop f.pos with
  | nil =>
    left
    show (f.eof || decide (((f.data.drop f.pos).take 1).length < 1)) = true
    rw [hx]
    simp
  | cons b bs =>
    right
    rw [hx] at h0
    have hb : b = 0 := h0
    refine ⟨?_, ?_⟩
    · show f.pos + ((f.data.drop f.pos).take 1).length = _
      rw [hx]
      rfl
    · have : (f.data.drop f.pos)[0]? = some b := by rw [hx]; rfl
      rw [List.getElem?_drop, Nat.add_zero] at this
      rw [this, hb]

theorem ignoreLoop_file (chars : Bytes) (fuel : Nat) (f f' : CFile) (c : Byte)
    (h : (Prog.ignoreLoop chars fuel).run file f = .ok (c, f')) (hc : c = 0) :
    f'.eof = true ∨ ∃ k, f'.pos = k + 1 ∧ f.data[k]? = some 0 := by
  induction fuel generalizing f with
  | zero => cases h
  | succ n ih =>
    obtain ⟨c', f1, h1, h2, h3⟩ := char_file f
    unfold Prog.ignoreLoop at h
    rw [Prog.run_bind_ok h1] at h
    split at h
    · have := ih f1 h
      rw [h2] at this
      exact this
    · cases h
      rcases h3 hc with x | x
      · exact .inl x
      · exact .inr ⟨_, x⟩

theorem Agree.ok_left {α σ τ} {R : σ → τ → Prop} {x : Except Fail (α × σ)} {y : Except Fail (α × τ)} (h : Agree R x y) {a : α} {s : σ}
    (e : x = .ok (a, s)) : ∃ t, y = .ok (a, t) ∧ R s t := by
  subst e
  match y, h with
  | .ok (b, t), ⟨h1, h2⟩ => exact ⟨t, by rw [h1], h2⟩

theorem Agree.error_left {α σ τ} {R : σ → τ → Prop} {x : Except Fail (α × σ)} {y : Except Fail (α × τ)} (h : Agree R x y) {e : Fail}
    (hx : x = .error e) : y = .error e := by
  subst hx
  match y, h with
  | .error _, h => exact congrArg Except.error (Eq.symm h)

/-- Going back by one byte. -/
theorem FileAt.back {f : CFile} {s : Rs} (h : FileAt f s) : FileAt (file.seek (-1) .cur f) (mem.seek (-1) .cur s) := by
  by_cases hp : s.pos = 0
  · have e1 : file.seek (-1) .cur f = f := by
      show (if ((f.pos : Int) + -1) < 0 then _ else _) = _
      rw [h.pos, if_pos (by omega)]
    have e2 : mem.seek (-1) .cur s = s := by
      exact if_pos (Or.inl (show ((s.pos : Int) + -1) < 0 by omega))
    rw [e1, e2]
    exact h
  · refine h.seek (-1) .cur ?_
    show (0 : Int) ≤ (f.pos : Int) + -1 ∧ (f.pos : Int) + -1 ≤ f.data.length
    have := h.inside
    rw [h.data, h.pos]
    omega

theorem keep_data_mem {α} (p : Prog α) (s s' : Rs) (a : α) (h : p.run mem s = .ok (a, s')) : s'.data = s.data := by
  induction p generalizing s with
  | ret b => cases h; rfl
  | fail _ => cases h
  | read n k ih => exact ih (mem.read n s).1 (mem.read n s).2 h
  | seek off w k ih =>
    have := ih _ (show k.run mem (mem.seek off w s) = _ from h)
    rw [this]
    show (if _ then s else { s with pos := _ }).data = _
    split <;> rfl
  | tell k ih => exact ih _ _ (show (k (mem.tell s)).run mem s = _ from h)
  | eof k ih => exact ih _ _ (show (k (mem.eof s)).run mem s = _ from h)

/-- Lines are the same from a file, unless the file ends with a NUL. -/
theorem line_file (fuel : Nat) (chars : Bytes) (f : CFile) (s : Rs) (h : FileAt f s) (h0 : s.data.getLast? ≠ some 0) :
    Agree FileAt ((Prog.lineThenIgnore fuel chars).run file f) ((Prog.lineThenIgnore fuel chars).run mem s) := by
  unfold Prog.lineThenIgnore
  have h1 := (Prog.lineLoop fuel []).agree_file f s h ((onlyReads_lineLoop fuel []).fineFile f)
  cases hf : (Prog.lineLoop fuel []).run file f with
  | error e =>
    rw [Prog.run_bind, hf, Prog.run_bind, h1.error_left hf]
    rfl
  | ok x =>
    obtain ⟨⟨str, c⟩, f1⟩ := x
    obtain ⟨s1, hs, h2⟩ := h1.ok_left hf
    have hd1 := keep_data_mem _ _ _ _ hs
    rw [Prog.run_bind_ok hf, Prog.run_bind_ok hs]
    dsimp only
    by_cases hc : (chars.isEmpty || c == 0) = true
    · rw [if_pos hc]
      exact ⟨rfl, h2⟩
    rw [if_neg hc]
    show Agree FileAt ((if f1.eof then _ else _ : Prog Bytes).run file f1) ((if decide (s1.pos ≥ s1.data.length) then _ else _ : Prog Bytes).run mem s1)
    have hfuel : ∃ m, fuel = m + 1 := by
      cases fuel with
      | zero => cases hf
      | succ m => exact ⟨m, rfl⟩
    cases he : f1.eof with
    | true =>
      rw [if_pos rfl, if_pos (by rw [h2.flag he]; simp)]
      exact ⟨rfl, h2⟩
    | false =>
      rw [if_neg (by decide)]
      by_cases hend : s1.pos ≥ s1.data.length
      · rw [if_pos (decide_eq_true hend)]
        -- the file must be asked for one more byte
        obtain ⟨m, rfl⟩ := hfuel
        have hdrop : f1.data.drop f1.pos = [] := by rw [h2.data, h2.pos]; exact List.drop_eq_nil_of_le hend
        have e : Prog.char.run file f1 = .ok (0, { f1 with eof := true }) := by
          show Except.ok ((((f1.data.drop f1.pos).take 1) ++ List.replicate (1 - ((f1.data.drop f1.pos).take 1).length) 0).headD 0,
            ({ f1 with pos := f1.pos + ((f1.data.drop f1.pos).take 1).length,
                       eof := f1.eof || decide (((f1.data.drop f1.pos).take 1).length < 1) } : CFile)) = _
          rw [hdrop]
          simp
        have e2 : (Prog.ignoreLoop chars (m + 1)).run file f1 = .ok (0, { f1 with eof := true }) := by
          unfold Prog.ignoreLoop
          rw [Prog.run_bind_ok e]
          rfl
        rw [Prog.run_bind_ok e2]
        show Agree FileAt (.ok (str, _)) _
        exact ⟨rfl, h2.data, h2.pos, h2.inside, fun _ => Nat.le_antisymm h2.inside hend⟩
      · rw [if_neg (by simpa using hend)]
        have g1 := (Prog.ignoreLoop chars fuel).agree_file f1 s1 h2 ((onlyReads_ignoreLoop chars fuel).fineFile f1)
        cases hg : (Prog.ignoreLoop chars fuel).run file f1 with
        | error e =>
          rw [Prog.run_bind, hg, Prog.run_bind, g1.error_left hg]
          rfl
        | ok y =>
          obtain ⟨c2, f2⟩ := y
          obtain ⟨s2, gs, g2⟩ := g1.ok_left hg
          have hd2 := keep_data_mem _ _ _ _ gs
          rw [Prog.run_bind_ok hg, Prog.run_bind_ok gs]
          show Agree FileAt ((if f2.eof && c2 == 0 then _ else _ : Prog Bytes).run file f2)
            ((if decide (s2.pos ≥ s2.data.length) && c2 == 0 then _ else _ : Prog Bytes).run mem s2)
          by_cases hc2 : c2 = 0
          · have : (f2.eof && c2 == 0) = (decide (s2.pos ≥ s2.data.length) && c2 == 0) := by
              rcases ignoreLoop_file chars fuel f1 f2 c2 hg hc2 with x | ⟨k, x, y⟩
              · rw [x, g2.flag x]; simp
              · have hlt : ¬ s2.pos ≥ s2.data.length := by
                  intro hge
                  apply h0
                  rw [List.getLast?_eq_getElem?, ← hd1, ← hd2, ← y, h2.data, hd2]
                  have : s2.data.length = k + 1 := by
                    have := g2.inside
                    have := g2.pos
                    omega
                  rw [← hd2, this]
                  rfl
                cases hx : f2.eof with
                | false => rw [decide_eq_false hlt]
                | true => exact absurd (Nat.le_of_eq (g2.flag hx).symm) hlt
            rw [this]
            split
            · exact ⟨rfl, g2⟩
            · exact ⟨rfl, g2.back⟩
          · have z : (c2 == 0) = false := by simpa using hc2
            rw [z, Bool.and_false, Bool.and_false]
            exact ⟨rfl, g2.back⟩

/-! ### C++ streams -/

theorem char_stream (f : CStream) : ∃ c f', Prog.char.run stream f = .ok (c, f') ∧ f'.data = f.data ∧
    (f'.fail = true → c = 0 ∧ (f.fail = false → f'.eof = true)) ∧
    (c = 0 → f'.fail = false → f'.pos = f.pos + 1 ∧ f.data[f.pos]? = some 0) := by
  by_cases hg : (f.eof || f.fail) = true
  · refine ⟨0, { f with fail := true }, ?_, rfl, fun _ => ⟨rfl, ?_⟩, fun _ x => (by cases x)⟩
    · show Except.ok _ = _
      have : stream.read 1 f = ([], { f with fail := true }) := if_pos hg
      rw [this]
      rfl
    · intro hf
      rw [hf, Bool.or_false] at hg
      exact hg
  · have e : stream.read 1 f = ((f.data.drop f.pos).take 1, { f with
        pos := f.pos + ((f.data.drop f.pos).take 1).length, eof := decide (((f.data.drop f.pos).take 1).length < 1),
        fail := decide (((f.data.drop f.pos).take 1).length < 1) }) := if_neg hg
    cases hx : f.data.drop f.pos with
    | nil =>
      rw [hx] at e
      refine ⟨0, { f with eof := true, fail := true }, ?_, rfl, fun _ => ⟨rfl, fun _ => rfl⟩, fun _ x => (by cases x)⟩
      show Except.ok _ = _
      rw [e]
      rfl
    | cons b bs =>
      rw [hx] at e
      refine ⟨b, { f with pos := f.pos + 1, eof := false, fail := false }, ?_, rfl, fun x => (by cases x), fun hb _ => ⟨rfl, ?_⟩⟩
      · show Except.ok _ = _
        rw [e]
        rfl
      · have : (f.data.drop f.pos)[0]? = some b := by rw [hx]; rfl
        rw [List.getElem?_drop, Nat.add_zero] at this
        rw [this, hb]

/-- After a loop that ended with another character than NUL the stream is good. -/
theorem lineLoop_stream (fuel : Nat) (acc str : Bytes) (f f' : CStream) (c : Byte)
    (h : (Prog.lineLoop fuel acc).run stream f = .ok ((str, c), f')) (hc : c ≠ 0) : f'.fail = false := by
  induction fuel generalizing f acc with
  | zero => cases h
  | succ n ih =>
    obtain ⟨c', f1, h1, h2, h3, h4⟩ := char_stream f
    unfold Prog.lineLoop at h
    rw [Prog.run_bind_ok h1] at h
    split at h
    · cases h
      cases hf : f'.fail with
      | false => rfl
      | true => exact absurd (h3 hf).1 hc
    · exact ih _ f1 h

theorem ignoreLoop_stream (chars : Bytes) (fuel : Nat) (f f' : CStream) (c : Byte) (hgood : f.fail = false)
    (h : (Prog.ignoreLoop chars fuel).run stream f = .ok (c, f')) :
    (f'.fail = true → c = 0 ∧ f'.eof = true) ∧ (c = 0 → f'.fail = false → ∃ k, f'.pos = k + 1 ∧ f.data[k]? = some 0) := by
  induction fuel generalizing f with
  | zero => cases h
  | succ n ih =>
    obtain ⟨c', f1, h1, h2, h3, h4⟩ := char_stream f
    unfold Prog.ignoreLoop at h
    rw [Prog.run_bind_ok h1] at h
    split at h
    · rename_i hcond
      have hne : c' ≠ 0 := by
        intro e
        rw [e] at hcond
        simp at hcond
      have hf1 : f1.fail = false := by
        cases hx : f1.fail with
        | false => rfl
        | true => exact absurd (h3 hx).1 hne
      have := ih f1 hf1 h
      rw [h2] at this
      exact this
    · cases h
      exact ⟨fun x => ⟨(h3 x).1, (h3 x).2 hgood⟩, fun x y => ⟨_, h4 x y⟩⟩

theorem StreamAt.back {f : CStream} {s : Rs} (h : StreamAt f s) (hg : f.fail = false) (hp : s.pos ≠ 0) :
    StreamAt (stream.seek (-1) .cur f) (mem.seek (-1) .cur s) := by
  refine h.seek (-1) .cur hg ?_
  show (0 : Int) ≤ (f.pos : Int) + -1 ∧ (f.pos : Int) + -1 ≤ f.data.length
  have := h.inside
  rw [h.data, (h.good hg).1]
  omega

theorem char_advances (s : Rs) (c : Byte) (s' : Rs) (h : Prog.char.run mem s = .ok (c, s')) (hc : c ≠ 0) : s'.pos ≠ 0 := by
  have e : Prog.char.run mem s = .ok
      (((mem.read 1 s).1 ++ List.replicate (1 - (mem.read 1 s).1.length) 0).headD 0, (mem.read 1 s).2) := rfl
  rw [e] at h
  cases h
  show s.pos + (if s.pos + 1 > s.data.length then s.data.length - s.pos else 1) ≠ 0
  by_cases hx : s.pos + 1 > s.data.length
  · exfalso
    apply hc
    have : (mem.read 1 s).1 = [] := by
      show (s.data.drop s.pos).take _ = []
      rw [List.drop_eq_nil_of_le (by omega), List.take_nil]
    rw [this]
    rfl
  · rw [if_neg hx]; omega

theorem ignoreLoop_pos (chars : Bytes) (fuel : Nat) (s s' : Rs) (c : Byte)
    (h : (Prog.ignoreLoop chars fuel).run mem s = .ok (c, s')) : s'.pos ≠ 0 ∨ s.pos = 0 := by
  have mono : ∀ n (s s' : Rs) (c : Byte), (Prog.ignoreLoop chars n).run mem s = .ok (c, s') → s.pos ≤ s'.pos := by
    intro n
    induction n with
    | zero => intro s s' c h; cases h
    | succ n ih =>
      intro s s' c h
      have e : Prog.char.run mem s = .ok
        (((mem.read 1 s).1 ++ List.replicate (1 - (mem.read 1 s).1.length) 0).headD 0, (mem.read 1 s).2) := rfl
      unfold Prog.ignoreLoop at h
      rw [Prog.run_bind_ok e] at h
      have hle : s.pos ≤ (mem.read 1 s).2.pos := Nat.le_add_right _ _
      split at h
      · exact Nat.le_trans hle (ih _ _ _ h)
      · cases h; exact hle
  have := mono _ _ _ _ h
  omega

/-- Lines are the same from a C++ stream that is good, unless the bytes end with a NUL. -/
theorem line_stream (fuel : Nat) (chars : Bytes) (f : CStream) (s : Rs) (h : StreamAt f s)
    (h0 : s.data.getLast? ≠ some 0) :
    Agree StreamAt ((Prog.lineThenIgnore fuel chars).run stream f) ((Prog.lineThenIgnore fuel chars).run mem s) := by
  unfold Prog.lineThenIgnore
  have h1 := (Prog.lineLoop fuel []).agree_stream f s h ((onlyReads_lineLoop fuel []).fineStream f)
  cases hf : (Prog.lineLoop fuel []).run stream f with
  | error e =>
    rw [Prog.run_bind, hf, Prog.run_bind, h1.error_left hf]
    rfl
  | ok x =>
    obtain ⟨⟨str, c⟩, f1⟩ := x
    obtain ⟨s1, hs, h2⟩ := h1.ok_left hf
    have hd1 := keep_data_mem _ _ _ _ hs
    rw [Prog.run_bind_ok hf, Prog.run_bind_ok hs]
    dsimp only
    by_cases hc : (chars.isEmpty || c == 0) = true
    · rw [if_pos hc]
      exact ⟨rfl, h2⟩
    rw [if_neg hc]
    have hcne : c ≠ 0 := by
      intro e
      rw [e] at hc
      simp at hc
    have hg1 := lineLoop_stream _ _ _ _ _ _ hf hcne
    obtain ⟨hp1, he1⟩ := h2.good hg1
    show Agree StreamAt ((if f1.eof then _ else _ : Prog Bytes).run stream f1)
      ((if decide (s1.pos ≥ s1.data.length) then _ else _ : Prog Bytes).run mem s1)
    have hfuel : ∃ m, fuel = m + 1 := by
      cases fuel with
      | zero => cases hf
      | succ m => exact ⟨m, rfl⟩
    rw [he1, if_neg (by decide)]
    by_cases hend : s1.pos ≥ s1.data.length
    · rw [if_pos (decide_eq_true hend)]
      obtain ⟨m, rfl⟩ := hfuel
      have hdrop : f1.data.drop f1.pos = [] := by rw [h2.data, hp1]; exact List.drop_eq_nil_of_le hend
      have e0 : stream.read 1 f1 = ([], { f1 with eof := true, fail := true }) := by
        have : stream.read 1 f1 = ((f1.data.drop f1.pos).take 1, { f1 with
          pos := f1.pos + ((f1.data.drop f1.pos).take 1).length, eof := decide (((f1.data.drop f1.pos).take 1).length < 1),
          fail := decide (((f1.data.drop f1.pos).take 1).length < 1) }) := if_neg (by rw [he1, hg1]; decide)
        rw [this, hdrop]
        rfl
      have e : Prog.char.run stream f1 = .ok (0, { f1 with eof := true, fail := true }) := by
        show Except.ok _ = _
        rw [e0]
        rfl
      have e2 : (Prog.ignoreLoop chars (m + 1)).run stream f1 = .ok (0, { f1 with eof := true, fail := true }) := by
        unfold Prog.ignoreLoop
        rw [Prog.run_bind_ok e]
        rfl
      rw [Prog.run_bind_ok e2]
      show Agree StreamAt (.ok (str, _)) _
      exact ⟨rfl, h2.data, h2.inside, fun x => (by cases x), fun _ => Nat.le_antisymm h2.inside hend⟩
    · rw [if_neg (by simpa using hend)]
      have g1 := (Prog.ignoreLoop chars fuel).agree_stream f1 s1 h2 ((onlyReads_ignoreLoop chars fuel).fineStream f1)
      cases hg : (Prog.ignoreLoop chars fuel).run stream f1 with
      | error e =>
        rw [Prog.run_bind, hg, Prog.run_bind, g1.error_left hg]
        rfl
      | ok y =>
        obtain ⟨c2, f2⟩ := y
        obtain ⟨s2, gs, g2⟩ := g1.ok_left hg
        have hd2 := keep_data_mem _ _ _ _ gs
        obtain ⟨k1, k2⟩ := ignoreLoop_stream chars fuel f1 f2 c2 hg1 hg
        rw [Prog.run_bind_ok hg, Prog.run_bind_ok gs]
        show Agree StreamAt ((if f2.eof && c2 == 0 then _ else _ : Prog Bytes).run stream f2)
          ((if decide (s2.pos ≥ s2.data.length) && c2 == 0 then _ else _ : Prog Bytes).run mem s2)
        cases hfl : f2.fail with
        | true =>
          obtain ⟨z1, z2⟩ := k1 hfl
          rw [z2, z1, g2.failed hfl]
          simp only [ge_iff_le, Nat.le_refl, decide_true]
          exact ⟨rfl, g2⟩
        | false =>
          obtain ⟨hp2, he2⟩ := g2.good hfl
          have pos1 : s1.pos ≠ 0 := by
            obtain ⟨m, rfl⟩ := hfuel
            -- the loop has read a character other than NUL
            have adv : ∀ n acc (s s' : Rs) (str : Bytes) (c : Byte), (Prog.lineLoop n acc).run mem s = .ok ((str, c), s') → c ≠ 0 →
                s'.pos ≠ 0 := by
              intro n
              induction n with
              | zero => intro acc s s' str c h; cases h
              | succ n ih =>
                intro acc s s' str c h hne
                have e : Prog.char.run mem s = .ok
                  (((mem.read 1 s).1 ++ List.replicate (1 - (mem.read 1 s).1.length) 0).headD 0, (mem.read 1 s).2) := rfl
                unfold Prog.lineLoop at h
                rw [Prog.run_bind_ok e] at h
                split at h
                · cases h
                  exact char_advances s _ _ e hne
                · exact ih _ _ _ _ _ h hne
            exact adv _ _ _ _ _ _ hs hcne
          have pos2 : s2.pos ≠ 0 := by
            rcases ignoreLoop_pos _ _ _ _ _ gs with x | x
            · exact x
            · exact absurd x pos1
          rw [he2, Bool.false_and]
          have : (decide (s2.pos ≥ s2.data.length) && c2 == 0) = false := by
            by_cases hc2 : c2 = 0
            · obtain ⟨k, x, y⟩ := k2 hc2 hfl
              have hlt : ¬ s2.pos ≥ s2.data.length := by
                intro hge
                apply h0
                rw [List.getLast?_eq_getElem?, ← hd1, ← hd2, ← y, h2.data, hd2]
                have : s2.data.length = k + 1 := by
                  have := g2.inside
                  omega
                rw [← hd2, this]
                rfl
              rw [decide_eq_false hlt, Bool.false_and]
            · rw [show (c2 == 0) = false by simpa using hc2, Bool.and_false]
          rw [this]
          exact ⟨rfl, g2.back hfl pos2⟩

/-! ## Chunks -/

theorem chunked_file {σ} (cb : σ → BitVec 16 → Nat → Prog (σ × Bool × Nat)) (h : ∀ s t n, (cb s t n).Gives fun x => x.2.1 = false)
    (fuel : Nat) (s : σ) (f : CFile) (r : σ × CFile) : (Prog.chunked cb fuel s).run file f ≠ .ok r := by
  induction fuel generalizing s f with
  | zero => intro e; cases e
  | succ n ih =>
    unfold Prog.chunked
    rw [Prog.run_bind]
    cases h1 : Prog.u16.run file f with
    | error e => intro x; cases x
    | ok x =>
      obtain ⟨type, f1⟩ := x
      dsimp only
      rw [Prog.run_bind]
      cases h2 : Prog.u32.run file f1 with
      | error e => intro x; cases x
      | ok x =>
        obtain ⟨size, f2⟩ := x
        dsimp only
        show (cb s type (file.tell f2 + size.toNat) >>= _).run file f2 ≠ _
        rw [Prog.run_bind]
        cases h3 : (cb s type (file.tell f2 + size.toNat)).run file f2 with
        | error e => intro x; cases x
        | ok x =>
          obtain ⟨⟨s', done, target⟩, f3⟩ := x
          have hd : done = false := (h _ _ _).run h3
          subst hd
          show (if (file.seek (target : Int) .beg f3).eof then .ret s' else Prog.chunked cb n s' : Prog σ).run file
            (file.seek (target : Int) .beg f3) ≠ _
          have e : (file.seek (target : Int) .beg f3).eof = false := by
            show (if (target : Int) < 0 then f3 else { f3 with pos := _, eof := false }).eof = false
            rw [if_neg (by omega)]
          rw [e, if_neg (by decide)]
          exact ih _ _

theorem chunked_stream {σ} (cb : σ → BitVec 16 → Nat → Prog (σ × Bool × Nat)) (h : ∀ s t n, (cb s t n).Gives fun x => x.2.1 = false)
    (fuel : Nat) (s : σ) (f : CStream) (r : σ × CStream) : (Prog.chunked cb fuel s).run stream f ≠ .ok r := by
  induction fuel generalizing s f with
  | zero => intro e; cases e
  | succ n ih =>
    unfold Prog.chunked
    rw [Prog.run_bind]
    cases h1 : Prog.u16.run stream f with
    | error e => intro x; cases x
    | ok x =>
      obtain ⟨type, f1⟩ := x
      dsimp only
      rw [Prog.run_bind]
      cases h2 : Prog.u32.run stream f1 with
      | error e => intro x; cases x
      | ok x =>
        obtain ⟨size, f2⟩ := x
        dsimp only
        show (cb s type (stream.tell f2 + size.toNat) >>= _).run stream f2 ≠ _
        rw [Prog.run_bind]
        cases h3 : (cb s type (stream.tell f2 + size.toNat)).run stream f2 with
        | error e => intro x; cases x
        | ok x =>
          obtain ⟨⟨s', done, target⟩, f3⟩ := x
          have hd : done = false := (h _ _ _).run h3
          subst hd
          show (if (stream.seek (target : Int) .beg f3).eof then .ret s' else Prog.chunked cb n s' : Prog σ).run stream
            (stream.seek (target : Int) .beg f3) ≠ _
          have e : (stream.seek (target : Int) .beg f3).eof = false := by
            show (if f3.fail = true then { f3 with eof := false } else if _ then { f3 with eof := false, fail := true }
              else { f3 with pos := _, eof := false } : CStream).eof = false
            split
            · rfl
            · split <;> rfl
          rw [e, if_neg (by decide)]
          exact ih _ _

/-- The loader of animations is never done. -/
theorem animChunk_false (fuel : Nat) (o : SampleOps) (m : Animation) (type : BitVec 16) :
    (Prog.animChunk fuel o m type).Gives fun x => x.2 = false := by
  unfold Prog.animChunk
  split
  · refine .bind _ fun _ => .bind _ fun _ => .bind _ fun _ => rfl
  split
  · refine .bind _ fun _ => .bind _ fun _ => .bind _ fun _ => .bind _ fun _ => .bind _ fun _ => .bind _ fun _ => .bind _ fun _ =>
      .bind _ fun _ => .bind _ fun _ => .bind _ fun _ => .bind _ fun _ => rfl
  split
  · refine .bind _ fun _ => .bind _ fun _ => rfl
  split
  · refine .bind _ fun _ => .bind _ fun _ => .bind _ fun _ => rfl
  · rfl

end Verif.Io
