import Verif.Spec.StreamIo
import Verif.Lemmas.Stream

/-! # Lemmas about streams over files -/

namespace Verif.Io

theorem Prog.run_bind {α β σ} (S : Src σ) (p : Prog α) (g : α → Prog β) (s : σ) :
    (p >>= g).run S s = match p.run S s with
      | .ok (a, s') => (g a).run S s'
      | .error e => .error e := by
  show (p.bind g).run S s = _
  induction p generalizing s with
  | ret a => rfl
  | fail e => rfl
  | read n k ih => exact ih _ _
  | seek off w k ih => exact ih _
  | tell k ih => exact ih _ _
  | eof k ih => exact ih _ _

theorem Prog.run_bind_ok {α β σ} {S : Src σ} {p : Prog α} {s s' : σ} {a : α} (h : p.run S s = .ok (a, s')) (g : α → Prog β) :
    (p >>= g).run S s = (g a).run S s' := by rw [run_bind, h]

theorem Prog.Gives.run {α σ} {P : α → Prop} {S : Src σ} {p : Prog α} (h : p.Gives P) {s s' : σ} {a : α}
    (e : p.run S s = .ok (a, s')) : P a := by
  induction p generalizing s with
  | ret b => cases e; exact h
  | fail _ => cases e
  | read n k ih => exact ih _ (h _) e
  | seek off w k ih => exact ih h e
  | tell k ih => exact ih _ (h _) e
  | eof k ih => exact ih _ (h _) e

theorem Prog.Gives.bind {α β} {P : β → Prop} (p : Prog α) {g : α → Prog β} (h : ∀ a, (g a).Gives P) : (p >>= g).Gives P := by
  show (p.bind g).Gives P
  induction p with
  | ret a => exact h a
  | fail _ => trivial
  | read n k ih => exact fun bs => ih bs
  | seek off w k ih => exact ih
  | tell k ih => exact fun n => ih n
  | eof k ih => exact fun b => ih b

theorem Prog.Gives.bind' {α β} {Q : α → Prop} {P : β → Prop} {p : Prog α} (hp : p.Gives Q) {g : α → Prog β}
    (h : ∀ a, Q a → (g a).Gives P) : (p >>= g).Gives P := by
  show (p.bind g).Gives P
  induction p with
  | ret a => exact h a hp
  | fail _ => trivial
  | read n k ih => exact fun bs => ih bs (hp bs)
  | seek off w k ih => exact ih hp
  | tell k ih => exact fun n => ih n (hp n)
  | eof k ih => exact fun b => ih b (hp b)

/-! ## Reading -/

theorem mem_read (n : Nat) (s : Rs) (h : s.pos ≤ s.data.length) :
    mem.read n s = ((s.data.drop s.pos).take n, { s with pos := s.pos + ((s.data.drop s.pos).take n).length }) := by
  show (_, _) = _
  by_cases hc : s.pos + n > s.data.length
  · simp only [if_pos hc, List.length_take, List.length_drop]
    rw [Nat.min_eq_right (by omega)]
    have e : (s.data.drop s.pos).take (s.data.length - s.pos) = (s.data.drop s.pos).take n := by
      rw [List.take_of_length_le (by simp), List.take_of_length_le (by simp; omega)]
    rw [e]
  · simp only [if_neg hc, List.length_take, List.length_drop]
    rw [Nat.min_eq_left (by omega)]

theorem FileAt.read {f : CFile} {s : Rs} (h : FileAt f s) (n : Nat) :
    (file.read n f).1 = (mem.read n s).1 ∧ FileAt (file.read n f).2 (mem.read n s).2 := by
  rw [mem_read n s h.inside]
  obtain ⟨hd, hp, hi, hf⟩ := h
  have hl : ((s.data.drop s.pos).take n).length = min n (s.data.length - s.pos) := by simp
  refine ⟨by show List.take n (List.drop f.pos f.data) = _; rw [hd, hp], hd, ?_, ?_, ?_⟩
  · show f.pos + (List.take n (List.drop f.pos f.data)).length = _
    rw [hd, hp]
  · show s.pos + _ ≤ s.data.length
    rw [hl]; omega
  · show (f.eof || decide ((List.take n (List.drop f.pos f.data)).length < n)) = true → s.pos + _ = s.data.length
    rw [hd, hp, hl, Bool.or_eq_true, decide_eq_true_eq]
    rintro (e | e)
    · have := hf e; omega
    · omega

theorem seekTarget_inside (s : Rs) (off : Int) (w : Whence) (h : Inside s.data (Rd.seekTarget s.pos s.data.length off w)) :
    mem.seek off w s = { s with pos := (Rd.seekTarget s.pos s.data.length off w).toNat } := by
  show (if _ then _ else _) = _
  rw [if_neg (by obtain ⟨a, b⟩ := h; omega)]

theorem FileAt.seek {f : CFile} {s : Rs} (h : FileAt f s) (off : Int) (w : Whence)
    (hi : Inside f.data (Rd.seekTarget f.pos f.data.length off w)) : FileAt (file.seek off w f) (mem.seek off w s) := by
  obtain ⟨hd, hp, hin, hf⟩ := h
  rw [hd, hp] at hi
  rw [seekTarget_inside s off w hi]
  have e : file.seek off w f = { f with pos := (Rd.seekTarget s.pos s.data.length off w).toNat, eof := false } := by
    show (if _ then _ else _) = _
    rw [hd, hp, if_neg (by obtain ⟨a, b⟩ := hi; omega)]
  rw [e]
  refine ⟨hd, rfl, ?_, fun x => by cases x⟩
  obtain ⟨a, b⟩ := hi
  show (Rd.seekTarget _ _ _ _).toNat ≤ s.data.length
  omega

theorem Prog.agree_file {α} (p : Prog α) (f : CFile) (s : Rs) (h : FileAt f s) (hf : p.FineFile f) :
    Agree FileAt (p.run file f) (p.run mem s) := by
  induction p generalizing f s with
  | ret a => exact ⟨rfl, h⟩
  | fail e => rfl
  | read n k ih =>
    obtain ⟨h1, h2⟩ := h.read n
    have := ih _ _ _ h2 hf
    rw [h1] at this
    show Agree FileAt ((k (file.read n f).1).run _ _) _
    rw [h1]
    exact this
  | seek off w k ih => exact ih _ _ (h.seek off w hf.1) hf.2
  | tell k ih =>
    have := ih _ f s h hf
    rw [h.pos] at this
    show Agree FileAt ((k f.pos).run _ _) ((k s.pos).run _ _)
    rw [h.pos]
    exact this
  | eof k ih =>
    have e : f.eof = decide (s.pos ≥ s.data.length) := by
      rcases hf.1 with x | x
      · rw [h.data, h.pos] at x
        rw [decide_eq_false (by omega)]
        cases he : f.eof with
        | false => rfl
        | true => have := h.flag he; omega
      · rw [x, h.flag x, decide_eq_true (Nat.le_refl _)]
    have := ih _ f s h hf.2
    show Agree FileAt ((k f.eof).run _ _) ((k (decide (s.pos ≥ s.data.length))).run _ _)
    rw [← e]
    exact this

theorem Prog.OnlyReads.fineFile {α} {p : Prog α} (h : p.OnlyReads) (f : CFile) : p.FineFile f := by
  induction p generalizing f with
  | ret _ => trivial
  | fail _ => trivial
  | read n k ih => exact ih _ (h _) _
  | seek _ _ _ _ => exact h.elim
  | tell _ _ => exact h.elim
  | eof _ _ => exact h.elim

theorem StreamAt.read {f : CStream} {s : Rs} (h : StreamAt f s) (n : Nat) :
    (stream.read n f).1 = (mem.read n s).1 ∧ StreamAt (stream.read n f).2 (mem.read n s).2 := by
  rw [mem_read n s h.inside]
  obtain ⟨hd, hi, hg, hf⟩ := h
  have hl : ((s.data.drop s.pos).take n).length = min n (s.data.length - s.pos) := by simp
  cases hfail : f.fail with
  | true =>
    have he := hf hfail
    have e : stream.read n f = ([], { f with fail := true }) := by
      show (if (f.eof || f.fail) = true then _ else _) = _
      rw [hfail, Bool.or_true, if_pos rfl]
    have e2 : (s.data.drop s.pos).take n = [] := by rw [he, List.drop_length, List.take_nil]
    rw [e, e2]
    exact ⟨rfl, hd, hi, fun x => (by cases x), fun _ => he⟩
  | false =>
    obtain ⟨hp, heof⟩ := hg hfail
    have e : stream.read n f = ((s.data.drop s.pos).take n,
        { f with pos := s.pos + ((s.data.drop s.pos).take n).length, eof := decide (((s.data.drop s.pos).take n).length < n),
                 fail := decide (((s.data.drop s.pos).take n).length < n) }) := by
      show (if (f.eof || f.fail) = true then _ else _) = _
      rw [hfail, heof, if_neg (by decide), hd, hp]
    rw [e]
    refine ⟨rfl, hd, ?_, ?_, ?_⟩
    · show s.pos + _ ≤ s.data.length
      rw [hl]; omega
    · exact fun x => ⟨rfl, x⟩
    · intro x
      have : ((s.data.drop s.pos).take n).length < n := of_decide_eq_true x
      show s.pos + _ = s.data.length
      omega

theorem StreamAt.seek {f : CStream} {s : Rs} (h : StreamAt f s) (off : Int) (w : Whence) (hfail : f.fail = false)
    (hi : Inside f.data (Rd.seekTarget f.pos f.data.length off w)) : StreamAt (stream.seek off w f) (mem.seek off w s) := by
  obtain ⟨hd, hin, hg, hf⟩ := h
  obtain ⟨hp, heof⟩ := hg hfail
  rw [hd, hp] at hi
  rw [seekTarget_inside s off w hi]
  obtain ⟨a, b⟩ := hi
  have e : stream.seek off w f = { f with pos := (Rd.seekTarget s.pos s.data.length off w).toNat, eof := false } := by
    show (if f.fail = true then _ else if _ then _ else _) = _
    rw [hfail, if_neg (by decide), hd, hp, if_neg (by rintro (x | ⟨_, x⟩) <;> omega)]
  rw [e]
  refine ⟨hd, ?_, fun _ => ⟨rfl, rfl⟩, fun x => ?_⟩
  · show (Rd.seekTarget _ _ _ _).toNat ≤ s.data.length
    omega
  · rw [show CStream.fail _ = f.fail from rfl, hfail] at x
    cases x

theorem Prog.agree_stream {α} (p : Prog α) (f : CStream) (s : Rs) (h : StreamAt f s) (hf : p.FineStream f) :
    Agree StreamAt (p.run stream f) (p.run mem s) := by
  induction p generalizing f s with
  | ret a => exact ⟨rfl, h⟩
  | fail e => rfl
  | read n k ih =>
    obtain ⟨h1, h2⟩ := h.read n
    have := ih _ _ _ h2 hf
    rw [h1] at this
    show Agree StreamAt ((k (stream.read n f).1).run _ _) _
    rw [h1]
    exact this
  | seek off w k ih => exact ih _ _ (h.seek off w hf.1 hf.2.1) hf.2.2
  | tell k ih =>
    have := ih _ f s h hf.2
    have e : stream.tell f = f.pos := by show (if f.fail = true then _ else _) = _; rw [hf.1, if_neg (by decide)]
    rw [(h.good hf.1).1] at this e
    show Agree StreamAt ((k (stream.tell f)).run _ _) ((k s.pos).run _ _)
    rw [e]
    exact this
  | eof k ih =>
    have e : f.eof = decide (s.pos ≥ s.data.length) := by
      rcases hf.1 with ⟨x, y⟩ | x
      · obtain ⟨hp, he⟩ := h.good x
        rw [h.data, hp] at y
        rw [he, decide_eq_false (by omega)]
      · have : f.fail = true := by
          cases hx : f.fail with
          | true => rfl
          | false => have := (h.good hx).2; rw [x] at this; cases this
        rw [x, h.failed this, decide_eq_true (Nat.le_refl _)]
    have := ih _ f s h hf.2
    show Agree StreamAt ((k f.eof).run _ _) ((k (decide (s.pos ≥ s.data.length))).run _ _)
    rw [← e]
    exact this

theorem Prog.OnlyReads.fineStream {α} {p : Prog α} (h : p.OnlyReads) (f : CStream) : p.FineStream f := by
  induction p generalizing f with
  | ret _ => trivial
  | fail _ => trivial
  | read n k ih => exact ih _ (h _) _
  | seek _ _ _ _ => exact h.elim
  | tell _ _ => exact h.elim
  | eof _ _ => exact h.elim

theorem Prog.OnlyReads.bind {α β} {p : Prog α} (hp : p.OnlyReads) {g : α → Prog β} (h : ∀ a, (g a).OnlyReads) :
    (p >>= g).OnlyReads := by
  show (p.bind g).OnlyReads
  induction p with
  | ret a => exact h a
  | fail _ => trivial
  | read n k ih => exact fun bs => ih bs (hp bs)
  | seek _ _ _ _ => exact hp.elim
  | tell _ _ => exact hp.elim
  | eof _ _ => exact hp.elim

theorem onlyReads_padded (k : Nat) : (Prog.padded k).OnlyReads := fun _ => trivial
theorem onlyReads_word (w k : Nat) : (Prog.word w k).OnlyReads := fun _ => trivial
theorem onlyReads_char : Prog.char.OnlyReads := fun _ => trivial

theorem onlyReads_times {α} {p : Prog α} (h : p.OnlyReads) (n : Nat) : (Prog.times p n).OnlyReads := by
  induction n with
  | zero => trivial
  | succ n ih => exact h.bind fun _ => ih.bind fun _ => trivial

theorem onlyReads_lineLoop (fuel : Nat) (acc : Bytes) : (Prog.lineLoop fuel acc).OnlyReads := by
  induction fuel generalizing acc with
  | zero => trivial
  | succ n ih =>
    refine onlyReads_char.bind fun c => ?_
    split
    · trivial
    · exact ih _

theorem onlyReads_ignoreLoop (chars : Bytes) (fuel : Nat) : (Prog.ignoreLoop chars fuel).OnlyReads := by
  induction fuel with
  | zero => trivial
  | succ n ih =>
    refine onlyReads_char.bind fun c => ?_
    split
    · exact ih
    · trivial

theorem onlyReads_color : Prog.color.OnlyReads :=
  (onlyReads_word _ _).bind fun _ => (onlyReads_word _ _).bind fun _ => (onlyReads_word _ _).bind fun _ =>
    (onlyReads_word _ _).bind fun _ => trivial

theorem onlyReads_texLevels (f : Tex.Format) (w h : BitVec 32) (n : Nat) (acc : List Bytes) :
    (Prog.texLevels f w h n acc).OnlyReads := by
  induction n generalizing acc with
  | zero => trivial
  | succ n ih => exact (onlyReads_padded _).bind fun _ => ih _

theorem onlyReads_texture (t : Tex.Texture) : (Prog.texture t).OnlyReads := by
  refine (onlyReads_padded _).bind fun sig => ?_
  split
  · trivial
  refine (onlyReads_word _ _).bind fun version => ?_
  split
  · trivial
  refine (onlyReads_word _ _).bind fun _ => (onlyReads_word _ _).bind fun _ => (onlyReads_word _ _).bind fun _ =>
    (onlyReads_word _ _).bind fun _ => (onlyReads_word _ _).bind fun _ => (onlyReads_word _ _).bind fun _ =>
    (onlyReads_word _ _).bind fun _ => Prog.OnlyReads.bind ?_ fun _ => (onlyReads_texLevels _ _ _ _ _).bind fun _ => trivial
  unfold Prog.texPalette
  split
  · exact onlyReads_times onlyReads_color _
  · trivial

end Verif.Io
