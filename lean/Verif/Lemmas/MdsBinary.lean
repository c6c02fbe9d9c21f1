import Verif.Model.MdsBinary
import Verif.Spec.MdsBinary
import Verif.Lemmas.MdsItems
import Verif.Lemmas.Chunked
import Verif.Lemmas.ArchiveHeader
import Verif.Lemmas.ArchiveAscii
import Verif.Lemmas.Font

/-! # Lemmas about compiled model scripts -/

namespace Verif

open Spec (Chunk)

/-- The program gives `a` when it starts at `bs`, whatever follows; it may leave the stream anywhere. -/
def Takes {α} (p : Rd α) (bs : Bytes) (a : α) : Prop :=
  ∀ pre post : Bytes, ∃ pos', p ⟨pre ++ bs ++ post, pre.length⟩ = .ok (a, ⟨pre ++ bs ++ post, pos'⟩)

theorem Reads.takes {α} {p : Rd α} {bs : Bytes} {a : α} (h : Reads p bs a) : Takes p bs a := fun pre post => ⟨_, h pre post⟩

theorem Takes.bind {α β} {p : Rd α} {f : α → Rd β} {bs cs : Bytes} {a : α} {b : β} (h : Reads p bs a) (g : Takes (f a) cs b) :
    Takes (p >>= f) (bs ++ cs) b := by
  intro pre post
  obtain ⟨pos, e⟩ := g (pre ++ bs) post
  refine ⟨pos, ?_⟩
  have h := h pre (cs ++ post)
  rw [show pre ++ bs ++ (cs ++ post) = pre ++ (bs ++ cs) ++ post by simp] at h
  rw [show pre ++ bs ++ cs ++ post = pre ++ (bs ++ cs) ++ post by simp, List.length_append] at e
  rw [Rd.bind_ok h, e]

theorem Takes.map {α β} {p : Rd α} {f : α → Rd β} {bs : Bytes} {a : α} {b : β} (h : Takes p bs a) (g : ∀ s, f a s = .ok (b, s)) :
    Takes (p >>= f) bs b := by
  intro pre post
  obtain ⟨pos, e⟩ := h pre post
  exact ⟨pos, by rw [Rd.bind_ok e, g]⟩

theorem Handles.of_takes {σ} {cb : σ → BitVec 16 → Rd (σ × Bool)} {s s' : σ} {t : BitVec 16} {bs rest : Bytes} {done : Bool}
    (h : Takes (cb s t) bs (s', done)) (hl : (bs ++ rest).length < 2 ^ 32) :
    Handles (simpleCb cb) s ⟨t, bs ++ rest⟩ s' done := by
  refine ⟨hl, fun pre post => ?_⟩
  obtain ⟨pos, e⟩ := h (pre ++ (encW 2 t ++ encW 4 (BitVec.ofNat 32 (bs ++ rest).length))) (rest ++ post)
  refine ⟨pos, ?_⟩
  unfold simpleCb
  have e1 : pre ++ (encW 2 t ++ encW 4 (BitVec.ofNat 32 (bs ++ rest).length)) ++ bs ++ (rest ++ post) =
      pre ++ chunkBytes t (bs ++ rest) ++ post := by simp [chunkBytes]
  have e2 : (pre ++ (encW 2 t ++ encW 4 (BitVec.ofNat 32 (bs ++ rest).length))).length = pre.length + 6 := by simp
  rw [e1, e2] at e
  rw [Rd.bind_ok e]
  rfl

/-- A line with what `read_line(true)` ignores behind it. -/
theorem Takes.line (v : Bytes) (hv : NoEol v) : Takes (Rd.line true) (v ++ [10]) v := by
  intro pre post
  generalize hdata : pre ++ (v ++ [10]) ++ post = data
  have hlen : data.length = pre.length + v.length + 1 + post.length := by rw [← hdata]; simp; omega
  have hd : data.drop pre.length = v ++ 10 :: post := by rw [← hdata]; simp
  have hd2 : data.drop (pre.length + v.length) = 10 :: post := by rw [← List.drop_drop, hd]; simp
  unfold Rd.line Rd.lineThenIgnore
  simp only
  rw [Rd.bind_ok (lineLoop_eq data _ pre.length [] (by omega))]
  simp only [List.nil_append, hd, lineOf_noEol v _ hv 10 rfl, hd2, List.headD_cons]
  have hlt : pre.length + v.length < data.length := by omega
  simp only [hlt, if_true]
  rw [Rd.bind_ok (show Rd.eof _ = .ok (decide (pre.length + v.length + 1 ≥ data.length), _) from rfl)]
  by_cases heof : pre.length + v.length + 1 ≥ data.length
  · rw [decide_eq_true heof, Bool.or_true, if_pos rfl]
    exact ⟨_, rfl⟩
  · have hce : Rd.lineSpaces.isEmpty = false := rfl
    rw [decide_eq_false heof, hce, Bool.or_false, if_neg (by simp)]
    rw [Rd.bind_ok (ignoreLoop_eq Rd.lineSpaces data _ _ (by omega) (by omega))]
    generalize (data.drop (pre.length + v.length + 1 + (ignoredOf Rd.lineSpaces (data.drop (pre.length + v.length + 1))).length)).headD 0 = c
    generalize hq : (if pre.length + v.length + 1 + (ignoredOf Rd.lineSpaces (data.drop (pre.length + v.length + 1))).length < data.length
      then pre.length + v.length + 1 + (ignoredOf Rd.lineSpaces (data.drop (pre.length + v.length + 1))).length + 1 else data.length) = q
    have hq1 : 1 ≤ q := by rw [← hq]; split <;> omega
    have hq2 : q ≤ data.length := by rw [← hq]; split <;> omega
    have he1 : Rd.eof ⟨data, q⟩ = .ok (decide (q ≥ data.length), ⟨data, q⟩) := rfl
    rw [Rd.bind_ok he1]
    split
    · exact ⟨_, rfl⟩
    · have hs : Rd.seek (-1) .cur ⟨data, q⟩ = .ok ((), ⟨data, q - 1⟩) := Rd.seek_ok (by simp [Rd.seekTarget]; omega) (by omega)
      rw [Rd.bind_ok hs]
      exact ⟨_, rfl⟩

/-- The handler goes through a list of chunks without being done. -/
inductive ChunkAll {σ} (cb : ChunkCb σ) : σ → List Chunk → σ → Prop
  | nil {s} : ChunkAll cb s [] s
  | cons {s s' s'' c cs} (h : Handles cb s c s' false) (hs : ChunkAll cb s' cs s'') : ChunkAll cb s (c :: cs) s''

theorem readChunkedFuel_all {σ} {cb : ChunkCb σ} {s s' : σ} {cs : List Chunk} (h : ChunkAll cb s cs s') (hne : cs ≠ []) (pre : Bytes)
    (fuel : Nat) (hf : cs.length ≤ fuel) :
    readChunkedFuel cb fuel s ⟨pre ++ chunksBytes cs, pre.length⟩ =
      .ok (s', ⟨pre ++ chunksBytes cs, (pre ++ chunksBytes cs).length⟩) := by
  induction h generalizing pre fuel with
  | nil => exact absurd rfl hne
  | cons hh hs ih =>
    rename_i s s' s'' c cs
    cases fuel with
    | zero => simp at hf
    | succ fuel =>
      obtain ⟨hl, hcb⟩ := hh
      rw [chunksBytes_cons]
      obtain ⟨pos', hcb⟩ := hcb pre (chunksBytes cs)
      have hr := Reads.header c.type (BitVec.ofNat 32 c.payload.length) pre (c.payload ++ chunksBytes cs)
      have e : pre ++ (encW 2 c.type ++ encW 4 (BitVec.ofNat 32 c.payload.length)) ++ (c.payload ++ chunksBytes cs) =
        pre ++ (chunkBytes c.type c.payload ++ chunksBytes cs) := by simp [chunkBytes]
      rw [e] at hr
      rw [List.append_assoc] at hcb
      have hsz : (BitVec.ofNat 32 c.payload.length).toNat = c.payload.length := by simp; omega
      simp only [readChunkedFuel]
      rw [Rd.bind_ok hr.1, Rd.bind_ok hr.2, Rd.bind_ok (show Rd.tell _ = .ok (pre.length + 6, _) from rfl), hsz, Rd.bind_ok hcb]
      dsimp only
      rw [Rd.bind_ok (Rd.seek_beg (by simp [chunkBytes_length]; omega))]
      simp only [Bool.false_eq_true, if_false]
      cases cs with
      | nil =>
        cases hs
        rw [Rd.bind_ok (show Rd.eof _ = .ok (true, _) by
          simp only [Rd.eof]
          rw [decide_eq_true]
          simp [chunkBytes_length, chunksBytes]; omega)]
        simp [chunkBytes_length, chunksBytes, Nat.add_assoc]
      | cons d ds =>
        rw [Rd.bind_ok (show Rd.eof _ = .ok (false, _) by
          simp only [Rd.eof]
          rw [decide_eq_false]
          simp [chunkBytes_length, chunksBytes_cons]; omega)]
        simp only [Bool.false_eq_true, if_false]
        have := ih (by simp) (pre ++ chunkBytes c.type c.payload) fuel (by simpa using hf)
        have e4 : (pre ++ chunkBytes c.type c.payload).length = pre.length + 6 + c.payload.length := by
          simp [chunkBytes_length]; omega
        rw [List.append_assoc, e4] at this
        rw [this]

theorem readChunked_all {σ} {cb : ChunkCb σ} {s s' : σ} {cs : List Chunk} (h : ChunkAll cb s cs s') (hne : cs ≠ []) (pre : Bytes) :
    readChunked cb s ⟨pre ++ chunksBytes cs, pre.length⟩ = .ok (s', ⟨pre ++ chunksBytes cs, (pre ++ chunksBytes cs).length⟩) := by
  unfold readChunked
  refine readChunkedFuel_all h hne pre _ ?_
  have : ∀ cs : List Chunk, cs.length ≤ (chunksBytes cs).length := by
    intro cs
    induction cs with
    | nil => simp
    | cons c cs ih => rw [chunksBytes_cons]; simp [chunkBytes_length]; omega
  have := this cs
  simp only [List.length_append]
  omega

namespace Mds

theorem _root_.Verif.Takes.nil {α} {p : Rd α} {a : α} (h : ∀ s, p s = .ok (a, s)) : Takes p [] a := fun pre post => ⟨pre.length, by rw [h]⟩

theorem _root_.Verif.Takes.last {α β} {p : Rd α} {f : α → Rd β} {bs : Bytes} {a : α} {b : β} (h : Reads p bs a) (g : ∀ s, f a s = .ok (b, s)) :
    Takes (p >>= f) bs b := Takes.map h.takes g

theorem noEol_framesText : ∀ vs : List (BitVec 32), NoEol (framesText vs)
  | [] => by simp [framesText, NoEol]
  | [v] => Ar.Asc.noEol_decInt _
  | v :: w :: vs => by
    have h1 := Ar.Asc.noEol_decInt v.toInt
    have h2 := noEol_framesText (w :: vs)
    have e : framesText (v :: w :: vs) = decInt v.toInt ++ 32 :: framesText (w :: vs) := rfl
    rw [e]
    intro c hc
    simp only [List.mem_append, List.mem_cons] at hc
    rcases hc with hc | rfl | hc
    · exact h1 c hc
    · decide
    · exact h2 c hc

theorem framesLoopB_eq : ∀ (vs : List (BitVec 32)) (v : BitVec 32) (fuel : Nat) (s : Bytes) (fr : BitVec 32) (acc : List (BitVec 32)),
    vs.length < fuel → (s = framesText (v :: vs) ∨ s = 32 :: framesText (v :: vs)) →
    framesLoopB fuel s fr acc = .ok (acc ++ v :: vs)
  | _, _, 0, _, _, _, hf, _ => by simp at hf
  | [], v, fuel + 1, s, fr, acc, hf, hs => by
    have h1 := BitVec.toInt_lt (x := v)
    have h2 := BitVec.le_toInt v
    have hst : strtol s = some (v.toInt, []) := by
      rcases hs with rfl | rfl
      · exact strtol_decInt' _
      · rw [strtol_space]; exact strtol_decInt' _
    rw [framesLoopB, extractInt_of hst (by omega) (by omega)]
    simp
  | w :: vs, v, fuel + 1, s, fr, acc, hf, hs => by
    have h1 := BitVec.toInt_lt (x := v)
    have h2 := BitVec.le_toInt v
    have e : framesText (v :: w :: vs) = decInt v.toInt ++ 32 :: framesText (w :: vs) := rfl
    have hst : strtol s = some (v.toInt, 32 :: framesText (w :: vs)) := by
      have := strtol_decInt v.toInt (32 :: framesText (w :: vs)) (by simp; decide)
      rcases hs with rfl | rfl
      · rw [e, this]
      · rw [strtol_space, e, this]
    rw [framesLoopB, extractInt_of hst (by omega) (by omega)]
    simp only [List.isEmpty_cons, if_false, Bool.false_eq_true]
    rw [framesLoopB_eq vs w fuel _ _ _ (by simp at hf; omega) (.inr rfl)]
    simp

theorem modify_last (f : Animation → Animation) : ∀ (l : List Animation) (i : Nat), i + 1 = l.length → l.modify i f = onLast f l
  | [], _, h => by simp at h
  | [a], i, h => by
    have : i = 0 := by simpa using h
    subst this; rfl
  | a :: b :: as, i, h => by
    obtain ⟨j, rfl⟩ : ∃ j, i = j + 1 := ⟨i - 1, by simp at h; omega⟩
    rw [List.modify_succ_cons, modify_last f (b :: as) j (by simpa using h)]
    rfl

theorem onLast_length (f : Animation → Animation) : ∀ l, (onLast f l).length = l.length
  | [] => rfl
  | [_] => rfl
  | _ :: b :: as => by simp [onLast, onLast_length f (b :: as)]

theorem atAni_eq (s : Script) (i : BitVec 32) (f : Animation → Animation) (h : i.toNat + 1 = s.animations.length) (r : Rs) :
    atAni (s, i) f r = .ok (((s.last f, i), false), r) := by
  unfold atAni Script.last
  rw [if_pos (by simp only; omega)]
  simp only [modify_last f s.animations i.toNat h]
  rfl

theorem dirOf_eq (d : Bytes) : dirOf d = dirB d := by
  cases d with
  | nil => rfl
  | cons c r =>
    unfold dirOf dirB
    by_cases h : c = 82
    · subst h; rfl
    · simp only [List.head?_cons, Option.some.injEq, h, if_false]
      split
      · rename_i e; exact absurd (List.cons.inj e).1 h
      · rfl

theorem _root_.Verif.Takes.two {a b : Bytes} (ha : NoEol a) (hb : NoEol b) (hs : ∃ c r, b = c :: r ∧ c ∉ [32, 9, 13, 10, 11, 12]) {β}
    {f : Bytes → Rd β} {x : β} (g : Takes (f a) (ln b) x) : Takes (Rd.line true >>= f) (ln a ++ ln b) x := by
  intro pre post
  obtain ⟨c, r, rfl, hc⟩ := hs
  obtain ⟨pos, e⟩ := g (pre ++ ln a) post
  refine ⟨pos, ?_⟩
  have h := ReadsIf.lineWs a ha pre (ln (c :: r) ++ post) ⟨fun d rest hd => by
    simp only [ln, List.cons_append, List.cons.injEq] at hd
    rw [← hd.1]; simpa [Rd.lineSpaces] using hc, by simp [ln]⟩
  rw [show pre ++ (a ++ [10]) ++ (ln (c :: r) ++ post) = pre ++ (ln a ++ ln (c :: r)) ++ post by simp [ln]] at h
  rw [show pre ++ ln a ++ ln (c :: r) ++ post = pre ++ (ln a ++ ln (c :: r)) ++ post by simp, List.length_append] at e
  rw [Rd.bind_ok h]
  exact e

theorem _root_.Verif.Takes.skip {α} {p : Rd α} {a : α} (bs : Bytes) (h : ∀ s, p s = .ok (a, s)) : Takes p bs a := fun pre post => ⟨pre.length, by rw [h]⟩

theorem _root_.Verif.Takes.more {α} {p : Rd α} {bs cs : Bytes} {a : α} (h : Takes p bs a) : Takes p (bs ++ cs) a := by
  intro pre post
  obtain ⟨pos, e⟩ := h pre (cs ++ post)
  refine ⟨pos, ?_⟩
  rw [show pre ++ (bs ++ cs) ++ post = pre ++ bs ++ (cs ++ post) by simp]
  exact e

theorem msbArgs_takes (f : BitVec 32) (t : Bytes) (as : Args) (hf : ¬ FrameType (typeOf t)) (ha : as.OkFor (typeOf t)) :
    Takes (msbArgs { frame := f, type := typeOf t }) as.enc (tagB f t as) := by
  unfold tagB
  generalize typeOf t = ty at *
  cases as with
  | none =>
    obtain ⟨h1, h2⟩ := ha
    cases ty <;> first
      | exact absurd (by decide) h1
      | exact absurd rfl h2
      | exact absurd (by decide) hf
      | exact Takes.nil fun _ => rfl
  | one a =>
    obtain ⟨h1, h2⟩ := ha
    cases ty <;> first
      | exact absurd (by decide) h2
      | exact absurd (by decide) hf
      | exact Takes.skip _ fun _ => rfl
      | exact Takes.map (Takes.line a h1) fun _ => rfl
      | exact Takes.map (Takes.line a h1) fun _ => by rw [modeOf_eq]; rfl
  | two a b =>
    obtain ⟨h1, h2, h3⟩ := ha
    cases ty <;> first
      | exact absurd (by decide) hf
      | exact Takes.two h1 h2 (h3 (by decide)) (Takes.map (Takes.line b h2) fun _ => rfl)
      | exact Takes.skip _ fun _ => rfl
      | exact Takes.more (Takes.map (Takes.line a h1) fun _ => rfl)
      | exact Takes.more (Takes.map (Takes.line a h1) fun _ => by rw [modeOf_eq]; rfl)

theorem msbArgs_frames (f : BitVec 32) (t : Bytes) (vs : List (BitVec 32)) (hf : FrameType (typeOf t)) (hv : vs ≠ []) :
    Takes (msbArgs { frame := f, type := typeOf t }) (ln (framesText vs)) { frame := f, type := typeOf t, frames := vs } := by
  obtain ⟨v, vs, rfl⟩ := List.exists_cons_of_ne_nil hv
  have hl := framesText_length (v :: vs)
  have hfr : framesLoopB ((framesText (v :: vs)).length + 1) (framesText (v :: vs)) 0 [] = .ok (v :: vs) :=
    framesLoopB_eq vs v _ _ 0 [] (by simp at hl; omega) (.inl rfl)
  unfold msbArgs
  generalize typeOf t = ty at *
  cases ty <;> first
    | exact absurd hf (by decide)
    | exact Takes.map (Takes.line _ (noEol_framesText _)) fun _ => by simp only [hfr]; rfl

/-- The number of the last animation. -/
def Piece.next (i : BitVec 32) (p : Piece) : BitVec 32 := if p.isAni then i + 1 else i

theorem Piece.takes (s : Script) (i : BitVec 32) (p : Piece) (hp : p.Ok) (hi : p.isEvent = true → i.toNat + 1 = s.animations.length) :
    Takes (msbChunk (s, i) p.type) p.enc ((p.apply s, p.next i), false) := by
  cases p with
  | skeleton d n => exact Takes.bind (Reads.u32 d) (Takes.last (Reads.lineLf n hp) fun _ => rfl)
  | mesh n => exact Takes.map (Takes.line n hp) fun _ => rfl
  | ani c d f l fps sp cvs =>
    obtain ⟨⟨h1, h2, h3, h4⟩, h5⟩ := hp
    have e : (Piece.ani c d f l fps sp cvs).enc =
      ln c.name ++ (encW 4 c.layer ++ (ln c.next ++ (encW 4 c.blendIn ++ (encW 4 c.blendOut ++ (ln c.flags ++ (ln c.model ++
        (ln d ++ (encW 4 f ++ (encW 4 l ++ (encW 4 fps ++ (encW 4 sp ++ encW 4 cvs))))))))))) := by simp [Piece.enc, CommonB.enc]
    rw [e]
    exact Takes.bind (Reads.lineLf _ h1) (Takes.bind (Reads.u32 _) (Takes.bind (Reads.lineLf _ h2) (Takes.bind (Reads.u32 _)
      (Takes.bind (Reads.u32 _) (Takes.bind (Reads.lineLf _ h3) (Takes.bind (Reads.lineLf _ h4) (Takes.bind (Reads.lineLf _ h5)
      (Takes.bind (Reads.u32 _) (Takes.bind (Reads.u32 _) (Takes.bind (Reads.u32 _) (Takes.bind (Reads.u32 _)
      (Takes.last (Reads.u32 _) fun _ => by rw [flagsOf_eq, dirOf_eq]; rfl))))))))))))
  | alias_ c d =>
    obtain ⟨⟨h1, h2, h3, h4⟩, h5⟩ := hp
    have e : (Piece.alias_ c d).enc =
      ln c.name ++ (encW 4 c.layer ++ (ln c.next ++ (encW 4 c.blendIn ++ (encW 4 c.blendOut ++ (ln c.flags ++ (ln c.model ++
        ln d)))))) := by simp [Piece.enc, CommonB.enc]
    rw [e]
    exact Takes.bind (Reads.lineLf _ h1) (Takes.bind (Reads.u32 _) (Takes.bind (Reads.lineLf _ h2) (Takes.bind (Reads.u32 _)
      (Takes.bind (Reads.u32 _) (Takes.bind (Reads.lineLf _ h3) (Takes.bind (Reads.lineLf _ h4)
      (Takes.last (Reads.lineLf _ h5) fun _ => by rw [flagsOf_eq, dirOf_eq]; rfl)))))))
  | blend n x a b =>
    exact Takes.bind (Reads.lineLf _ hp.1) (Takes.bind (Reads.lineLf _ hp.2) (Takes.bind (Reads.u32 _) (Takes.last (Reads.u32 _) fun _ => rfl)))
  | comb c l =>
    obtain ⟨h1, h2, h3, h4⟩ := hp
    have e : (Piece.comb c l).enc =
      ln c.name ++ (encW 4 c.layer ++ (ln c.next ++ (encW 4 c.blendIn ++ (encW 4 c.blendOut ++ (ln c.flags ++ (ln c.model ++
        encW 4 l)))))) := by simp [Piece.enc, CommonB.enc]
    rw [e]
    exact Takes.bind (Reads.lineLf _ h1) (Takes.bind (Reads.u32 _) (Takes.bind (Reads.lineLf _ h2) (Takes.bind (Reads.u32 _)
      (Takes.bind (Reads.u32 _) (Takes.bind (Reads.lineLf _ h3) (Takes.bind (Reads.lineLf _ h4)
      (Takes.last (Reads.u32 _) fun _ => by rw [flagsOf_eq]; rfl)))))))
  | disable n => exact Takes.last (Reads.lineLf n hp) fun _ => rfl
  | modelTag f t b => exact Takes.bind (Reads.u32 _) (Takes.bind (Reads.lineLf _ hp.1) (Takes.map (Takes.line _ hp.2) fun _ => rfl))
  | tag f t as =>
    have h := msbArgs_takes f t as hp.2.1 hp.2.2
    exact Takes.bind (Reads.u32 _) (Takes.bind (Reads.lineLf _ hp.1) (Takes.map (by rw [typeOf_eq]; exact h) fun r => atAni_eq s i _ (hi rfl) r))
  | frames f t vs =>
    have h := msbArgs_frames f t vs hp.2.1 hp.2.2
    exact Takes.bind (Reads.u32 _) (Takes.bind (Reads.lineLf _ hp.1) (Takes.map (by rw [typeOf_eq]; exact h) fun r => atAni_eq s i _ (hi rfl) r))
  | sfx f n r sl =>
    have h : Reads msbSfx (encW 4 f ++ (ln n ++ (encW 4 r ++ encW 4 sl))) ⟨f, n, r, decide (sl ≠ 0)⟩ :=
      Reads.bind (Reads.u32 _) (Reads.bind (Reads.lineLf _ hp) (Reads.bind (Reads.u32 _) (Reads.bind_pure (Reads.u32 _))))
    exact Takes.last h fun r => atAni_eq s i _ (hi rfl) r
  | sfxGround f n r sl =>
    have h : Reads msbSfx (encW 4 f ++ (ln n ++ (encW 4 r ++ encW 4 sl))) ⟨f, n, r, decide (sl ≠ 0)⟩ :=
      Reads.bind (Reads.u32 _) (Reads.bind (Reads.lineLf _ hp) (Reads.bind (Reads.u32 _) (Reads.bind_pure (Reads.u32 _))))
    exact Takes.last h fun r => atAni_eq s i _ (hi rfl) r
  | pfx f ix n po at_ =>
    exact Takes.bind (Reads.u32 _) (Takes.bind (Reads.u32 _) (Takes.bind (Reads.lineLf _ hp.1) (Takes.bind (Reads.lineLf _ hp.2)
      (Takes.last (Reads.u32 _) fun r => atAni_eq s i _ (hi rfl) r))))
  | pfxStop f ix => exact Takes.bind (Reads.u32 _) (Takes.last (Reads.u32 _) fun r => atAni_eq s i _ (hi rfl) r)
  | morph f a n x y =>
    exact Takes.bind (Reads.u32 _) (Takes.bind (Reads.lineLf _ hp.1) (Takes.bind (Reads.lineLf _ hp.2) (Takes.bind (Reads.u32 _)
      (Takes.last (Reads.u32 _) fun r => atAni_eq s i _ (hi rfl) r))))
  | tremor f a b c d =>
    exact Takes.bind (Reads.u32 _) (Takes.bind (Reads.u32 _) (Takes.bind (Reads.u32 _) (Takes.bind (Reads.u32 _)
      (Takes.last (Reads.u32 _) fun r => atAni_eq s i _ (hi rfl) r))))
  | root x q => exact Takes.bind (Reads.u32 _) (Takes.last (Reads.lineLf _ hp) fun _ => rfl)
  | source d q => exact Takes.bind (Reads.date _) (Takes.last (Reads.lineLf _ hp) fun _ => rfl)
  | events x => exact Takes.last (Reads.u32 _) fun _ => rfl
  | other t =>
    refine Takes.nil fun r => ?_
    simp only [Piece.Ok, Piece.known, List.mem_cons, List.not_mem_nil, or_false, not_or] at hp
    have h0 := hp.1
    have h := hp.2
    show msbChunk (s, i) t r = _
    simp only [msbChunk, h0, h, if_false]
    rfl

theorem Piece.next_length (s : Script) (i : BitVec 32) (p : Piece) (hi : i + 1 = BitVec.ofNat 32 s.animations.length) :
    p.next i + 1 = BitVec.ofNat 32 (p.apply s).animations.length := by
  cases p
  case ani =>
    simp only [Piece.next, Piece.isAni, Piece.apply, if_true, hi, List.length_append, List.length_cons, List.length_nil]
    rw [BitVec.ofNat_add]; rfl
  all_goals simpa only [Piece.next, Piece.isAni, Piece.apply, Script.last, onLast_length, if_false, Bool.false_eq_true] using hi

theorem index_of {i : BitVec 32} {n : Nat} (h : i + 1 = BitVec.ofNat 32 n) (h0 : 0 < n) (hn : n < 2 ^ 32) : i.toNat + 1 = n := by
  have : i = BitVec.ofNat 32 n - 1 := by rw [← h]; exact (BitVec.add_sub_cancel i 1).symm
  subst this
  simp [BitVec.toNat_sub]
  omega

theorem Piece.apply_animations (s : Script) (p : Piece) :
    (p.apply s).animations.length = s.animations.length + (if p.isAni then 1 else 0) := by
  cases p <;> simp [Piece.isAni, Piece.apply, Script.last, onLast_length]

theorem runAll : ∀ (ps : List (Piece × Bytes)) (s : Script) (i : BitVec 32), i + 1 = BitVec.ofNat 32 s.animations.length →
    (∀ p ∈ ps, p.1.Ok) → (∀ p ∈ ps, (p.1.enc ++ p.2).length < 2 ^ 32) →
    (∀ pre p post, ps.map (·.1) = pre ++ p :: post → p.isEvent = true → s.animations = [] → ∃ a ∈ pre, a.isAni = true) →
    s.animations.length + (ps.filter (·.1.isAni)).length < 2 ^ 32 →
    ∃ j, ChunkAll (simpleCb msbChunk) (s, i) (ps.map fun p => ⟨p.1.type, p.1.enc ++ p.2⟩) (ps.foldl (fun s p => p.1.apply s) s, j)
  | [], s, i, _, _, _, _, _ => ⟨i, .nil⟩
  | p :: ps, s, i, hi, hok, hl, ho, hn => by
    have hlen := Piece.apply_animations s p.1
    have hev : p.1.isEvent = true → i.toNat + 1 = s.animations.length := by
      intro he
      refine index_of hi ?_ (by omega)
      refine List.length_pos_iff.2 fun h0 => ?_
      obtain ⟨a, ha, _⟩ := ho [] p.1 _ rfl he h0
      simp at ha
    have h1 : Handles (simpleCb msbChunk) (s, i) ⟨p.1.type, p.1.enc ++ p.2⟩ (p.1.apply s, p.1.next i) false :=
      Handles.of_takes (Piece.takes s i p.1 (hok p (by simp)) hev) (hl p (by simp))
    obtain ⟨j, hj⟩ := runAll ps (p.1.apply s) (p.1.next i) (Piece.next_length s i p.1 hi) (fun q hq => hok q (by simp [hq]))
      (fun q hq => hl q (by simp [hq]))
      (fun pre q post e he h0 => by
        have hs : s.animations = [] := by
          have : (p.1.apply s).animations.length = 0 := by rw [h0]; rfl
          exact List.eq_nil_of_length_eq_zero (by omega)
        obtain ⟨a, ha, hb⟩ := ho (p.1 :: pre) q post (by rw [List.map_cons, e]; rfl) he hs
        rcases List.mem_cons.1 ha with rfl | ha
        · rw [h0, hb] at hlen; simp at hlen
        · exact ⟨a, ha, hb⟩)
      (by
        rw [List.filter_cons] at hn
        split at hn <;> rename_i hb
        · rw [hb] at hlen; simp at hlen hn ⊢; omega
        · rw [Bool.not_eq_true] at hb; rw [hb] at hlen; simp at hlen; omega)
    exact ⟨j, .cons h1 hj⟩

theorem fileOf_eq (ps : List (Piece × Bytes)) : fileOf ps = chunksBytes (ps.map fun p => ⟨p.1.type, p.1.enc ++ p.2⟩) := by
  unfold fileOf chunksBytes
  rw [List.flatMap_def, List.map_map]
  rfl

theorem loadBinary_eq (ps : List (Piece × Bytes)) (hne : ps ≠ []) (s : Script) (hs : s.animations = []) (hok : ∀ p ∈ ps, p.1.Ok)
    (hl : ∀ p ∈ ps, (p.1.enc ++ p.2).length < 2 ^ 32) (ho : Ordered (ps.map (·.1))) (hn : (ps.filter (·.1.isAni)).length < 2 ^ 32)
    (pre : Bytes) :
    loadBinary s ⟨pre ++ fileOf ps, pre.length⟩ =
      .ok (ps.foldl (fun s p => p.1.apply s) s, ⟨pre ++ fileOf ps, (pre ++ fileOf ps).length⟩) := by
  obtain ⟨j, h⟩ := runAll ps s (-1) (by rw [hs]; rfl) hok hl (fun a p b e he _ => ho a p b e he) (by rw [hs]; simpa using hn)
  have := readChunked_all h (by simpa using hne) pre
  rw [← fileOf_eq] at this
  unfold loadBinary
  rw [Rd.bind_ok this]
  rfl

/-! ## The compiled form of a source -/

theorem onLast_append (f : Animation → Animation) (a : Animation) : ∀ l : List Animation, onLast f (l ++ [a]) = l ++ [f a]
  | [] => rfl
  | [b] => rfl
  | b :: c :: l => by
    have := onLast_append f a (c :: l)
    simp only [List.cons_append] at this ⊢
    rw [onLast, this]

theorem tagB_eq (f : BitVec 32) (t : Bytes) (as : Args)
    (h : typeOf t ∈ [EventType.hitDirection, .soundDraw, .soundUndraw, .munitionRemove, .itemDestroy, .torchInventory, .itemRemove] →
      as.first = []) : tagB f t as = tagOf f t as false := by
  unfold tagB tagOf
  generalize typeOf t = ty at *
  cases ty <;> first
    | rfl
    | (rw [h (by decide)]; rfl)

theorem flag_ne (b : Bool) : decide (flag b ≠ 0) = b := by cases b <;> decide

theorem Event.piece_apply (s : Script) (l : List Animation) (a : Animation) (hs : s.animations = l ++ [a]) (e : Event) (he : e.Plain) :
    e.piece.apply s = { s with animations := l ++ [e.apply a] } := by
  cases e with
  | tag k f t as at_ h =>
    obtain ⟨rfl, h2⟩ := he
    simp only [Event.piece, Piece.apply, Script.last, hs, onLast_append, tagB_eq _ t as h2]
    rfl
  | frames k f t vs ex at_ h hv =>
    cases he
    simp only [Event.piece, Piece.apply, Script.last, hs, onLast_append]
    rfl
  | sfx k f n r sl =>
    simp only [Event.piece, Piece.apply, Script.last, hs, onLast_append, flag_ne]
    rfl
  | pfx k f i n p at_ =>
    simp only [Event.piece, Piece.apply, Script.last, hs, onLast_append, flag_ne]
    rfl
  | sfxGround | pfxStop | morph | tremor =>
    simp only [Event.piece, Piece.apply, Script.last, hs, onLast_append]
    rfl

theorem Event.pieces_apply (l : List Animation) : ∀ (es : List Event) (s : Script) (a : Animation), s.animations = l ++ [a] →
    (∀ e ∈ es, e.Plain) → (es.map Event.piece).foldl Piece.apply s = { s with animations := l ++ [es.foldl Event.apply a] }
  | [], s, a, hs, _ => by simp [← hs]
  | e :: es, s, a, hs, he => by
    rw [List.map_cons, List.foldl_cons, Event.piece_apply s l a hs e (he e (by simp)), 
      Event.pieces_apply l es { s with animations := l ++ [e.apply a] } (e.apply a) rfl (fun x hx => he x (by simp [hx]))]
    rfl

theorem dirB_name (d : Dir) : dirB (dirName d) = d := by cases d <;> rfl

theorem Item.pieces_apply (s : Script) (i : Item) (hi : i.Plain) : i.pieces.foldl Piece.apply s = i.apply s := by
  cases i with
  | ani k a =>
    rw [Item.pieces, List.foldl_cons, Event.pieces_apply s.animations a.events _ _ rfl hi]
    simp only [Piece.apply, Item.apply, AniSrc.value, Common.bin, dirB_name]
  | alias_ k c d =>
    simp only [Item.pieces, List.foldl_cons, List.foldl_nil, Piece.apply, Item.apply, Common.bin, dirB_name]
    cases d <;> rfl
  | _ => rfl

theorem items_apply : ∀ (is : List Item) (s : Script), (∀ i ∈ is, i.Plain) → (is.flatMap Item.pieces).foldl Piece.apply s = is.foldl Item.apply s
  | [], _, _ => rfl
  | i :: is, s, h => by
    rw [List.flatMap_cons, List.foldl_append, Item.pieces_apply s i (h i (by simp)), items_apply is _ (fun x hx => h x (by simp [hx])),
      List.foldl_cons]

theorem Top.pieces_apply (s : Script) (t : Top) (ht : t.Plain) : t.pieces.foldl Piece.apply s = t.apply s := by
  cases t with
  | meshAndTree k n d => simp only [Top.pieces, List.foldl_cons, List.foldl_nil, Piece.apply, Top.apply, flag_ne]
  | registerMesh k n => rfl
  | aniEnum k is => exact items_apply is s ht

theorem tops_apply : ∀ (ts : List Top) (s : Script), (∀ t ∈ ts, t.Plain) → (ts.flatMap Top.pieces).foldl Piece.apply s = ts.foldl Top.apply s
  | [], _, _ => rfl
  | t :: ts, s, h => by
    rw [List.flatMap_cons, List.foldl_append, Top.pieces_apply s t (h t (by simp)), tops_apply ts _ (fun x hx => h x (by simp [hx])),
      List.foldl_cons]

theorem single_mem {q p : Piece} {pre post : List Piece} (e : [q] = pre ++ p :: post) : p = q := by
  have : p ∈ [q] := by rw [e]; simp
  simpa using this

/-- The pieces of an item put every event behind an animation. -/
theorem Item.pieces_ordered (i : Item) : Ordered i.pieces := by
  intro pre p post e he
  cases i with
  | ani k a =>
    cases pre with
    | nil =>
      rw [List.nil_append] at e
      have := (List.cons.inj e).1
      rw [← this] at he
      cases he
    | cons q pre =>
      have := (List.cons.inj e).1
      exact ⟨q, by simp, by rw [← this]; rfl⟩
  | blend | alias_ | comb | disable | modelTag =>
    exact absurd he (by rw [single_mem e]; simp [Piece.isEvent])

theorem Ordered.append {a b : List Piece} (ha : Ordered a) (hb : Ordered b) : Ordered (a ++ b) := by
  intro pre p post e he
  rcases List.append_eq_append_iff.1 e with ⟨c, rfl, rfl⟩ | ⟨c, rfl, e2⟩
  · obtain ⟨x, hx, hy⟩ := hb c p post rfl he
    exact ⟨x, by simp [hx], hy⟩
  · cases c with
    | nil =>
      obtain ⟨x, hx, _⟩ := hb [] p post (by simpa using e2.symm) he
      simp at hx
    | cons q c =>
      have h := (List.cons.inj e2)
      obtain ⟨x, hx, hy⟩ := ha pre p c (by rw [h.1]) he
      exact ⟨x, hx, hy⟩

theorem Ordered.noEvents {l : List Piece} (h : ∀ p ∈ l, p.isEvent = false) : Ordered l := by
  intro pre p post e he
  rw [h p (by rw [e]; simp)] at he
  cases he

theorem Ordered.ani (a : Piece) (l : List Piece) (h : a.isAni = true) : Ordered (a :: l) := by
  intro pre p post e he
  cases pre with
  | nil =>
    rw [← (List.cons.inj e).1] at he
    cases a <;> simp [Piece.isAni, Piece.isEvent] at h he
  | cons q pre => exact ⟨q, by simp, by rw [← (List.cons.inj e).1]; exact h⟩

theorem Ordered.flatMap {α} {f : α → List Piece} : ∀ {l : List α}, (∀ x ∈ l, Ordered (f x)) → Ordered (l.flatMap f)
  | [], _ => by intro pre p post e; simp at e
  | x :: l, h => by
    rw [List.flatMap_cons]
    exact Ordered.append (h x (by simp)) (Ordered.flatMap fun y hy => h y (by simp [hy]))

theorem Source.ordered (s : Source) : Ordered s.pieces := by
  refine Ordered.flatMap fun t _ => ?_
  cases t with
  | meshAndTree | registerMesh =>
    intro pre p post e he
    exact absurd he (by rw [single_mem e]; simp [Piece.isEvent])
  | aniEnum k is => exact Ordered.flatMap fun i _ => Item.pieces_ordered i

theorem Source.types (s : Source) (p : Piece) (hp : p ∈ s.pieces) : p.type ∈ Piece.known := by
  simp only [Source.pieces, List.mem_flatMap] at hp
  obtain ⟨t, _, hp⟩ := hp
  cases t with
  | meshAndTree | registerMesh => simp only [Top.pieces, List.mem_singleton] at hp; subst hp; simp [Piece.type, Piece.known]
  | aniEnum k is =>
    simp only [Top.pieces, List.mem_flatMap] at hp
    obtain ⟨i, _, hp⟩ := hp
    cases i with
    | ani k a =>
      simp only [Item.pieces, List.mem_cons, List.mem_map] at hp
      rcases hp with rfl | ⟨e, _, rfl⟩
      · simp [Piece.type, Piece.known]
      · cases e <;> simp [Event.piece, Piece.type, Piece.known]
    | blend | alias_ | comb | disable | modelTag =>
      simp only [Item.pieces, List.mem_singleton] at hp; subst hp; simp [Piece.type, Piece.known]

end Mds
end Verif
