import Verif.Lemmas.StreamIoTie
import Verif.Props.Meshes

/-!
# C95: loading from and saving to files and C++ streams

Functions are programs of calls to the stream; the claim compares runs of the same program on a stream over memory, over a `FILE*`
and over a `std::istream` with the same bytes.
-/

namespace Verif.Props

open Verif.Io

/-! ## Reading -/

/-- **C95** (partial): whatever a function does with a stream over a `FILE*`: if it seeks inside of the file only, and asks for the
end in front of it or after a short read, it gives the same as with the same bytes in memory. Missing: functions that ask for the
end of a file directly at the end, for which the claim is false (`c95_chunks_violation`). -/
theorem c95_file_partial {α} (p : Prog α) (f : CFile) (s : Rs) (h : FileAt f s) (hf : p.FineFile f) :
    Agree FileAt (p.run file f) (p.run mem s) := p.agree_file f s h hf

/-- **C95** (partial): the same with a `std::istream`, if the function does not seek after a short read. Missing: functions that do,
for which the claim is false (`c95_failed_violation`). -/
theorem c95_stream_partial {α} (p : Prog α) (f : CStream) (s : Rs) (h : StreamAt f s) (hf : p.FineStream f) :
    Agree StreamAt (p.run stream f) (p.run mem s) := p.agree_stream f s h hf

/-- A reader that skips a part, and does not ask for the end at the end. -/
def skipping : Prog (BitVec 16 × Bool × BitVec 16) := do
  let a ← Prog.u16
  .seek 2 .cur (.eof fun e => do
    let b ← Prog.u16
    return (a, e, b))

example : FileAt ⟨[1, 0, 9, 9, 2, 0], 0, false⟩ ⟨[1, 0, 9, 9, 2, 0], 0⟩ ∧ skipping.FineFile ⟨[1, 0, 9, 9, 2, 0], 0, false⟩ ∧
    skipping.FineStream ⟨[1, 0, 9, 9, 2, 0], 0, false, false, true⟩ := by
  refine ⟨⟨rfl, rfl, by decide, fun h => by cases h⟩, ?_, ?_⟩
  · show Inside _ _ ∧ (_ ∨ _) ∧ True
    exact ⟨⟨by decide, by decide⟩, .inl (by decide), trivial⟩
  · show _ ∧ Inside _ _ ∧ (_ ∨ _) ∧ True
    exact ⟨rfl, ⟨by decide, by decide⟩, .inl ⟨rfl, by decide⟩, trivial⟩
example : (skipping.run file ⟨[1, 0, 9, 9, 2, 0], 0, false⟩).map Prod.fst = .ok (1, false, 2) := by decide

/-- The same value or the same exception. -/
theorem agree_value {α σ τ} {R : σ → τ → Prop} {x : Except Fail (α × σ)} {y : Except Fail (α × τ)} (h : Agree R x y) :
    x.map Prod.fst = y.map Prod.fst := by
  match x, y, h with
  | .ok (a, s), .ok (b, t), ⟨h1, _⟩ => exact congrArg Except.ok h1
  | .error _, .error _, h => exact congrArg Except.error h

/-- **C95**: functions that only read give the same from a file, from a C++ stream and from memory, for every content, complete or
not. -/
theorem c95_sequential {α} (p : Prog α) (hp : p.OnlyReads) (data : Bytes) (bounded : Bool) :
    (p.run file ⟨data, 0, false⟩).map Prod.fst = (p.run mem ⟨data, 0⟩).map Prod.fst ∧
    (p.run stream ⟨data, 0, false, false, bounded⟩).map Prod.fst = (p.run mem ⟨data, 0⟩).map Prod.fst :=
  ⟨agree_value (p.agree_file _ _ ⟨rfl, rfl, Nat.zero_le _, fun h => by cases h⟩ (hp.fineFile _)),
    agree_value (p.agree_stream _ _ ⟨rfl, Nat.zero_le _, fun _ => ⟨rfl, rfl⟩, fun h => by cases h⟩ (hp.fineStream _))⟩

/-- **C95**: a texture is the same from a file, from a C++ stream and from memory, for every content. -/
theorem c95_texture (t : Tex.Texture) (data : Bytes) (bounded : Bool) :
    ((Prog.texture t).run file ⟨data, 0, false⟩).map Prod.fst = (t.load ⟨data, 0⟩).map Prod.fst ∧
    ((Prog.texture t).run stream ⟨data, 0, false, false, bounded⟩).map Prod.fst = (t.load ⟨data, 0⟩).map Prod.fst := by
  rw [← texture_is]
  exact c95_sequential _ (onlyReads_texture t) data bounded

/-- A file that ends early, and one that is no texture. -/
example : (((Prog.texture {}).run file ⟨b!"ZTEX" ++ [0, 0, 0, 0, 8, 0, 0, 0, 1, 0, 0, 0, 1, 0, 0, 0, 1], 0, false⟩).map
      fun x => (x.1.width, x.1.textures)) = .ok (1, [[0, 0]]) ∧
    ((Prog.texture {}).run file ⟨b!"ZTEF", 0, false⟩).map (fun x => x.1.width) = .error (.throw .parser) := by
  decide +kernel

/-- **C95** (partial): lines are the same from a file; afterwards the file is where the memory stream is. Missing: files that end with
a NUL, for which the claim is false when white space is skipped (`c95_nul_violation`). -/
theorem c95_line_file_partial (skipws : Bool) (f : CFile) (s : Rs) (h : FileAt f s) (h0 : skipws = true → s.data.getLast? ≠ some 0) :
    Agree FileAt ((Prog.line (s.data.length + 1) skipws).run file f) (Rd.line skipws s) := by
  rw [← Is.line skipws s (Nat.lt_succ_self _)]
  cases skipws with
  | true => exact line_file _ _ f s h (h0 rfl)
  | false =>
    refine Prog.agree_file _ f s h (Prog.OnlyReads.fineFile ?_ f)
    exact (onlyReads_lineLoop _ _).bind fun x => by
      show (if ([] : Bytes).isEmpty || x.2 == 0 then _ else _ : Prog Bytes).OnlyReads
      rw [if_pos (show ((([] : Bytes).isEmpty || x.2 == 0) = true) from rfl)]
      trivial

/-- **C95** (partial): the same from a C++ stream. -/
theorem c95_line_stream_partial (skipws : Bool) (f : CStream) (s : Rs) (h : StreamAt f s)
    (h0 : skipws = true → s.data.getLast? ≠ some 0) :
    Agree StreamAt ((Prog.line (s.data.length + 1) skipws).run stream f) (Rd.line skipws s) := by
  rw [← Is.line skipws s (Nat.lt_succ_self _)]
  cases skipws with
  | true => exact line_stream _ _ f s h (h0 rfl)
  | false =>
    refine Prog.agree_stream _ f s h (Prog.OnlyReads.fineStream ?_ f)
    exact (onlyReads_lineLoop _ _).bind fun x => by
      show (if ([] : Bytes).isEmpty || x.2 == 0 then _ else _ : Prog Bytes).OnlyReads
      rw [if_pos (show ((([] : Bytes).isEmpty || x.2 == 0) = true) from rfl)]
      trivial

example : (b!"a b \r\n  c").getLast? ≠ some 0 ∧ ((Prog.line 11 true).run file ⟨b!"a b \r\n  c", 0, false⟩) = .ok (b!"a b ", ⟨b!"a b \r\n  c", 8, false⟩) := by
  decide

/-- **C95** (negation): behind a line that is followed by a NUL at the end, a file is left in front of that NUL, but memory behind it. -/
theorem c95_nul_violation :
    (Prog.line 9 true).run mem ⟨b!"a\n" ++ [0], 0⟩ = .ok (b!"a", ⟨b!"a\n" ++ [0], 3⟩) ∧
    (Prog.line 9 true).run file ⟨b!"a\n" ++ [0], 0, false⟩ = .ok (b!"a", ⟨b!"a\n" ++ [0], 2, false⟩) := by
  decide

/-- **C95** (negation): a C++ stream that has run into its end gives only zeroes from then on, wherever one seeks, although there are
bytes. Memory and files do not. -/
theorem c95_failed_violation (f : CStream) (h : f.fail = true) (off : Int) (w : Whence) (n : Nat) :
    ((Prog.seek off w (Prog.padded n)).run stream f).map Prod.fst = .ok (List.replicate n 0) := by
  have e : stream.seek off w f = { f with eof := false } := if_pos h
  show ((Prog.padded n).run stream (stream.seek off w f)).map Prod.fst = _
  rw [e]
  have e2 : stream.read n { f with eof := false } = ([], { f with eof := false, fail := true }) := if_pos (by
    show (false || f.fail) = true
    rw [h]
    rfl)
  show Except.ok ((stream.read n { f with eof := false }).1 ++
    List.replicate (n - (stream.read n { f with eof := false }).1.length) 0) = _
  rw [e2]
  rfl

/-- Reading the last line twice. -/
example :
    let twice : Prog (Bytes × Bytes) := do
      let a ← Prog.line 9 true
      .seek 0 .beg (do
        let b ← Prog.line 9 true
        return (a, b))
    (twice.run mem ⟨b!"abc", 0⟩).map Prod.fst = .ok (b!"abc", b!"abc") ∧
    (twice.run file ⟨b!"abc", 0, false⟩).map Prod.fst = .ok (b!"abc", b!"abc") ∧
    (twice.run stream ⟨b!"abc", 0, false, false, true⟩).map Prod.fst = .ok (b!"abc", []) := by
  decide

/-! ## Files of chunks -/

/-- **C95** (negation): a loader of chunks that does not know about a last chunk never returns when it reads from a file or from a
C++ stream, for every content and from every position: moving to the end of a chunk makes the stream forget that it has ended. -/
theorem c95_chunks_violation {σ} (cb : σ → BitVec 16 → Nat → Prog (σ × Bool × Nat))
    (h : ∀ s t n, (cb s t n).Gives fun x => x.2.1 = false) (fuel : Nat) (s : σ) :
    (∀ f r, (Prog.chunked cb fuel s).run file f ≠ .ok r) ∧ ∀ f r, (Prog.chunked cb fuel s).run stream f ≠ .ok r :=
  ⟨fun f r => chunked_file cb h fuel s f r, fun f r => chunked_stream cb h fuel s f r⟩

/-- **C95** (negation): `ModelAnimation::load` goes on forever on every file and on every C++ stream, with every content. On memory it
is the loader of C85, and loads what was written. -/
theorem c95_animation_violation (o : SampleOps) (m : Animation) (data : Bytes) (pos rounds : Nat) (eof fail bounded : Bool) :
    (Prog.animation (data.length + 1) rounds o m).run file ⟨data, pos, eof⟩ = .error .hang ∧
    (Prog.animation (data.length + 1) rounds o m).run stream ⟨data, pos, eof, fail, bounded⟩ = .error .hang ∧
    (Prog.animation (data.length + 1) (data.length - pos + 1) o m).run mem ⟨data, pos⟩ = Animation.load o m ⟨data, pos⟩ :=
  ⟨chunked_forever (finite_file data) eof_file (fun s t n => simpleCb_false (fun m t => animChunk_false _ o m t) s t n)
      (fun s t n => simpleCb_ends (fun m t => Ends.animChunk (finite_file data) o m t) s t n) rounds m _ rfl,
    chunked_forever (finite_stream data) (fun off w s _ _ => eof_stream off w s)
      (fun s t n => simpleCb_false (fun m t => animChunk_false _ o m t) s t n)
      (fun s t n => simpleCb_ends (fun m t => Ends.animChunk (finite_stream data) o m t) s t n) rounds m _ rfl,
    animation_is o m ⟨data, pos⟩⟩

/-- A file without the problems of C85. -/
def goodAnim : Spec.AnimFile := demoAnim { demoEvent with values := [1, 2, 3, 4] }

/-- For example a file that C85 is about. -/
example (rounds : Nat) : goodAnim.Ok ∧
    (Animation.load demoOps goodAnim.anim ⟨goodAnim.bytes, 0⟩).map Prod.fst =
      .ok (goodAnim.animation demoOps) ∧
    (Prog.animation (goodAnim.bytes.length + 1) rounds demoOps goodAnim.anim).run file
      ⟨goodAnim.bytes, 0, false⟩ = .error .hang :=
  ⟨demoAnim_ok, by
    have := c85_load demoOps goodAnim demoAnim_ok goodAnim.anim []
    rw [show Animation.load demoOps _ ⟨goodAnim.bytes, 0⟩ = _ from this]
    rfl, (c95_animation_violation demoOps _ _ 0 rounds false false false).1⟩

/-! ## Writing -/

/-- **C95** (partial): whatever a function writes, a file gets the same bytes as a vector, if it only seeks inside of what is there.
The disk is not full. -/
theorem c95_write_file_partial {α} (p : WProg α) (w : Ws) (hw : w.pos ≤ w.data.length) (h : p.Fine w) :
    p.run cfile w = p.run vector w := p.cfile_run w hw h

/-- **C95** (partial): so does a C++ stream that is good. -/
theorem c95_write_stream_partial {α} (p : WProg α) (o : COut) (w : Ws) (ho : OutAt o w) (hw : w.pos ≤ w.data.length) (h : p.Fine w) :
    (p.run ostream o).1 = (p.run vector w).1 ∧ OutAt (p.run ostream o).2 (p.run vector w).2 := p.ostream_run o w ho hw h

/-- A chunk inside of a chunk. -/
def twoChunks : WProg Unit := WProg.chunk 0x10 (fun k => .write [1, 2] (WProg.chunk 0x20 (fun k => .write [3] k) k)) (.ret ())

example : twoChunks.Fine Ws.empty ∧ (twoChunks.run cfile Ws.empty).2.data = [0x10, 0, 9, 0, 0, 0, 1, 2, 0x20, 0, 1, 0, 0, 0, 3] := by
  refine ⟨⟨⟨?_, ?_⟩, ⟨?_, ?_⟩, ⟨?_, ?_⟩, ⟨?_, ?_⟩, trivial⟩, ?_⟩ <;> decide +kernel

/-- On vectors a chunk with plain content is `write_chunk` of the other models. -/
theorem c95_chunk_model (type : BitVec 16) (bs : Bytes) (w : Ws) :
    ((WProg.chunk type (fun k => .write bs k) (.ret ())).run vector w).2 = writeChunk type (·.write bs) w := rfl

/-- **C95** (negation): nothing that is written to a C++ stream that has failed, such as one over a file that could not be opened,
arrives, and `write` says each time that all of it did. -/
theorem c95_write_failed_violation {α} (p : WProg α) (o : COut) (h : o.fail = true) (bs : Bytes) :
    (p.run ostream o).2 = o ∧ (ostream.write bs o).data = o.data ∧ ostreamWrote bs o = bs.length :=
  ⟨p.ostream_failed o h, by rw [show ostream.write bs o = o from if_pos (.inl h)], rfl⟩

/-- **C95** (partial): files, and C++ streams over files, take bytes behind their end, as vectors do. -/
theorem c95_write_hole_partial (n : Nat) (bs : Bytes) (hb : bs ≠ []) (o : COut) (w : Ws) (ho : OutAt o w) (hu : o.bounded = false) :
    OutAt (ostream.write bs (ostream.seek n .beg o)) (vector.write bs (vector.seek n .beg w)) ∧
    cfile.write bs (cfile.seek n .beg w) = vector.write bs (vector.seek n .beg w) := by
  obtain ⟨od, op, of, ob⟩ := o
  obtain ⟨wd, wp⟩ := w
  obtain ⟨h1, h2, h3⟩ := ho
  dsimp only at h1 h2 h3 hu
  subst h1 h2 h3 hu
  have ht : Rd.seekTarget op od.length (n : Int) .beg = n := rfl
  constructor
  · have hs : ostream.seek n .beg ⟨od, op, false, false⟩ = ⟨od, n, false, false⟩ := by
      unfold ostream
      simp [ht]
    rw [hs]
    unfold ostream
    simp only [Bool.false_eq_true, hb, or_self, if_false]
    exact ⟨rfl, rfl, rfl⟩
  · have hs : cfile.seek n .beg ⟨od, op⟩ = ⟨od, n⟩ := by
      unfold cfile
      simp [ht]
      omega
    rw [hs]
    unfold cfile
    simp only [hb, if_false]
    rfl

/-- **C95** (negation): a string stream does not. Bytes that are written behind its end are lost, and so is all that follows. -/
theorem c95_write_hole_violation {α} (p : WProg α) (n : Nat) (o : COut) (hb : o.bounded = true) (hf : o.fail = false) (hn : o.data.length < n) :
    (p.run ostream (ostream.seek n .beg o)).2.data = o.data ∧ (p.run ostream (ostream.seek n .beg o)).2.fail = true := by
  have hs : ostream.seek n .beg o = { o with fail := true } := by
    show (if o.fail = true then o else _) = _
    rw [if_neg (by rw [hf]; decide), if_pos (.inr ⟨hb, by unfold Rd.seekTarget; dsimp only; omega⟩)]
  rw [hs, p.ostream_failed _ rfl]
  exact ⟨rfl, rfl⟩

example : (ostream.write [7] (ostream.seek (2 : Nat) .beg ⟨[1], 1, false, false⟩)).data = [1, 0, 7] ∧
    (ostream.write [7] (ostream.seek (2 : Nat) .beg ⟨[1], 1, false, true⟩)).data = [1] := by decide +kernel

end Verif.Props
