import Verif.Lemmas.Chunk
import Verif.Spec.Chunk

/-! # Reading files of chunks with a loader -/

namespace Verif

open Spec (Chunk)

/-- The handler, called for chunk `c` anywhere in a stream, turns the state `s` into `s'`. -/
def Handles {σ} (cb : ChunkCb σ) (s : σ) (c : Chunk) (s' : σ) (done : Bool) : Prop :=
  c.payload.length < 2 ^ 32 ∧ ∀ pre post : Bytes, ∃ pos',
    cb s c.type (pre.length + 6 + c.payload.length) ⟨pre ++ chunkBytes c.type c.payload ++ post, pre.length + 6⟩ =
      .ok ((s', done, pre.length + 6 + c.payload.length), ⟨pre ++ chunkBytes c.type c.payload ++ post, pos'⟩)

/-- A handler that reads the beginning of the payload. -/
theorem Handles.of_reads {σ} {cb : σ → BitVec 16 → Rd (σ × Bool)} {s s' : σ} {t : BitVec 16} {bs rest : Bytes} {done : Bool}
    (h : Reads (cb s t) bs (s', done)) (hl : (bs ++ rest).length < 2 ^ 32) :
    Handles (simpleCb cb) s ⟨t, bs ++ rest⟩ s' done := by
  refine ⟨hl, fun pre post => ?_⟩
  have := h (pre ++ (encW 2 t ++ encW 4 (BitVec.ofNat 32 (bs ++ rest).length))) (rest ++ post)
  refine ⟨pre.length + 6 + bs.length, ?_⟩
  unfold simpleCb
  have e : pre ++ (encW 2 t ++ encW 4 (BitVec.ofNat 32 (bs ++ rest).length)) ++ bs ++ (rest ++ post) =
      pre ++ chunkBytes t (bs ++ rest) ++ post := by simp [chunkBytes]
  have e2 : (pre ++ (encW 2 t ++ encW 4 (BitVec.ofNat 32 (bs ++ rest).length))).length = pre.length + 6 := by simp
  rw [e, e2] at this
  dsimp only
  rw [Rd.bind_ok this]
  rfl

theorem Handles.of_reads' {σ} {cb : σ → BitVec 16 → Rd (σ × Bool)} {s s' : σ} {t : BitVec 16} {bs : Bytes} {done : Bool}
    (h : Reads (cb s t) bs (s', done)) (hl : bs.length < 2 ^ 32) : Handles (simpleCb cb) s ⟨t, bs⟩ s' done := by
  have := Handles.of_reads (rest := []) h (by simpa using hl)
  simpa using this

/-- The handler goes through a list of chunks and is done with the last one. -/
inductive ChunkRun {σ} (cb : ChunkCb σ) : σ → List Chunk → σ → Prop
  | last {s s' c} (h : Handles cb s c s' true) : ChunkRun cb s [c] s'
  | step {s s' s'' c cs} (h : Handles cb s c s' false) (hs : ChunkRun cb s' cs s'') : ChunkRun cb s (c :: cs) s''

/-- The bytes of a list of chunks. -/
def chunksBytes (cs : List Chunk) : Bytes := (cs.map fun c => chunkBytes c.type c.payload).flatten

theorem chunksBytes_cons (c : Chunk) (cs : List Chunk) :
    chunksBytes (c :: cs) = chunkBytes c.type c.payload ++ chunksBytes cs := rfl

theorem readChunkedFuel_run {σ} {cb : ChunkCb σ} {s s' : σ} {cs : List Chunk} (h : ChunkRun cb s cs s') (pre post : Bytes)
    (fuel : Nat) (hf : cs.length ≤ fuel) :
    readChunkedFuel cb fuel s ⟨pre ++ chunksBytes cs ++ post, pre.length⟩ =
      .ok (s', ⟨pre ++ chunksBytes cs ++ post, pre.length + (chunksBytes cs).length⟩) := by
  induction h generalizing pre fuel with
  | last hh =>
    rename_i s s' c
    cases fuel with
    | zero => simp at hf
    | succ fuel =>
      obtain ⟨hl, hcb⟩ := hh
      have hcs : chunksBytes [c] = chunkBytes c.type c.payload := by simp [chunksBytes]
      rw [hcs]
      obtain ⟨pos', hcb⟩ := hcb pre post
      have hr := Reads.header c.type (BitVec.ofNat 32 c.payload.length) pre (c.payload ++ post)
      have e : pre ++ (encW 2 c.type ++ encW 4 (BitVec.ofNat 32 c.payload.length)) ++ (c.payload ++ post) =
        pre ++ chunkBytes c.type c.payload ++ post := by simp [chunkBytes]
      rw [e] at hr
      have hsz : (BitVec.ofNat 32 c.payload.length).toNat = c.payload.length := by simp; omega
      simp only [readChunkedFuel]
      rw [Rd.bind_ok hr.1, Rd.bind_ok hr.2, Rd.bind_ok (show Rd.tell _ = .ok (pre.length + 6, _) from rfl), hsz, Rd.bind_ok hcb]
      dsimp only
      rw [Rd.bind_ok (Rd.seek_beg (by simp [chunkBytes_length]; omega))]
      simp [chunkBytes_length, Nat.add_assoc]
  | step hh hs ih =>
    rename_i s s' s'' c cs
    cases fuel with
    | zero => simp at hf
    | succ fuel =>
      obtain ⟨hl, hcb⟩ := hh
      rw [chunksBytes_cons]
      obtain ⟨pos', hcb⟩ := hcb pre (chunksBytes cs ++ post)
      have hr := Reads.header c.type (BitVec.ofNat 32 c.payload.length) pre (c.payload ++ (chunksBytes cs ++ post))
      have e : pre ++ (encW 2 c.type ++ encW 4 (BitVec.ofNat 32 c.payload.length)) ++ (c.payload ++ (chunksBytes cs ++ post)) =
        pre ++ (chunkBytes c.type c.payload ++ chunksBytes cs) ++ post := by simp [chunkBytes]
      have e2 : pre ++ chunkBytes c.type c.payload ++ (chunksBytes cs ++ post) =
        pre ++ (chunkBytes c.type c.payload ++ chunksBytes cs) ++ post := by simp
      rw [e] at hr
      rw [e2] at hcb
      have hsz : (BitVec.ofNat 32 c.payload.length).toNat = c.payload.length := by simp; omega
      simp only [readChunkedFuel]
      rw [Rd.bind_ok hr.1, Rd.bind_ok hr.2, Rd.bind_ok (show Rd.tell _ = .ok (pre.length + 6, _) from rfl), hsz, Rd.bind_ok hcb]
      dsimp only
      rw [Rd.bind_ok (Rd.seek_beg (by simp [chunkBytes_length]; omega))]
      simp only [Bool.false_eq_true, if_false]
      have hne : 0 < (chunksBytes cs).length := by
        cases hs <;> rw [chunksBytes_cons] <;> simp [chunkBytes_length] <;> omega
      rw [Rd.bind_ok (show Rd.eof _ = .ok (false, _) by
        simp only [Rd.eof]
        rw [decide_eq_false]
        simp [chunkBytes_length]; omega)]
      simp only [Bool.false_eq_true, if_false]
      have := ih (pre ++ chunkBytes c.type c.payload) fuel (by simpa using hf)
      have e3 : pre ++ chunkBytes c.type c.payload ++ chunksBytes cs ++ post =
        pre ++ (chunkBytes c.type c.payload ++ chunksBytes cs) ++ post := by simp
      have e4 : (pre ++ chunkBytes c.type c.payload).length = pre.length + 6 + c.payload.length := by
        simp [chunkBytes_length]; omega
      rw [e3, e4] at this
      rw [this]
      simp [chunkBytes_length, Nat.add_assoc]

/-- A loader reads the chunks and nothing behind the last one. -/
theorem Reads.chunked {σ} {cb : ChunkCb σ} {s s' : σ} {cs : List Chunk} (h : ChunkRun cb s cs s') :
    Reads (readChunked cb s) (chunksBytes cs) s' := by
  intro pre post
  unfold readChunked
  refine readChunkedFuel_run h pre post _ ?_
  have : ∀ cs : List Chunk, cs.length ≤ (chunksBytes cs).length := by
    intro cs
    induction cs with
    | nil => simp
    | cons c cs ih => rw [chunksBytes_cons]; simp [chunkBytes_length]; omega
  have := this cs
  simp only [List.length_append]
  omega

end Verif
