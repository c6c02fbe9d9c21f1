import Verif.Model.Chunk
import Verif.Lemmas.Stream

/-! # Lemmas about chunked files -/

namespace Verif

theorem splice_patch (d a x y b : Bytes) (p : Nat) (hp : p ≤ d.length) (hxy : x.length = y.length) :
    splice (splice d p (a ++ x ++ b)) (p + a.length) y = splice d p (a ++ y ++ b) := by
  rw [splice_le d _ p hp, splice_le d _ p hp, splice_le _ _ _ (by simp; omega)]
  have hl : (d.take p ++ a).length = p + a.length := by simp; omega
  have e : d.take p ++ (a ++ x ++ b) ++ d.drop (p + (a ++ x ++ b).length)
      = (d.take p ++ a) ++ (x ++ (b ++ d.drop (p + (a ++ x ++ b).length))) := by simp
  rw [e, ← hl, List.take_left, ← List.drop_drop, List.drop_left, ← hxy, List.drop_left]
  simp [hxy]

/-- The bytes of a chunk. -/
def chunkBytes (type : BitVec 16) (payload : Bytes) : Bytes :=
  encW 2 type ++ encW 4 (BitVec.ofNat 32 payload.length) ++ payload

theorem chunkBytes_length (t : BitVec 16) (p : Bytes) : (chunkBytes t p).length = 6 + p.length := by
  simp [chunkBytes]; omega

theorem Emits.chunk {type : BitVec 16} {cb : Ws → Ws} {payload : Bytes} (h : Emits cb payload) :
    Emits (writeChunk type cb) (chunkBytes type payload) := by
  intro w hw
  have h1 : Emits (fun w => cb (Ws.u32 0 (Ws.u16 type w))) (encW 2 type ++ encW 4 (0 : BitVec 32) ++ payload) :=
    ((Emits.u16 type).comp (Emits.u32 0)).comp h
  have e1 := h1 w hw
  unfold writeChunk
  simp only at e1 ⊢
  rw [e1]
  have hpos : (Ws.u16 type w).pos = w.pos + 2 := by simp [Ws.u16, Ws.word, Ws.write]
  rw [hpos]
  have hlen : ((w.write (encW 2 type ++ encW 4 (0 : BitVec 32) ++ payload)).pos : Int) - ((w.pos + 2 : Nat) : Int) - 4
      = (payload.length : Int) := by simp [Ws.write]; omega
  rw [hlen]
  simp only [Ws.seek, Rd.seekTarget, Ws.u32, Ws.word, Ws.write, chunkBytes]
  have e2 : BitVec.ofInt 32 (payload.length : Int) = BitVec.ofNat 32 payload.length := by simp
  rw [e2]
  have hp2 := splice_patch w.data (encW 2 type) (encW 4 (0 : BitVec 32)) (encW 4 (BitVec.ofNat 32 payload.length))
    payload w.pos hw (by simp)
  simp only [encW_length] at hp2
  simp only [Int.toNat_natCast, hp2]
  congr 1
  simp
  omega

/-- A handler that leaves the content alone and stays inside of it (every reader does). -/
def KeepsData {α} (p : Rd α) : Prop :=
  ∀ st a st', st.pos ≤ st.data.length → p st = .ok (a, st') → st'.data = st.data ∧ st'.pos ≤ st.data.length

theorem Reads.header (type : BitVec 16) (size : BitVec 32) (pre post : Bytes) :
    Rd.u16 ⟨pre ++ (encW 2 type ++ encW 4 size) ++ post, pre.length⟩ =
      .ok (type, ⟨pre ++ (encW 2 type ++ encW 4 size) ++ post, pre.length + 2⟩) ∧
    Rd.u32 ⟨pre ++ (encW 2 type ++ encW 4 size) ++ post, pre.length + 2⟩ =
      .ok (size, ⟨pre ++ (encW 2 type ++ encW 4 size) ++ post, pre.length + 6⟩) := by
  have h1 := Reads.u16 type pre (encW 4 size ++ post)
  have h2 := Reads.u32 size (pre ++ encW 2 type) post
  simp only [List.append_assoc, List.length_append, encW_length] at h1 h2 ⊢
  exact ⟨h1, by rw [h2]⟩

end Verif
