import Verif.Lemmas.Chunk
import Verif.Spec.Chunk

/-!
# C07, C08: chunk framing
-/

namespace Verif.Props

open Verif.Spec (Chunk)

/-- Writing a list of chunks, each payload with one raw write. -/
def writeChunks (cs : List Chunk) (w : Ws) : Ws :=
  cs.foldl (fun w c => writeChunk c.type (Ws.write c.payload) w) w

theorem writeChunks_emits (cs : List Chunk) :
    Emits (writeChunks cs) (cs.map fun c => chunkBytes c.type c.payload).flatten :=
  Emits.foldl (fun (c : Chunk) => writeChunk c.type (Ws.write c.payload)) _
    (fun c => (Emits.write c.payload).chunk) cs

theorem readChunkedFuel_chunks {σ} (cb : σ → BitVec 16 → Rd (σ × Bool)) (hcb : ∀ s t, KeepsData (cb s t))
    (cs : List Chunk) (hne : cs ≠ []) (hsz : ∀ c ∈ cs, c.payload.length < 2 ^ 32)
    (pre post : Bytes) (s : σ) (fuel : Nat) (hf : cs.length ≤ fuel) :
    let data := pre ++ (cs.map fun c => chunkBytes c.type c.payload).flatten ++ post
    (post = [] ∨ ∀ s' off d, Spec.visit cb data pre.length s cs = .ok (s', off, d) → d = true) →
    readChunkedFuel (simpleCb cb) fuel s ⟨data, pre.length⟩ =
      (Spec.visit cb data pre.length s cs).map (fun r => (r.1, ⟨data, r.2.1⟩)) := by
  induction cs generalizing pre s fuel with
  | nil => exact absurd rfl hne
  | cons c cs ih =>
    cases fuel with
    | zero => simp at hf
    | succ fuel =>
      intro data hend
      have hdata : data = pre ++ (encW 2 c.type ++ encW 4 (BitVec.ofNat 32 c.payload.length)) ++
          (c.payload ++ ((cs.map fun c => chunkBytes c.type c.payload).flatten ++ post)) := by
        simp [data, chunkBytes]
      have hlen : pre.length + c.size ≤ data.length := by
        rw [hdata]; simp [Chunk.size]; omega
      have hh := Reads.header c.type (BitVec.ofNat 32 c.payload.length) pre
        (c.payload ++ ((cs.map fun c => chunkBytes c.type c.payload).flatten ++ post))
      rw [← hdata] at hh
      have hsize : (BitVec.ofNat 32 c.payload.length).toNat = c.payload.length := by
        have := hsz c (by simp)
        simp; omega
      simp only [readChunkedFuel]
      rw [Rd.bind_ok hh.1, Rd.bind_ok hh.2]
      have ht : Rd.tell ⟨data, pre.length + 6⟩ = .ok (pre.length + 6, ⟨data, pre.length + 6⟩) := rfl
      rw [Rd.bind_ok ht, hsize]
      have htgt : pre.length + 6 + c.payload.length = pre.length + c.size := by simp [Chunk.size]; omega
      rw [htgt]
      cases hc : cb s c.type ⟨data, pre.length + 6⟩ with
      | error e =>
        rw [Rd.bind_err (by unfold simpleCb; exact Rd.bind_err hc)]
        simp [Spec.visit, hc, Except.map]
      | ok r =>
        obtain ⟨⟨s', done⟩, st⟩ := r
        obtain ⟨hd1, hd2⟩ := hcb s c.type ⟨data, pre.length + 6⟩ _ _ (by
          simp only [Chunk.size] at hlen; show pre.length + 6 ≤ data.length; omega) hc
        obtain ⟨data, sp⟩ := st
        simp only at hd1 hd2
        subst hd1
        have hcall : simpleCb cb s c.type (pre.length + c.size) ⟨data, pre.length + 6⟩ =
            .ok ((s', done, pre.length + c.size), ⟨data, sp⟩) := by
          unfold simpleCb; rw [Rd.bind_ok hc]; rfl
        rw [Rd.bind_ok hcall]
        simp only
        rw [Rd.bind_ok (Rd.seek_beg hlen)]
        cases done with
        | true => simp [Spec.visit, hc, Except.map]
        | false =>
          simp only [Bool.false_eq_true, if_false]
          have heof : Rd.eof ⟨data, pre.length + c.size⟩ =
            .ok (decide (pre.length + c.size ≥ data.length), ⟨data, pre.length + c.size⟩) := rfl
          rw [Rd.bind_ok heof]
          have hdl : data.length = pre.length + c.size + ((cs.map fun c => chunkBytes c.type c.payload).flatten).length + post.length := by
            rw [hdata]; simp [Chunk.size]; omega
          cases cs with
          | nil =>
            have hpost : post = [] := by
              rcases hend with h | h
              · exact h
              · have := h s' (pre.length + c.size) false (by simp [Spec.visit, hc])
                simp at this
            simp only [hpost, List.map_nil, List.flatten_nil, List.length_nil] at hdl
            rw [if_pos (by simp; omega)]
            simp [Spec.visit, hc, Except.map]
          | cons c2 cs =>
            rw [if_neg (by rw [hdl]; simp [chunkBytes_length]; omega)]
            have := ih (by simp) (fun x hx => hsz x (by simp [hx])) (pre ++ chunkBytes c.type c.payload) s' fuel
              (by simpa using hf)
            have e1 : (pre ++ chunkBytes c.type c.payload ++
                ((c2 :: cs).map fun c => chunkBytes c.type c.payload).flatten ++ post) = data := by
              rw [hdata]; simp [chunkBytes]
            have e2 : (pre ++ chunkBytes c.type c.payload).length = pre.length + c.size := by
              simp [chunkBytes_length, Chunk.size]
            rw [e1, e2] at this
            rw [this (by
              rcases hend with h | h
              · exact .inl h
              · refine .inr fun s2 off d hv => h s2 off d ?_
                simp only [Spec.visit, hc]
                exact hv)]
            simp [Spec.visit, hc]

/-- C07: reading a file of chunks that `write_chunk` produced calls the handler once per chunk, in order, at the
start of its payload — wherever earlier calls left the stream — until the handler is done, and leaves the
stream behind the last chunk visited. Exceptions of the handler are passed on. Bytes behind the last chunk are
allowed when the handler stops at one of the chunks. -/
theorem c07_chunk_framing {σ} (cb : σ → BitVec 16 → Rd (σ × Bool)) (hcb : ∀ s t, KeepsData (cb s t))
    (cs : List Chunk) (hne : cs ≠ []) (hsz : ∀ c ∈ cs, c.payload.length < 2 ^ 32) (s : σ) (pre post : Bytes) :
    let data := (writeChunks cs ⟨pre, pre.length⟩).data ++ post
    (post = [] ∨ ∀ s' off d, Spec.visit cb data pre.length s cs = .ok (s', off, d) → d = true) →
    readChunked (simpleCb cb) s ⟨data, pre.length⟩ =
      (Spec.visit cb data pre.length s cs).map (fun r => (r.1, ⟨data, r.2.1⟩)) := by
  intro data hend
  have hw : data = pre ++ (cs.map fun c => chunkBytes c.type c.payload).flatten ++ post := by
    simp only [data]; rw [(writeChunks_emits cs).appends pre]
  rw [hw] at hend ⊢
  unfold readChunked
  refine readChunkedFuel_chunks cb hcb cs hne hsz pre post s _ ?_ hend
  simp only [List.length_append, List.append_assoc, Nat.add_sub_cancel_left]
  have : ∀ cs : List Chunk, cs.length ≤ ((cs.map fun c => chunkBytes c.type c.payload).flatten).length := by
    intro cs
    induction cs with
    | nil => simp
    | cons c cs ih => simp [chunkBytes_length] at ih ⊢; omega
  have := this cs
  omega

/-- A handler never moves the stream in front of the payload it was given, nor the end of the chunk. -/
def ForwardCb {σ} (cb : ChunkCb σ) : Prop :=
  ∀ s t target st, st.pos ≤ st.data.length → st.pos ≤ target →
    (cb s t target st ≠ .error .hang) ∧
    ∀ r st', cb s t target st = .ok (r, st') →
      st'.data = st.data ∧ st.pos ≤ st'.pos ∧ st'.pos ≤ st.data.length ∧ st.pos ≤ r.2.2

/-- C08: `read_chunked` terminates on every stream, for every forward-only handler that itself terminates. -/
theorem c08_chunk_loop_terminates {σ} (cb : ChunkCb σ) (hcb : ForwardCb cb) (data : Bytes) (pos : Nat)
    (hp : pos ≤ data.length) (s : σ) (fuel : Nat) (hf : data.length - pos < fuel) :
    readChunkedFuel cb fuel s ⟨data, pos⟩ ≠ .error .hang ∧
    readChunkedFuel cb fuel s ⟨data, pos⟩ = readChunked cb s ⟨data, pos⟩ := by
  have word := fun w k p hp => Rd.word_ok w k data p hp
  have main : ∀ (n : Nat) (pos : Nat), pos ≤ data.length → data.length - pos ≤ n → ∀ (s : σ) (f1 f2 : Nat),
      data.length - pos < f1 → data.length - pos < f2 →
      readChunkedFuel cb f1 s ⟨data, pos⟩ ≠ .error .hang ∧
        readChunkedFuel cb f1 s ⟨data, pos⟩ = readChunkedFuel cb f2 s ⟨data, pos⟩ := by
    intro n
    induction n with
    | zero =>
      intro pos hp hn s f1 f2 h1 h2
      have hpe : pos = data.length := by omega
      cases f1 with
      | zero => omega
      | succ f1 =>
      cases f2 with
      | zero => omega
      | succ f2 =>
      simp only [readChunkedFuel]
      obtain ⟨t, ht⟩ := word 16 2 pos hp
      obtain ⟨z, hz⟩ := word 32 4 (min (pos + 2) data.length) (by omega)
      unfold Rd.u16 Rd.u32
      rw [Rd.bind_ok ht, Rd.bind_ok hz, Rd.bind_ok ht, Rd.bind_ok hz]
      have hpos : min (min (pos + 2) data.length + 4) data.length = data.length := by omega
      rw [hpos]
      have htl : Rd.tell ⟨data, data.length⟩ = .ok (data.length, ⟨data, data.length⟩) := rfl
      rw [Rd.bind_ok htl, Rd.bind_ok htl]
      obtain ⟨hh, hk⟩ := hcb s t (data.length + z.toNat) ⟨data, data.length⟩ (by simp) (by simp)
      cases hc : cb s t (data.length + z.toNat) ⟨data, data.length⟩ with
      | error e =>
        rw [Rd.bind_err hc, Rd.bind_err hc]
        exact ⟨by rw [hc] at hh; simpa using hh, rfl⟩
      | ok r =>
        obtain ⟨⟨s', done, tg⟩, st⟩ := r
        obtain ⟨k1, k2, k3, k4⟩ := hk _ _ hc
        obtain ⟨sd, sp⟩ := st
        simp only at k1 k2 k3 k4
        subst k1
        rw [Rd.bind_ok hc, Rd.bind_ok hc]
        simp only
        have hsk : Rd.seek (tg : Int) .beg ⟨sd, sp⟩ = .ok ((), ⟨sd, sd.length⟩) := by
          by_cases h : tg ≤ sd.length
          · have : tg = sd.length := by omega
            rw [Rd.seek_beg h, this]
          · rw [Rd.seek_ignored (by simp [Rd.seekTarget]; omega)]
            have : sp = sd.length := by omega
            rw [this]
        rw [Rd.bind_ok hsk, Rd.bind_ok hsk]
        cases done with
        | true => simp
        | false =>
          simp only [Bool.false_eq_true, if_false]
          have he : Rd.eof ⟨sd, sd.length⟩ = .ok (true, ⟨sd, sd.length⟩) := by simp [Rd.eof]
          rw [Rd.bind_ok he, Rd.bind_ok he]
          simp
    | succ n ih =>
      intro pos hp hn s f1 f2 h1 h2
      cases f1 with
      | zero => omega
      | succ f1 =>
      cases f2 with
      | zero => omega
      | succ f2 =>
      simp only [readChunkedFuel]
      obtain ⟨t, ht⟩ := word 16 2 pos hp
      obtain ⟨z, hz⟩ := word 32 4 (min (pos + 2) data.length) (by omega)
      unfold Rd.u16 Rd.u32
      rw [Rd.bind_ok ht, Rd.bind_ok hz, Rd.bind_ok ht, Rd.bind_ok hz]
      generalize hq : min (min (pos + 2) data.length + 4) data.length = q
      have hq1 : q ≤ data.length := by omega
      have hq2 : q = data.length ∨ pos < q := by omega
      have htl : Rd.tell ⟨data, q⟩ = .ok (q, ⟨data, q⟩) := rfl
      rw [Rd.bind_ok htl, Rd.bind_ok htl]
      obtain ⟨hh, hk⟩ := hcb s t (q + z.toNat) ⟨data, q⟩ hq1 (by simp)
      cases hc : cb s t (q + z.toNat) ⟨data, q⟩ with
      | error e =>
        rw [Rd.bind_err hc, Rd.bind_err hc]
        exact ⟨by rw [hc] at hh; simpa using hh, rfl⟩
      | ok r =>
        obtain ⟨⟨s', done, tg⟩, st⟩ := r
        obtain ⟨k1, k2, k3, k4⟩ := hk _ _ hc
        obtain ⟨sd, sp⟩ := st
        simp only at k1 k2 k3 k4
        subst k1
        rw [Rd.bind_ok hc, Rd.bind_ok hc]
        simp only
        have hsk : ∃ p', Rd.seek (tg : Int) .beg ⟨sd, sp⟩ = .ok ((), ⟨sd, p'⟩) ∧ q ≤ p' ∧ p' ≤ sd.length := by
          by_cases h : tg ≤ sd.length
          · exact ⟨tg, Rd.seek_beg h, k4, h⟩
          · exact ⟨sp, Rd.seek_ignored (by simp [Rd.seekTarget]; omega), k2, k3⟩
        obtain ⟨p', hsk, hp1, hp2⟩ := hsk
        rw [Rd.bind_ok hsk, Rd.bind_ok hsk]
        cases done with
        | true => simp
        | false =>
          simp only [Bool.false_eq_true, if_false]
          have he : Rd.eof ⟨sd, p'⟩ = .ok (decide (p' ≥ sd.length), ⟨sd, p'⟩) := rfl
          rw [Rd.bind_ok he, Rd.bind_ok he]
          by_cases hend : p' ≥ sd.length
          · simp [hend]
          · simp only [hend, decide_false, Bool.false_eq_true, if_false]
            exact ih p' hp2 (by omega) s' f1 f2 (by omega) (by omega)
  exact main _ pos hp (Nat.le_refl _) s fuel (data.length - pos + 1) hf (by omega)

/-- The proviso of C08 is needed: a handler that seeks to the start makes the loop run forever when the chunk
size points behind the end of the stream. -/
theorem c08_backward_handler_violation (fuel : Nat) :
    readChunkedFuel (simpleCb fun (_ : Unit) _ => do Rd.seek 0 .beg; return ((), false)) fuel ()
      ⟨[0, 0, 255, 0, 0, 0, 7], 0⟩ = .error .hang := by
  induction fuel with
  | zero => rfl
  | succ n ih =>
    have h : readChunkedFuel (simpleCb fun (_ : Unit) _ => do Rd.seek 0 .beg; return ((), false)) (n + 1) ()
        ⟨[0, 0, 255, 0, 0, 0, 7], 0⟩ =
      readChunkedFuel (simpleCb fun (_ : Unit) _ => do Rd.seek 0 .beg; return ((), false)) n ()
        ⟨[0, 0, 255, 0, 0, 0, 7], 0⟩ := rfl
    rw [h, ih]

/-- A handler that collects the types it sees and consumes one byte too many or too few. -/
def demoCb (s : List (BitVec 16 × BitVec 8)) (t : BitVec 16) : Rd (List (BitVec 16 × BitVec 8) × Bool) := do
  let v ← Rd.u8
  return (s ++ [(t, v)], t == 0xFF)

example : ∀ s t, KeepsData (demoCb s t) := by
  intro s t st a st' hp h
  simp only [demoCb, Rd.bind_def, Rd.u8, Rd.word, Rd.readPadded, Rd.read_eq _ _ hp, Rd.pure_def,
    Except.ok.injEq, Prod.mk.injEq] at h
  obtain ⟨_, rfl⟩ := h
  exact ⟨rfl, by simp; omega⟩

example : (readChunked (simpleCb demoCb) []
      ⟨(writeChunks [⟨1, [5, 6, 7]⟩, ⟨2, []⟩, ⟨0xFF, [9]⟩, ⟨3, [1]⟩] Ws.empty).data, 0⟩).map (·.1)
    = .ok [(1, 5), (2, 255), (255, 9)] := by decide +kernel

end Verif.Props
