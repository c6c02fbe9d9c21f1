import Verif.Lemmas.MdsDamage
import Verif.Props.Damaged
import Verif.Props.MdsBinary

/-!
# Damaged compiled model scripts (C86)
-/

namespace Verif.Props

open Mds

private theorem msb_run {data : Bytes} (hl : data.length < 2 ^ 32) {p rest : Bytes} :
    ∀ (cs : List Spec.Chunk), (∀ c ∈ cs, c.type ∉ eventChunks) → ∀ (pre : Bytes), data = pre ++ chunksBytes cs ++ chunkBytes 0xF520 p ++ rest →
      ∀ (st : MsbSt), MayAni st → ∀ (fuel : Nat), data.length - pre.length < fuel →
      (∃ a pos', readChunkedFuel (simpleCb msbChunk) fuel st ⟨data, pre.length⟩ = .ok (a, ⟨data, pos'⟩) ∧ pos' ≤ data.length ∧ True) ∨
        ∃ e, readChunkedFuel (simpleCb msbChunk) fuel st ⟨data, pre.length⟩ = .error e ∧ MsbWrong data e := by
  intro cs
  induction cs with
  | nil =>
    intro _ pre hd st hs fuel hf
    cases fuel with
    | zero => omega
    | succ fuel =>
      have hd' : data = pre ++ chunkBytes 0xF520 p ++ rest := by simpa [chunksBytes] using hd
      have hlen : data.length = pre.length + 6 + p.length + rest.length := by rw [hd']; simp [chunkBytes_length]; omega
      refine RunsAt.chunk_step (J := HasAni) hd' (by omega) ?_ (fun _ _ => trivial) ?_
      · intro pos hp
        rcases msbChunk_other hl hs (t := 0xF520) (by decide) pos hp with ⟨a, p, e, b, l, q⟩ | h
        · exact .inl ⟨a, p, e, b, l, q.2 rfl⟩
        · exact .inr h
      · intro s' hs' hlt
        rcases RunsAt.chunked_inv (data := data) (A := MsbWrong data) (I := HasAni) (fun s t h => msbChunk_events hl h t) fuel s' hs' _ (Nat.le_of_lt hlt)
            (by omega) with ⟨a, p, e, b, l, q⟩ | h
        · exact .inl ⟨a, p, e, l, trivial⟩
        · exact .inr h
  | cons c cs ih =>
    intro hc pre hd st hs fuel hf
    cases fuel with
    | zero => omega
    | succ fuel =>
      rw [chunksBytes_cons] at hd
      have hd' : data = pre ++ chunkBytes c.type c.payload ++ (chunksBytes cs ++ chunkBytes 0xF520 p ++ rest) := by
        rw [hd]; simp only [List.append_assoc]
      have hlen : data.length = pre.length + 6 + c.payload.length + (chunksBytes cs ++ chunkBytes 0xF520 p ++ rest).length := by
        rw [hd']; simp [chunkBytes_length]; omega
      refine RunsAt.chunk_step (J := MayAni) hd' (by omega) ?_ (fun _ _ => trivial) ?_
      · intro pos hp
        rcases msbChunk_other hl hs (hc c (by simp)) pos hp with ⟨a, p, e, b, l, q⟩ | h
        · exact .inl ⟨a, p, e, b, l, q.1⟩
        · exact .inr h
      · intro s' hs' hlt
        have hpl : (pre ++ chunkBytes c.type c.payload).length = pre.length + 6 + c.payload.length := by simp [chunkBytes_length]; omega
        have := ih (fun x hx => hc x (by simp [hx])) (pre ++ chunkBytes c.type c.payload) (by rw [hd]; simp only [List.append_assoc]) s' hs' fuel
          (by rw [hpl]; omega)
        rwa [hpl] at this

/-- **C86**, compiled model scripts, restricted to files in which an animation comes before the first event: whatever the chunks before it hold, whatever the animation
itself holds and whatever bytes follow, loading never has undefined behaviour and never throws; it can only run forever, in the frames of one of five kinds of events
whose name is then in the file. The old contents of the script do not matter. -/
theorem c86_msb_partial (s : Script) (pre : Bytes) (cs : List Spec.Chunk) (hc : ∀ c ∈ cs, c.type ∉ eventChunks) (p rest : Bytes)
    (hl : (pre ++ chunksBytes cs ++ chunkBytes 0xF520 p ++ rest).length < 2 ^ 32) :
    let data := pre ++ chunksBytes cs ++ chunkBytes 0xF520 p ++ rest
    (∃ s' pos, loadBinary s ⟨data, pre.length⟩ = .ok (s', ⟨data, pos⟩) ∧ pos ≤ data.length) ∨
      (loadBinary s ⟨data, pre.length⟩ = .error .hang ∧ ∃ n ∈ frameNames, n <:+: data) := by
  intro data
  have := msb_run (data := data) hl cs hc pre rfl (s, -1) (.inl rfl) (data.length - pre.length + 1) (by omega)
  clear_value data
  have key : readChunked (simpleCb msbChunk) (s, (-1 : BitVec 32)) ⟨data, pre.length⟩ =
    readChunkedFuel (simpleCb msbChunk) (data.length - pre.length + 1) (s, -1) ⟨data, pre.length⟩ := rfl
  rw [← key] at this
  unfold loadBinary
  rcases this with ⟨a, pos', e, l, -⟩ | ⟨e, he, rfl, hn⟩
  · refine .inl ⟨a.1, pos', ?_, l⟩
    rw [Rd.bind_ok e]
    rfl
  · refine .inr ⟨?_, hn⟩
    rw [Rd.bind_err he]

/-- **C86**, compiled model scripts: files without the names of these events are always loaded. -/
theorem c86_msb_loads_partial (s : Script) (pre : Bytes) (cs : List Spec.Chunk) (hc : ∀ c ∈ cs, c.type ∉ eventChunks) (p rest : Bytes)
    (hl : (pre ++ chunksBytes cs ++ chunkBytes 0xF520 p ++ rest).length < 2 ^ 32)
    (hn : ∀ n ∈ frameNames, Without (pre ++ chunksBytes cs ++ chunkBytes 0xF520 p ++ rest) n) :
    ∃ s' pos, loadBinary s ⟨pre ++ chunksBytes cs ++ chunkBytes 0xF520 p ++ rest, pre.length⟩ =
      .ok (s', ⟨pre ++ chunksBytes cs ++ chunkBytes 0xF520 p ++ rest, pos⟩) := by
  rcases c86_msb_partial s pre cs hc p rest hl with ⟨s', pos, h, -⟩ | ⟨-, n, h1, h2⟩
  · exact ⟨s', pos, h⟩
  · exact absurd h2 (hn n h1)

/-- A file that is cut in the middle of an event behind an animation cut short. -/
example : (loadBinary {} ⟨[] ++ chunksBytes [⟨0xF300, b!"ab"⟩, ⟨0xF000, []⟩] ++ chunkBytes 0xF520 [65] ++ [0xA5, 0xF5, 1], 0⟩).map (fun r => r.1.animations.length) = .ok 1 := by
  decide +kernel

/-- **C86** is false of compiled model scripts that begin with an event: for the two kinds of events without texts, whatever
follows. Loading is into a new script. -/
theorem c86_msb_violation (rest : Bytes) (t : BitVec 16) (ht : t = 0xF5A5 ∨ t = 0xF5AA) : loadBinary {} ⟨encW 2 t ++ rest, 0⟩ = .error .ub := by
  have h0 : (0 : Nat) ≤ (encW 2 t ++ rest).length := Nat.zero_le _
  have e1 : Rd.u16 ⟨encW 2 t ++ rest, 0⟩ = .ok (t, ⟨encW 2 t ++ rest, 2⟩) := by simpa using Reads.u16 t [] rest
  obtain ⟨z, e2⟩ := Rd.word_ok 32 4 (encW 2 t ++ rest) 2 (by simp)
  generalize hq : min (2 + 4) (encW 2 t ++ rest).length = q at e2
  have hq1 : q ≤ (encW 2 t ++ rest).length := by omega
  have ub : ∀ (f : Mds.Animation → Mds.Animation) (st : Rs), atAni (({} : Script), (-1 : BitVec 32)) f st = .error .ub := fun _ _ => rfl
  have word : ∀ {α : Type} (f : BitVec 32 → Rd α) (p : Nat), p ≤ (encW 2 t ++ rest).length →
      (∀ x p', p' ≤ (encW 2 t ++ rest).length → f x ⟨encW 2 t ++ rest, p'⟩ = .error .ub) → (Rd.u32 >>= f) ⟨encW 2 t ++ rest, p⟩ = .error .ub := by
    intro α f p hp h
    obtain ⟨x, e⟩ := Rd.word_ok 32 4 (encW 2 t ++ rest) p hp
    rw [Rd.bind_ok (show Rd.u32 _ = _ from e)]
    exact h _ _ (by omega)
  have hcb : msbChunk (({} : Script), (-1 : BitVec 32)) t ⟨encW 2 t ++ rest, q⟩ = .error .ub := by
    rcases ht with rfl | rfl
    · show msbPfxStop _ _ = _
      exact word _ _ hq1 fun _ _ h => word _ _ h fun _ _ _ => ub _ _
    · show msbTremor _ _ = _
      exact word _ _ hq1 fun _ _ h => word _ _ h fun _ _ h => word _ _ h fun _ _ h => word _ _ h fun _ _ h => word _ _ h fun _ _ _ => ub _ _
  unfold loadBinary
  refine Rd.bind_err ?_
  unfold readChunked
  dsimp only
  simp only [readChunkedFuel]
  rw [Rd.bind_ok e1, Rd.bind_ok (show Rd.u32 _ = _ from e2), Rd.bind_ok (show Rd.tell ⟨encW 2 t ++ rest, q⟩ = .ok (q, _) from rfl)]
  refine Rd.bind_err ?_
  unfold simpleCb
  exact Rd.bind_err hcb

end Verif.Props
