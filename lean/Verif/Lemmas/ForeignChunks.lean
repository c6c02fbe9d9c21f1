import Verif.Lemmas.Meshes
import Verif.Lemmas.Chunked
import Verif.Model.ModelHierarchy
import Verif.Model.Bsp
import Verif.Model.WholeMesh

/-! # Lemmas about chunks that a loader does not know -/

namespace Verif

open Spec

/-- A handler skips chunks whose type it does not know. -/
def Skips {σ} (known : List (BitVec 16)) (cb : ChunkCb σ) : Prop := ∀ s t target, t ∉ known → cb s t target = pure (s, false, target)

theorem Skips.handles {σ} {known : List (BitVec 16)} {cb : ChunkCb σ} (h : Skips known cb) (s : σ) {t : BitVec 16} (ht : t ∉ known) {bs : Bytes}
    (hl : bs.length < 2 ^ 32) : HandlesSeg cb s (Seg.of t bs) s false := by
  refine .of_target (fun target => ?_) hl
  rw [h s t target ht]
  exact fun pre post => ⟨pre.length, rfl⟩

theorem Skips.simple {σ} {known : List (BitVec 16)} {cb : σ → BitVec 16 → Rd (σ × Bool)} (h : ∀ s t, t ∉ known → cb s t = pure (s, false)) :
    Skips known (simpleCb cb) := by
  intro s t target ht
  unfold simpleCb
  rw [h s t ht]
  rfl

/-- More chunks do not change what is loaded. -/
theorem SegRun.extended {σ} {known : List (BitVec 16)} {cb : ChunkCb σ} (h : Skips known cb) {s s' : σ} {cs cs' : List Seg} {done : Bool}
    (he : Extended known cs cs') (hr : SegRun cb s cs s' done) : SegRun cb s cs' s' done := by
  induction he generalizing s with
  | last c => exact hr
  | keep c he ih =>
    cases hr with
    | last _ => cases he with
      | more t bs ht hl he' =>
        exfalso
        clear ih
        generalize hn : ([] : List Seg) = n at he'
        induction he' with
        | last => cases hn
        | keep => cases hn
        | more _ _ _ _ _ ih => exact ih hn
    | step h1 h2 => exact .step h1 (ih h2)
  | more t bs ht hl _ ih => exact .step (h.handles s ht hl) (ih hr)

/-- More chunks at the end of a file without an end marker do not change what is loaded. -/
theorem SegRun.foreign {σ} {known : List (BitVec 16)} {cb : ChunkCb σ} (h : Skips known cb) {s s' : σ} {cs more : List Seg} (hf : Foreign known more)
    (hr : SegRun cb s cs s' false) : SegRun cb s (cs ++ more) s' false := by
  induction more generalizing cs with
  | nil => rw [List.append_nil]; exact hr
  | cons c more ih =>
    obtain ⟨t, bs, rfl, ht, hl⟩ := hf c (List.mem_cons_self ..)
    have := ih (cs := cs ++ [Seg.of t bs]) (fun x hx => hf x (List.mem_cons_of_mem _ hx)) (hr.append (.last (h.handles s' ht hl)))
    rwa [List.append_assoc] at this

theorem Mrm.skips {μ} (mats : Nat → Rd (List μ)) : Skips MrmFile.known (simpleCb (onChunk mats)) := .simple fun s t ht => by
  simp only [MrmFile.known, List.mem_cons, List.not_mem_nil, or_false, not_or] at ht
  simp only [onChunk, ht, if_false]

theorem SoftSkin.skips {μ} (mats : Nat → Rd (List μ)) : Skips SkinFile.known (simpleCb (onChunk mats)) := .simple fun s t ht => by
  simp only [SkinFile.known, List.mem_cons, List.not_mem_nil, or_false, not_or] at ht
  simp only [onChunk, ht, if_false]

theorem ModelMesh.skips {μ} (mats : Nat → Rd (List μ)) : Skips ModelMeshFile.known (onChunk mats) := fun s t target ht => by
  simp only [ModelMeshFile.known, List.mem_cons, List.not_mem_nil, or_false, not_or] at ht
  simp only [onChunk, ht, if_false]

theorem MorphMesh.skips {μ} (mats : Nat → Rd (List μ)) : Skips MorphFile.known (simpleCb (onChunk mats)) := .simple fun s t ht => by
  simp only [MorphFile.known, List.mem_cons, List.not_mem_nil, or_false, not_or] at ht
  simp only [onChunk, ht, if_false]

theorem Animation.skips (o : SampleOps) : Skips AnimFile.known (simpleCb (onChunk o)) := .simple fun s t ht => by
  simp only [AnimFile.known, List.mem_cons, List.not_mem_nil, or_false, not_or] at ht
  simp only [onChunk, ht, if_false]

theorem Hierarchy.skips : Skips hierarchyKnown (simpleCb Hierarchy.onChunk) := .simple fun s t ht => by
  simp only [hierarchyKnown, List.mem_cons, List.not_mem_nil, or_false, not_or] at ht
  simp only [Hierarchy.onChunk, ht, if_false]

theorem Bsp.skips (g1 : Bool) : Skips bspKnown (simpleCb (Bsp.onChunk g1)) := .simple fun s t ht => by
  simp only [bspKnown, List.mem_cons, List.not_mem_nil, or_false, not_or] at ht
  simp only [Bsp.onChunk, ht, if_false]

theorem WholeMesh.skips (wide : Bool) : Skips meshKnown (simpleCb (WholeMesh.onChunk wide)) := .simple fun s t ht => by
  simp only [meshKnown, List.mem_cons, List.not_mem_nil, or_false, not_or] at ht
  simp only [WholeMesh.onChunk, WholeMesh.onChunkV, Mesh.onChunkV, ht, if_false]
  rfl

/-- Chunks with their right sizes are segments. -/
theorem ChunkRun.segs {σ} {cb : ChunkCb σ} {s s' : σ} {cs : List Chunk} (h : ChunkRun cb s cs s') : SegRun cb s (cs.map Chunk.seg) s' true := by
  have one : ∀ {s s' c done}, Handles cb s c s' done → HandlesSeg cb s (Chunk.seg c) s' done := by
    intro s s' c done h pre post
    obtain ⟨pos', hp⟩ := h.2 pre post
    have hz : (BitVec.ofNat 32 c.payload.length).toNat = c.payload.length := by simp; exact h.1
    refine ⟨pos', ?_⟩
    dsimp only [Chunk.seg, Seg.of, Seg.bytes]
    rw [hz]
    exact hp
  induction h with
  | last h => exact .last (one h)
  | step h _ ih => exact .step (one h) ih

theorem chunksBytes_segs (cs : List Chunk) : segsBytes (cs.map Chunk.seg) = chunksBytes cs := by
  unfold segsBytes chunksBytes
  rw [List.map_map]
  rfl

end Verif
