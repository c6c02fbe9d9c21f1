import Verif.Lemmas.ForeignChunks
import Verif.Props.Meshes
import Verif.Props.Font
import Verif.Props.Bsp
import Verif.Lemmas.WholeMesh

/-! # Chunks that a loader does not know: C101 -/

namespace Verif.Props

open Spec

/-- **C101** — a multi resolution mesh is loaded from a file with more chunks as if they were not there. -/
theorem c101_mrm {μ} (mats : Nat → Rd (List μ)) (f : MrmFile μ) (hf : f.Ok mats) (hl : f.bytes.length < 2 ^ 32) {cs : List Seg}
    (he : Extended MrmFile.known f.segs cs) (old : Mrm μ) (pre post : Bytes) :
    Mrm.load mats old ⟨pre ++ segsBytes cs ++ post, pre.length⟩ =
      .ok (f.mesh old.alphaTest, ⟨pre ++ segsBytes cs ++ post, pre.length + (segsBytes cs).length⟩) :=
  Reads.segs ((Mrm.run_load mats f hf hl old).extended (Mrm.skips mats) he) pre post

/-- **C101** — soft skin meshes. -/
theorem c101_softskin {μ} (mats : Nat → Rd (List μ)) (f : SkinFile μ) (hf : f.Ok mats) {cs : List Seg} (he : Extended SkinFile.known f.segs cs)
    (old : SoftSkin μ) (pre post : Bytes) :
    SoftSkin.load mats old ⟨pre ++ segsBytes cs ++ post, pre.length⟩ =
      .ok (f.skin old.mesh.alphaTest, ⟨pre ++ segsBytes cs ++ post, pre.length + (segsBytes cs).length⟩) :=
  Reads.segs ((SoftSkin.run_load mats f hf old).extended (SoftSkin.skips mats) he) pre post

/-- **C101** — meshes of models. -/
theorem c101_modelmesh {μ} (mats : Nat → Rd (List μ)) (f : ModelMeshFile μ) (hf : f.Ok mats) {cs : List Seg}
    (he : Extended ModelMeshFile.known f.segs cs) (c : BitVec 32) (pre post : Bytes) :
    ModelMesh.load mats ⟨[], [], c⟩ ⟨pre ++ segsBytes cs ++ post, pre.length⟩ =
      .ok (f.mesh, ⟨pre ++ segsBytes cs ++ post, pre.length + (segsBytes cs).length⟩) :=
  (Reads.segs ((ModelMesh.run_load mats f hf c).extended (ModelMesh.skips mats) he)).bind_pure (f := ModelMesh.St.obj) pre post

/-- **C101** — morph meshes, whose file has no end marker: chunks at the end are skipped, too. -/
theorem c101_morph {μ} (mats : Nat → Rd (List μ)) (f : MorphFile μ) (hf : f.Ok mats) {cs more : List Seg} (he : Extended MorphFile.known f.segs cs)
    (hm : Foreign MorphFile.known more) (old : MorphMesh μ) (ho : old.animations = []) (pre : Bytes) :
    MorphMesh.load mats old ⟨pre ++ segsBytes (cs ++ more), pre.length⟩ =
      .ok (f.morph old.mesh.alphaTest, ⟨pre ++ segsBytes (cs ++ more), (pre ++ segsBytes (cs ++ more)).length⟩) := by
  have h := MorphMesh.run_load mats f hf old
  rw [ho, List.nil_append] at h
  exact readChunked_segs ((h.extended (MorphMesh.skips mats) he).foreign (MorphMesh.skips mats) hm) pre

/-- **C101** — animations. -/
theorem c101_animation (o : SampleOps) (f : AnimFile) (hf : f.Ok) {cs more : List Seg} (he : Extended AnimFile.known f.segs cs)
    (hm : Foreign AnimFile.known more) (old : Animation) (pre : Bytes) :
    Animation.load o old ⟨pre ++ segsBytes (cs ++ more), pre.length⟩ =
      .ok (f.animation o, ⟨pre ++ segsBytes (cs ++ more), (pre ++ segsBytes (cs ++ more)).length⟩) :=
  readChunked_segs (((Animation.run_load o f hf old).extended (Animation.skips o) he).foreign (Animation.skips o) hm) pre

/-- **C101** — hierarchies: additional chunks in a saved hierarchy change nothing. -/
theorem c101_hierarchy (h old : Hierarchy) (hn : ∀ n ∈ h.nodes, NoEol n.name) (hp : NoEol h.sourcePath)
    (hc : h.nodes.length < 2 ^ 16) (hb : h.body.length < 2 ^ 32) (hs : h.source.length < 2 ^ 32) :
    ∃ cs, (h.save Ws.empty).data = segsBytes cs ∧ cs.length = 3 ∧ ∀ cs', Extended hierarchyKnown cs cs' → ∀ pre post : Bytes,
      Hierarchy.load old ⟨pre ++ segsBytes cs' ++ post, pre.length⟩ =
        .ok (h, ⟨pre ++ segsBytes cs' ++ post, pre.length + (segsBytes cs').length⟩) := by
  refine ⟨h.chunks.map Chunk.seg, ?_, rfl, fun cs' he => Reads.segs ((Hierarchy.run h old hn hp hc hb hs).segs.extended Hierarchy.skips he)⟩
  rw [Hierarchy.emits h _ (Nat.le_refl _), chunksBytes_segs]
  simp [Ws.write, splice, Hierarchy.enc, Ws.empty]

/-- **C101** — models, with additional chunks in both parts. -/
theorem c101_model {μ} (mats : Nat → Rd (List μ)) (h old : Hierarchy) (hn : ∀ n ∈ h.nodes, NoEol n.name) (hp : NoEol h.sourcePath)
    (hc : h.nodes.length < 2 ^ 16) (hb : h.body.length < 2 ^ 32) (hs : h.source.length < 2 ^ 32) (f : ModelMeshFile μ) (hf : f.Ok mats)
    (c : BitVec 32) {ds : List Seg} (hd : Extended ModelMeshFile.known f.segs ds) :
    ∃ cs, (h.save Ws.empty).data = segsBytes cs ∧ cs.length = 3 ∧ ∀ cs', Extended hierarchyKnown cs cs' → ∀ pre post : Bytes,
      GModel.load mats ⟨old, ⟨[], [], c⟩⟩ ⟨pre ++ (segsBytes cs' ++ segsBytes ds) ++ post, pre.length⟩ =
        .ok (⟨h, f.mesh⟩, ⟨pre ++ (segsBytes cs' ++ segsBytes ds) ++ post, pre.length + (segsBytes cs' ++ segsBytes ds).length⟩) := by
  obtain ⟨cs, e, e3, hr⟩ := c101_hierarchy h old hn hp hc hb hs
  refine ⟨cs, e, e3, fun cs' he => ?_⟩
  have r1 : Reads (Hierarchy.load old) (segsBytes cs') h := hr cs' he
  have r2 : Reads (ModelMesh.load mats ⟨[], [], c⟩) (segsBytes ds) f.mesh := c101_modelmesh mats f hf hd c
  exact r1.bind (Reads.bind_pure (f := fun mesh => (⟨h, mesh⟩ : GModel μ)) r2)

/-- **C101** — BSP trees. -/
theorem c101_bsp (g1 : Bool) (b : Bsp) (t : BTree) (h : Holds g1 b t) (mode : BitVec 32) (w : Ws) (hw : w.pos ≤ w.data.length) :
    ∃ cs, b.save g1 w = .ok (w.write (segsBytes cs)) ∧ cs.length = 6 ∧ ∀ cs', Extended bspKnown cs cs' → ∀ pre post : Bytes,
      Bsp.load g1 { mode := mode } ⟨pre ++ segsBytes cs' ++ post, pre.length⟩ =
        .ok (b, ⟨pre ++ segsBytes cs' ++ post, pre.length + (segsBytes cs').length⟩) := by
  refine ⟨(Bsp.chunks g1 b t).map Chunk.seg, ?_, rfl, fun cs' he => Reads.segs ((bsp_run g1 b t h mode).segs.extended (Bsp.skips g1) he)⟩
  rw [chunksBytes_segs]
  exact Bsp.save_emits g1 b t h.nodes h.proper (by have := h.small; omega) w hw

/-- **C101** — world meshes: whatever a saved mesh becomes when it is loaded (see C88), it becomes the same with additional chunks. -/
theorem c101_mesh (g : Obj.Game) (e e' : Ar.Env) (he : Obj.ClockOk e e') (m old : WholeMesh) (ord : List (Option Nat)) (ho : m.Order ord)
    (hm : ∀ x ∈ m.materials, x.Plain) (hmn : m.materials.length < 10 ^ 9) (h10 : m.materials.length % 256 ≠ 10)
    (hln : m.lightmaps.length < 2 ^ 32) (hl : ∀ l ∈ m.lightmaps, ∃ t, m.picture l = some t ∧ t.Storable)
    (vs fs : List (BitVec 32))
    (hv : ∃ t, (if (g != .g1) = true then m.core.polygons.vertices else m.core.vertexIndices) = vs ++ t)
    (hf : ∃ t, (if (g != .g1) = true then m.core.polygons.features else m.core.featureIndices) = fs ++ t)
    (h : MeshFits (g != .g1) m.core vs fs) (w : Ws) (hw : w.pos ≤ w.data.length) :
    ∃ cs, m.save g e e' ord w = .ok (w.write (segsBytes cs)) ∧ cs.length = 8 ∧ ((segsBytes cs).length < 2 ^ 32 → ∃ m' : WholeMesh,
      m'.materials = Obj.Material.keptIn g old.materials m.materials ∧ m'.core.vertices = m.core.vertices ∧
      ∀ cs', Extended meshKnown cs cs' → ∀ pre post : Bytes,
        WholeMesh.load false old ⟨pre ++ segsBytes cs' ++ post, pre.length⟩ =
          .ok (m', ⟨pre ++ segsBytes cs' ++ post, pre.length + (segsBytes cs').length⟩)) := by
  obtain ⟨ts, -, -, bs, hs, front, rfl, h7, -, hr⟩ := WholeMesh.round_run g e e' he m old ord ho hm hmn h10 hln hl vs fs hv hf h
  refine ⟨(front ++ [(⟨0xB060, []⟩ : Spec.Chunk)]).map Chunk.seg, ?_, by simp [h7], fun hb => ?_⟩
  · rw [chunksBytes_segs]
    exact hs w hw
  · rw [chunksBytes_segs] at hb
    obtain ⟨v, run⟩ := hr hb
    refine ⟨_, ?_, ?_, fun cs' hx => (Reads.segs (run.segs.extended (WholeMesh.skips false) hx)).bind_pure⟩ <;> rfl

/-- A saved hierarchy with a chunk of another tool in front of its end. -/
example : ∃ cs, Extended hierarchyKnown (demoHierarchy.chunks.map Chunk.seg) cs ∧ cs.length = 4 ∧
    (segsBytes cs).length = (demoHierarchy.save Ws.empty).data.length + 9 ∧
    Hierarchy.load demoHierarchy ⟨segsBytes cs, 0⟩ = .ok (demoHierarchy, ⟨segsBytes cs, (segsBytes cs).length⟩) := by
  have he : Extended hierarchyKnown (demoHierarchy.chunks.map Chunk.seg)
      ((demoHierarchy.chunks.map Chunk.seg).take 2 ++ Seg.of 0xD130 b!"xyz" :: (demoHierarchy.chunks.map Chunk.seg).drop 2) :=
    .keep _ (.keep _ (.more _ _ (by decide) (by decide) (.last _)))
  refine ⟨_, he, rfl, by decide +kernel, ?_⟩
  have := Reads.segs ((Hierarchy.run demoHierarchy demoHierarchy (by decide) (by decide) (by decide) (by decide +kernel) (by decide +kernel)).segs.extended
    Hierarchy.skips he) [] []
  simp only [List.nil_append, List.append_nil, List.length_nil, Nat.zero_add] at this
  exact this

/-- A morph mesh with two more chunks, one of which looks like an end marker of another kind of mesh. -/
example : ∃ cs, Extended MorphFile.known demoMorph.segs cs ∧ cs.length = 7 ∧ ∃ st,
    MorphMesh.load demoMats ⟨[], ModelMesh.newMrm, [], [], []⟩ ⟨segsBytes (cs ++ [Seg.of 0xE110 [1, 2, 3]]), 0⟩ = .ok (demoMorph.morph 1, st) := by
  have he : Extended MorphFile.known demoMorph.segs (Seg.of 0x1234 b!"xyz" :: demoMorph.segs.take 2 ++ Seg.of 0xD040 [] :: demoMorph.segs.drop 2) :=
    .more _ _ (by decide) (by decide) (.keep _ (.keep _ (.more _ _ (by decide) (by decide) (.keep _ (.keep _ (.last _))))))
  refine ⟨_, he, rfl, _, c101_morph demoMats demoMorph demoMorph_ok he ?_ ⟨[], ModelMesh.newMrm, [], [], []⟩ rfl []⟩
  intro c hc
  rw [List.mem_singleton] at hc
  exact ⟨_, _, hc, by decide, by decide⟩

end Verif.Props
