import Verif.Lemmas.ChunkForms
import Verif.Props.ForeignChunks

/-! # Chunks in another order: C117 -/

namespace Verif.Props

open Spec

/-- A run through chunks in front of an end marker, in another order. -/
theorem run_reordered {σ} {cb : ChunkCb σ} {needs : List (BitVec 16 × BitVec 16)}
    (hc : ∀ t u, t ≠ u → (t, u) ∉ needs → (u, t) ∉ needs → Commutes cb t u) {front front' : List Seg} {e : Seg} {s s' : σ} {done : Bool}
    (h : SegRun cb s (front ++ [e]) s' done) (hr : Reordered needs front front') : SegRun cb s (front' ++ [e]) s' done := by
  obtain ⟨m, h1, h2⟩ := h.steps rfl
  exact (h1.reordered hc hr).run h2

/-- **C117** — the chunks of a saved hierarchy in front of its end can be in any order, and mixed with others. -/
theorem c117_hierarchy (h old : Hierarchy) (hn : ∀ n ∈ h.nodes, NoEol n.name) (hp : NoEol h.sourcePath)
    (hc : h.nodes.length < 2 ^ 16) (hb : h.body.length < 2 ^ 32) (hs : h.source.length < 2 ^ 32) :
    ∃ front e, (h.save Ws.empty).data = segsBytes (front ++ [e]) ∧ front.length = 2 ∧ ∀ front' cs, Reordered [] front front' →
      Extended hierarchyKnown (front' ++ [e]) cs → ∀ pre post : Bytes,
      Hierarchy.load old ⟨pre ++ segsBytes cs ++ post, pre.length⟩ = .ok (h, ⟨pre ++ segsBytes cs ++ post, pre.length + (segsBytes cs).length⟩) := by
  refine ⟨[Seg.of 0xD100 h.body, Seg.of 0xD110 h.source], Seg.of 0xD120 [], ?_, rfl, fun front' cs hr he =>
    Reads.segs ((run_reordered Hierarchy.commutes (Hierarchy.run h old hn hp hc hb hs).segs hr).extended Hierarchy.skips he)⟩
  rw [Hierarchy.emits h _ (Nat.le_refl _)]
  simp [Ws.write, splice, Hierarchy.enc, Hierarchy.chunks, chunksBytes, segsBytes, Seg.of_bytes, Ws.empty]

/-- **C117** — BSP trees, if the tree stays behind the polygons and in front of the light points. Missing: see `c117_bsp_violation`. -/
theorem c117_bsp_partial (g1 : Bool) (b : Bsp) (t : BTree) (h : Holds g1 b t) (mode : BitVec 32) (w : Ws) (hw : w.pos ≤ w.data.length) :
    ∃ front e, b.save g1 w = .ok (w.write (segsBytes (front ++ [e]))) ∧ front.length = 5 ∧ ∀ front' cs, Reordered bspNeeds front front' →
      Extended bspKnown (front' ++ [e]) cs → ∀ pre post : Bytes,
      Bsp.load g1 { mode := mode } ⟨pre ++ segsBytes cs ++ post, pre.length⟩ =
        .ok (b, ⟨pre ++ segsBytes cs ++ post, pre.length + (segsBytes cs).length⟩) := by
  have run := (bsp_run g1 b t h mode).segs
  refine ⟨((Bsp.chunks g1 b t).take 5).map Chunk.seg, ((Bsp.chunks g1 b t)[5]'(by simp [Bsp.chunks])).seg, ?_, rfl, fun front' cs hr he =>
    Reads.segs ((run_reordered (Bsp.commutes g1) run hr).extended (Bsp.skips g1) he)⟩
  rw [show ((Bsp.chunks g1 b t).take 5).map Chunk.seg ++ [((Bsp.chunks g1 b t)[5]'(by simp [Bsp.chunks])).seg] = (Bsp.chunks g1 b t).map Chunk.seg from rfl,
    chunksBytes_segs]
  exact Bsp.save_emits g1 b t h.nodes h.proper (by have := h.small; omega) w hw

/-- **C117** — world meshes, if the header stays in front of the polygons, as it holds the version. -/
theorem c117_mesh_partial (g : Obj.Game) (e e' : Ar.Env) (he : Obj.ClockOk e e') (m old : WholeMesh) (ord : List (Option Nat)) (ho : m.Order ord)
    (hm : ∀ x ∈ m.materials, x.Plain) (hmn : m.materials.length < 10 ^ 9) (h10 : m.materials.length % 256 ≠ 10)
    (hln : m.lightmaps.length < 2 ^ 32) (hl : ∀ l ∈ m.lightmaps, ∃ t, m.picture l = some t ∧ t.Storable)
    (vs fs : List (BitVec 32))
    (hv : ∃ t, (if (g != .g1) = true then m.core.polygons.vertices else m.core.vertexIndices) = vs ++ t)
    (hf : ∃ t, (if (g != .g1) = true then m.core.polygons.features else m.core.featureIndices) = fs ++ t)
    (h : MeshFits (g != .g1) m.core vs fs) (w : Ws) (hw : w.pos ≤ w.data.length) :
    ∃ front last, m.save g e e' ord w = .ok (w.write (segsBytes (front ++ [last]))) ∧ front.length = 7 ∧
      ((segsBytes (front ++ [last])).length < 2 ^ 32 → ∃ m' : WholeMesh,
        m'.materials = Obj.Material.keptIn g old.materials m.materials ∧ m'.core.vertices = m.core.vertices ∧
        ∀ front' cs, Reordered meshNeeds front front' → Extended meshKnown (front' ++ [last]) cs → ∀ pre post : Bytes,
          WholeMesh.load false old ⟨pre ++ segsBytes cs ++ post, pre.length⟩ =
            .ok (m', ⟨pre ++ segsBytes cs ++ post, pre.length + (segsBytes cs).length⟩)) := by
  obtain ⟨ts, -, -, bs, hs, front, rfl, h7, -, hr⟩ := WholeMesh.round_run g e e' he m old ord ho hm hmn h10 hln hl vs fs hv hf h
  have es : front.map Chunk.seg ++ [Seg.of 0xB060 []] = (front ++ [(⟨0xB060, []⟩ : Spec.Chunk)]).map Chunk.seg := by
    rw [List.map_append]
    rfl
  refine ⟨front.map Chunk.seg, Seg.of 0xB060 [], ?_, by simp [h7], fun hb => ?_⟩
  · rw [es, chunksBytes_segs]
    exact hs w hw
  · rw [es, chunksBytes_segs] at hb
    obtain ⟨v, run⟩ := hr hb
    have run := run.segs
    rw [← es] at run
    refine ⟨_, ?_, ?_, fun front' cs hr hx =>
      (Reads.segs ((run_reordered (WholeMesh.commutes false) run hr).extended (WholeMesh.skips false) hx)).bind_pure⟩ <;> rfl

theorem reordered_ne {needs : List (BitVec 16 × BitVec 16)} {cs cs' : List Seg} (h : Reordered needs cs cs') (hn : cs ≠ []) : cs' ≠ [] := by
  intro e
  subst e
  exact hn h.perm.symm.eq_nil

/-- **C117** — animations, if the samples stay behind the header. Missing: see `c117_animation_violation`. -/
theorem c117_animation_partial (o : SampleOps) (f : AnimFile) (hf : f.Ok) {cs cs' : List Seg} (hr : Reordered animationNeeds f.segs cs)
    (he : Extended AnimFile.known cs cs') (old : Animation) (pre : Bytes) :
    Animation.load o old ⟨pre ++ segsBytes cs', pre.length⟩ =
      .ok (f.animation o, ⟨pre ++ segsBytes cs', (pre ++ segsBytes cs').length⟩) :=
  readChunked_segs ((((Animation.run_load o f hf old).all_steps.reordered (Animation.commutes o) hr).all_run
    (reordered_ne hr (by simp [AnimFile.segs]))).extended (Animation.skips o) he) pre

/-- **C117** — morph meshes, if the positions stay behind the mesh. -/
theorem c117_morph_partial {μ} (mats : Nat → Rd (List μ)) (f : MorphFile μ) (hf : f.Ok mats) {cs cs' : List Seg}
    (hr : Reordered morphNeeds f.segs cs) (he : Extended MorphFile.known cs cs') (old : MorphMesh μ) (ho : old.animations = []) (pre : Bytes) :
    MorphMesh.load mats old ⟨pre ++ segsBytes cs', pre.length⟩ =
      .ok (f.morph old.mesh.alphaTest, ⟨pre ++ segsBytes cs', (pre ++ segsBytes cs').length⟩) := by
  have h := MorphMesh.run_load mats f hf old
  rw [ho, List.nil_append] at h
  exact readChunked_segs (((h.all_steps.reordered (MorphMesh.commutes mats) hr).all_run
    (reordered_ne hr (by simp [MorphFile.segs]))).extended (MorphMesh.skips mats) he) pre

/-- **C117** — soft skin meshes, if the weights stay behind the mesh. -/
theorem c117_softskin_partial {μ} (mats : Nat → Rd (List μ)) (f : SkinFile μ) (hf : f.Ok mats) {front front' cs : List Seg} {e : Seg}
    (hs : f.segs = front ++ [e]) (hr : Reordered skinNeeds front front') (he : Extended SkinFile.known (front' ++ [e]) cs) (old : SoftSkin μ)
    (pre post : Bytes) :
    SoftSkin.load mats old ⟨pre ++ segsBytes cs ++ post, pre.length⟩ =
      .ok (f.skin old.mesh.alphaTest, ⟨pre ++ segsBytes cs ++ post, pre.length + (segsBytes cs).length⟩) :=
  Reads.segs ((run_reordered (SoftSkin.commutes mats) (hs ▸ SoftSkin.run_load mats f hf old) hr).extended (SoftSkin.skips mats) he) pre post

/-- **C117** is false of animations whose samples come in front of the header: they are lost, as the number of nodes and frames is not
known yet. -/
theorem c117_animation_violation : ∃ f : AnimFile, f.Ok ∧ ∃ cs, cs.Perm f.segs ∧ ∃ a st,
    Animation.load demoOps { f.anim with nodeCount := 0 } ⟨segsBytes cs, 0⟩ = .ok (a, st) ∧ a.samples = [] ∧ (f.animation demoOps).samples ≠ [] := by
  let f := demoAnim { demoEvent with values := [1, 2, 3, 4] }
  have hp : (f.segs.drop 4 ++ f.segs.take 4).Perm f.segs := by
    have := List.perm_append_comm (l₁ := f.segs.drop 4) (l₂ := f.segs.take 4)
    rwa [List.take_append_drop] at this
  refine ⟨f, demoAnim_ok, _, hp, ?_⟩
  have key : (match Animation.load demoOps { f.anim with nodeCount := 0 } ⟨segsBytes (f.segs.drop 4 ++ f.segs.take 4), 0⟩ with
    | .ok (a, _) => a.samples.isEmpty
    | .error _ => false) = true := by decide +kernel
  have key2 : (f.animation demoOps).samples ≠ [] := by decide +kernel
  revert key
  generalize Animation.load demoOps { f.anim with nodeCount := 0 } ⟨segsBytes (f.segs.drop 4 ++ f.segs.take 4), 0⟩ = r
  intro key
  match r, key with
  | .ok (a, st), key => exact ⟨a, st, rfl, List.isEmpty_iff.1 key, key2⟩
  | .error _, key => cases key

/-- **C117** is false of BSP trees whose light points come in front of the tree: they are lost, as the number of leaves is not known yet. -/
theorem c117_bsp_violation : ∃ front e, demoBsp.save true Ws.empty = .ok ⟨segsBytes (front ++ [e]), (segsBytes (front ++ [e])).length⟩ ∧
    ∃ front', front'.Perm front ∧ ∃ b st, Bsp.load true {} ⟨segsBytes (front' ++ [e]), 0⟩ = .ok (b, st) ∧
      b.nodes = demoBsp.nodes ∧ b.lightPoints = [] ∧ demoBsp.lightPoints ≠ [] := by
  let cs := (Bsp.chunks true demoBsp demoTree).map Chunk.seg
  refine ⟨cs.take 5, Seg.of 0xC0FF [66], ?_, (cs.take 5).take 2 ++ ([cs[3]'(by decide)] ++ ([cs[2]'(by decide)] ++ (cs.take 5).drop 4)), ?_, ?_⟩
  · have := Bsp.save_emits true demoBsp demoTree rfl (by simp [demoTree, demoLeaf, BTree.Proper]) (by decide) Ws.empty (Nat.le_refl _)
    have hw : ∀ bs : Bytes, Ws.empty.write bs = ⟨bs, bs.length⟩ := fun bs => by simp [Ws.write, splice, Ws.empty]
    rw [this, ← chunksBytes_segs, hw]
    rfl
  · exact List.Perm.append_left _ (List.Perm.swap _ _ _)
  · have key : (match Bsp.load true {} ⟨segsBytes ((cs.take 5).take 2 ++ ([cs[3]'(by decide)] ++ ([cs[2]'(by decide)] ++ (cs.take 5).drop 4)) ++
        [Seg.of 0xC0FF [66]]), 0⟩ with
      | .ok (b, _) => decide (b.nodes = demoBsp.nodes) && b.lightPoints.isEmpty
      | .error _ => false) = true := by decide +kernel
    revert key
    generalize Bsp.load true {} _ = r
    intro key
    match r, key with
    | .ok (b, st), key =>
      simp only [Bool.and_eq_true, decide_eq_true_eq] at key
      exact ⟨b, st, rfl, key.1, List.isEmpty_iff.1 key.2, by decide⟩
    | .error _, key => cases key

/-- The chunks of a mesh of triangles, as it is saved for Gothic 2, without boxes, and an object to load it into. -/
def demoMeshSegs : List Seg :=
  ((demoTriangles.chunks true [[(0, 0), (1, 0), (2, 0)], [(1, 0), (2, 0), (3, 0)]]).filter fun c => c.type != 0xB010).map Chunk.seg
def demoMeshOld : WholeMesh := { core := { demoTriangles with geometry := [], vertexIndices := [], featureIndices := [] } }

/-- The corners of the polygons that are loaded from chunks. -/
def loadedCorners (cs : List Seg) : Option (List (BitVec 32)) :=
  match WholeMesh.load false demoMeshOld ⟨segsBytes cs, 0⟩ with
  | .ok (m, _) => some m.core.vertexIndices
  | .error _ => none

/-- **C117** is false of meshes for Gothic 2 whose polygons come in front of the header: they are taken for those of Gothic 1, and no error is
reported. -/
theorem c117_mesh_violation : ∃ front e, demoMeshSegs = front ++ [e] ∧ ∃ front', front'.Perm front ∧
    loadedCorners (front ++ [e]) = some [0, 1, 2, 1, 2, 3] ∧ loadedCorners (front' ++ [e]) = some [] := by
  refine ⟨demoMeshSegs.take 3 ++ demoMeshSegs[3]'(by decide) :: [], Seg.of 0xB060 [], by rfl,
    demoMeshSegs[3]'(by decide) :: demoMeshSegs.take 3, ?_, by decide +kernel, by decide +kernel⟩
  exact List.perm_append_comm (l₁ := [demoMeshSegs[3]'(by decide)])

/-- Two neighbours that do not need each other can be exchanged. -/
theorem reordered_swap (needs : List (BitVec 16 × BitVec 16)) (a b : List Seg) (c d : Seg) (hn : c.type ≠ d.type)
    (h1 : (c.type, d.type) ∉ needs) (h2 : (d.type, c.type) ∉ needs) : Reordered needs (a ++ c :: d :: b) (a ++ d :: c :: b) := by
  have main : ∀ t u, ¬((c.type = t ∨ c.type = u) ∧ (d.type = t ∨ d.type = u)) →
      projected t u (a ++ d :: c :: b) = projected t u (a ++ c :: d :: b) := by
    intro t u h
    unfold projected
    rw [List.filter_append, List.filter_append]
    by_cases hc : c.type = t ∨ c.type = u <;> by_cases hd : d.type = t ∨ d.type = u
    · exact absurd ⟨hc, hd⟩ h
    all_goals simp [hc, hd]
  refine ⟨List.Perm.append_left _ (List.Perm.swap _ _ _), fun t => main t t ?_, fun p hp => main p.1 p.2 ?_⟩
  · rintro ⟨e, f⟩
    exact hn ((or_self_iff.1 e).trans (or_self_iff.1 f).symm)
  · obtain ⟨p, q⟩ := p
    rintro ⟨e | e, f | f⟩
    · exact hn (e.trans f.symm)
    · exact h1 (by rw [e, f]; exact hp)
    · exact h2 (by rw [e, f]; exact hp)
    · exact hn (e.trans f.symm)

theorem reordered_trans {needs : List (BitVec 16 × BitVec 16)} {x y z : List Seg} (h : Reordered needs x y) (h' : Reordered needs y z) :
    Reordered needs x z :=
  ⟨h'.perm.trans h.perm, fun t => (h'.same t).trans (h.same t), fun p hp => (h'.order p hp).trans (h.order p hp)⟩

/-- The sectors of a BSP tree in front of everything else, and the mode behind the polygons. -/
example : let cs := (Bsp.chunks true demoBsp demoTree).map Chunk.seg
    Reordered bspNeeds (cs.take 5) ([cs[4]'(by decide)] ++ [cs[1]'(by decide), cs[0]'(by decide)] ++ [cs[2]'(by decide), cs[3]'(by decide)]) := by
  intro cs
  have e : cs.take 5 = [cs[0]'(by decide), cs[1]'(by decide), cs[2]'(by decide), cs[3]'(by decide), cs[4]'(by decide)] := rfl
  rw [e]
  refine reordered_trans (reordered_swap _ [cs[0]'(by decide), cs[1]'(by decide), cs[2]'(by decide)] [] _ _ (by decide) (by decide) (by decide)) ?_
  refine reordered_trans (reordered_swap _ [cs[0]'(by decide), cs[1]'(by decide)] _ _ _ (by decide) (by decide) (by decide)) ?_
  refine reordered_trans (reordered_swap _ [cs[0]'(by decide)] _ _ _ (by decide) (by decide) (by decide)) ?_
  refine reordered_trans (reordered_swap _ [] _ _ _ (by decide) (by decide) (by decide)) ?_
  exact reordered_swap _ [cs[4]'(by decide)] _ _ _ (by decide) (by decide) (by decide)

/-- An animation whose events come first. -/
example : let f := demoAnim { demoEvent with values := [1, 2, 3, 4] }
    ∃ cs, Reordered animationNeeds f.segs cs ∧ cs.head?.map (·.type) = some 0xA030 ∧ ∃ st,
      Animation.load demoOps f.anim ⟨segsBytes cs, 0⟩ = .ok (f.animation demoOps, st) := by
  intro f
  have e : f.segs = [f.segs[0]'(by decide), f.segs[1]'(by decide), f.segs[2]'(by decide), f.segs[3]'(by decide), f.segs[4]'(by decide)] := rfl
  have h1 := reordered_swap animationNeeds [f.segs[0]'(by decide), f.segs[1]'(by decide)] [f.segs[4]'(by decide)] (f.segs[2]'(by decide))
    (f.segs[3]'(by decide)) (by decide) (by decide) (by decide)
  have h2 := reordered_swap animationNeeds [f.segs[0]'(by decide)] [f.segs[2]'(by decide), f.segs[4]'(by decide)] (f.segs[1]'(by decide))
    (f.segs[3]'(by decide)) (by decide) (by decide) (by decide)
  have h3 := reordered_swap animationNeeds [] [f.segs[1]'(by decide), f.segs[2]'(by decide), f.segs[4]'(by decide)] (f.segs[0]'(by decide))
    (f.segs[3]'(by decide)) (by decide) (by decide) (by decide)
  have h := reordered_trans (reordered_trans h1 h2) h3
  exact ⟨_, h, rfl, _, c117_animation_partial demoOps f demoAnim_ok h (.refl _ (by simp)) f.anim []⟩

end Verif.Props
