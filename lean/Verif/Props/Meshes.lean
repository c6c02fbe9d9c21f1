import Verif.Lemmas.Safe
import Verif.Lemmas.MeshSaved

/-! # Properties of meshes and animations: C52, C81–C86 -/

namespace Verif.Props

open Spec

/-- **C81** — the loader of multi resolution meshes: wherever in the content the parts of a well formed mesh lie, and whatever the object held
before, all positions, normals and sub meshes with their materials are loaded, the boxes too, and reading ends behind the end marker. -/
theorem c81_load {μ} (mats : Nat → Rd (List μ)) (f : MrmFile μ) (hf : f.Ok mats) (hl : f.bytes.length < 2 ^ 32) (old : Mrm μ) (pre post : Bytes) :
    Mrm.load mats old ⟨pre ++ mrmBytes f ++ post, pre.length⟩ =
      .ok (f.mesh old.alphaTest, ⟨pre ++ mrmBytes f ++ post, pre.length + (mrmBytes f).length⟩) :=
  Mrm.reads_load mats f hf hl old pre post

/-- Materials that are one byte each, for examples. -/
def demoMats (n : Nat) : Rd (List (BitVec 8)) := Rd.times Rd.u8 n

/-- A mesh with three positions (two of which are also the normals), one triangle and one material. The triangle comes first. -/
def demoMrm : MrmFile (BitVec 8) where
  version := 0x905
  content := encTriple ⟨0, 1, 2⟩ ++ [9, 9] ++ (Vec3.mem ⟨1, 2, 3⟩ ++ Vec3.mem ⟨4, 5, 6⟩ ++ Vec3.mem ⟨7, 8, 9⟩) ++
    (encWedge (⟨⟨1, 0, 0⟩, ⟨2, 3⟩, 1⟩, 77) ++ encU16 5 ++ encPlane ⟨6, ⟨0, 1, 0⟩⟩)
  positions := ⟨8, [⟨1, 2, 3⟩, ⟨4, 5, 6⟩, ⟨7, 8, 9⟩]⟩
  normals := ⟨20, [⟨4, 5, 6⟩, ⟨7, 8, 9⟩]⟩
  parts := [{ mat := 42, triangles := ⟨0, [⟨0, 1, 2⟩]⟩, wedges := ⟨44, [(⟨⟨1, 0, 0⟩, ⟨2, 3⟩, 1⟩, 77)]⟩, colors := ⟨0, []⟩,
              planeIndices := ⟨68, [5]⟩, planes := ⟨70, [⟨6, ⟨0, 1, 0⟩⟩]⟩, wedgeMap := ⟨86, []⟩, updates := (1, 2), triangleEdges := ⟨0, []⟩,
              edges := ⟨0, [⟨0, 1⟩]⟩, edgeScores := ⟨86, []⟩ }]
  matBytes := [42]
  alpha := 1
  bbox := ⟨⟨0, 0, 0⟩, ⟨9, 9, 9⟩⟩
  obbox := .mk ⟨0, 0, 0⟩ ⟨1, 0, 0⟩ ⟨0, 1, 0⟩ ⟨0, 0, 1⟩ ⟨1, 1, 1⟩ []
  pad := List.replicate 16 0

private theorem inAt {α} {enc : α → Bytes} {content : Bytes} {s : Sec α} (h1 : s.elems.length < 2 ^ 32)
    (h2 : content.take s.off.toNat ++ (s.elems.map enc).flatten ++ content.drop (s.off.toNat + ((s.elems.map enc).flatten).length) = content)
    (h3 : s.off.toNat ≤ content.length) : s.In enc content :=
  ⟨h1, _, _, h2.symm, by rw [List.length_take]; exact Nat.min_eq_left h3⟩

theorem demoMrm_ok : demoMrm.Ok demoMats where
  content := by decide +kernel
  count := by decide
  positions := inAt (by decide) (by decide +kernel) (by decide +kernel)
  normals := inAt (by decide) (by decide +kernel) (by decide +kernel)
  parts := by
    intro p hp
    simp only [demoMrm, List.mem_singleton] at hp
    subst hp
    refine ⟨inAt ?_ ?_ ?_, inAt ?_ ?_ ?_, inAt ?_ ?_ ?_, inAt ?_ ?_ ?_, inAt ?_ ?_ ?_, inAt ?_ ?_ ?_, inAt ?_ ?_ ?_, inAt ?_ ?_ ?_,
      inAt ?_ ?_ ?_⟩ <;> decide +kernel
  mats := (Reads.u8 42).bind ((Reads.pure _).bind (Reads.pure _))
  obbox := by simp [demoMrm, Obb.Small, Obb.SmallMany]
  pad := by decide

example : demoMrm.bytes.length < 2 ^ 32 ∧ (demoMrm.mesh 0).subMeshes.length = 1 ∧ (demoMrm.mesh 0).alphaTest = 1 := by decide +kernel

/-- **C52** is false of multi resolution meshes, every one of them: no sub mesh of a saved mesh is ever loaded again. The size that
`MultiResolutionMesh::save` stores is too large by four, so that the loader takes a byte of the offset of the positions, which is zero, for the
number of sub meshes. (`mats` is any reader of the materials that does not change the file.) -/
theorem c52_mrm_violation {μ} (matBytes : List μ → Bytes) (g1 : Bool) (m m0 : Mrm μ) {mats : Nat → Rd (List μ)} (hm : ∀ n, KeepsData (mats n))
    (hl : (m.save matBytes g1 ⟨[], 0⟩).data.length < 2 ^ 32) {m' : Mrm μ} {st : Rs}
    (h : Mrm.load mats m0 ⟨(m.save matBytes g1 ⟨[], 0⟩).data, 0⟩ = .ok (m', st)) : m'.subMeshes = [] :=
  Mrm.no_parts matBytes g1 m m0 hm hl h

/-- **C52** is false of soft skin meshes, every one of them: nothing but (at most) the positions and normals of a saved mesh is loaded again. The
chunk with the weights, normals, nodes and boxes is saved with the type of the header. -/
theorem c52_softskin_violation {μ} (matBytes : List μ → Bytes) (g1 : Bool) (m m0 : SoftSkin μ) {mats : Nat → Rd (List μ)}
    (hm : ∀ n, KeepsData (mats n)) (hl : (m.save matBytes g1 ⟨[], 0⟩).data.length < 2 ^ 32) {m' : SoftSkin μ} {st : Rs}
    (h : SoftSkin.load mats m0 ⟨(m.save matBytes g1 ⟨[], 0⟩).data, 0⟩ = .ok (m', st)) :
    m'.mesh.subMeshes = [] ∧ m'.weights = m0.weights ∧ m'.wedgeNormals = m0.wedgeNormals ∧ m'.nodes = m0.nodes ∧ m'.bboxes = m0.bboxes :=
  SoftSkin.nothing_back matBytes g1 m m0 hm hl h

/-- What is left of **C52** for multi resolution meshes: nothing is lost when a mesh is saved. The bytes are those of a well formed file in which a
few sizes are wrong (`MrmFile.saved`): whoever puts the right ones there (`MrmFile.bytes`) gets back the whole mesh, whatever the object held before.
Missing: that the loader could do without that. -/
theorem c52_mrm_content_partial {μ} (matBytes : List μ → Bytes) (mats : Nat → Rd (List μ)) (g1 : Bool) (m old : Mrm μ)
    (hn : m.subMeshes.length < 256) (hmat : Reads (mats m.subMeshes.length) (matBytes (m.subMeshes.map MrmPart.mat)) (m.subMeshes.map MrmPart.mat))
    (hm : m.materials = m.subMeshes.map MrmPart.mat) (ho : m.obbox.Small) (hl : (m.save matBytes g1 ⟨[], 0⟩).data.length < 2 ^ 32) :
    ∃ f : MrmFile μ, f.Ok mats ∧ (m.save matBytes g1 ⟨[], 0⟩).data = chunkBytes 0xB100 f.saved ++ chunkBytes 0xB1FF [] ∧
      Mrm.load mats old ⟨mrmBytes f, 0⟩ = .ok ({ m with alphaTest := if g1 then old.alphaTest else if m.alphaTest = 0 then 0 else 1 },
        ⟨mrmBytes f, (mrmBytes f).length⟩) := by
  obtain ⟨f, e, hok, hf⟩ := Mrm.save_saved matBytes g1 m ⟨[], 0⟩ (Nat.le_refl _) mats hn hmat ho
  have hd : (m.save matBytes g1 ⟨[], 0⟩).data = chunkBytes 0xB100 f.saved ++ chunkBytes 0xB1FF [] := by
    rw [e]
    simp [Ws.write, splice]
  rw [hd] at hl
  simp only [List.length_append, chunkBytes_length, List.length_nil] at hl
  have hok := hok (by omega)
  have hs := Mrm.saved_length f hok.pad
  refine ⟨f, hok, hd, ?_⟩
  have := c81_load mats f hok (by omega) old [] []
  simp only [List.nil_append, List.append_nil, List.length_nil, Nat.zero_add] at this
  rw [this, hf, ← hm]

theorem demoMats_keeps (n : Nat) : KeepsData (demoMats n) := KeepsData.times KeepsData.u8 n

/-- The bytes of the materials of `demoMats`. -/
def demoMatBytes (ms : List (BitVec 8)) : Bytes := (ms.map (encW 1)).flatten

theorem demoMats_fwd {T : Mode} (n : Nat) : Fwd T (demoMats n) := Fwd.times Fwd.u8 n

/-- The example mesh is saved without an error and loaded again without an error, but its sub mesh is lost. -/
example : (demoMrm.mesh 1).subMeshes.length = 1 ∧ ∃ m' st, m'.subMeshes = [] ∧
    Mrm.load demoMats ModelMesh.newMrm ⟨((demoMrm.mesh 1).save demoMatBytes false ⟨[], 0⟩).data, 0⟩ = .ok (m', st) := by
  have hl : ((demoMrm.mesh 1).save demoMatBytes false ⟨[], 0⟩).data.length < 2 ^ 32 := by decide +kernel
  refine ⟨by decide, ?_⟩
  rcases Mrm.fwd_load (T := .all False) demoMats_fwd ModelMesh.newMrm _ 0 ⟨hl, trivial⟩ (Nat.zero_le _) with ⟨m', pos, e, _, _⟩ | ⟨h, _⟩
  · exact ⟨m', _, c52_mrm_violation demoMatBytes false _ _ demoMats_keeps hl e, e⟩
  · exact h.elim

/-- The example mesh meets the hypotheses of `c52_mrm_content_partial`. -/
example : ∃ f : MrmFile (BitVec 8), f.Ok demoMats ∧ f.saved ≠ f.bytes ∧ f.positions.elems.length = 3 := by
  obtain ⟨f, hf, e, hl⟩ := c52_mrm_content_partial demoMatBytes demoMats false (demoMrm.mesh 1) ModelMesh.newMrm (by decide)
    ((Reads.u8 42).bind ((Reads.pure _).bind (Reads.pure _))) rfl demoMrm_ok.obbox (by decide +kernel)
  have h2 := c81_load demoMats f hf (by
    have := Mrm.saved_length f hf.pad
    have h3 : ((demoMrm.mesh 1).save demoMatBytes false ⟨[], 0⟩).data.length < 2 ^ 30 := by decide +kernel
    rw [e] at h3
    simp only [List.length_append, chunkBytes_length] at h3
    omega) ModelMesh.newMrm [] []
  simp only [List.nil_append, List.append_nil, List.length_nil, Nat.zero_add] at h2
  rw [h2] at hl
  injection hl with hl
  refine ⟨f, hf, fun h => ?_, ?_⟩
  · have := Mrm.saved_length f hf.pad
    rw [h] at this
    omega
  · have : f.positions.elems = (demoMrm.mesh 1).positions := congrArg (fun x => x.1.positions) hl
    rw [this]
    rfl

/-- **C82** — the loader of soft skin meshes: everything in a well formed file is loaded. -/
theorem c82_load {μ} (mats : Nat → Rd (List μ)) (f : SkinFile μ) (hf : f.Ok mats) (old : SoftSkin μ) (pre post : Bytes) :
    SoftSkin.load mats old ⟨pre ++ f.bytes ++ post, pre.length⟩ =
      .ok (f.skin old.mesh.alphaTest, ⟨pre ++ f.bytes ++ post, pre.length + f.bytes.length⟩) :=
  SoftSkin.reads_load mats f hf old pre post

/-- What is left of **C52** for soft skin meshes: nothing is lost either, see `c52_mrm_content_partial`. The only other mistakes are the size of the
weights and the type of the chunk that holds them. -/
theorem c52_softskin_content_partial {μ} (matBytes : List μ → Bytes) (mats : Nat → Rd (List μ)) (g1 : Bool) (m old : SoftSkin μ)
    (hn : m.mesh.subMeshes.length < 256)
    (hmat : Reads (mats m.mesh.subMeshes.length) (matBytes (m.mesh.subMeshes.map MrmPart.mat)) (m.mesh.subMeshes.map MrmPart.mat))
    (hm : m.mesh.materials = m.mesh.subMeshes.map MrmPart.mat) (ho : m.mesh.obbox.Small) (hw : m.weights.length = m.mesh.positions.length)
    (hn2 : m.nodes.length < 65536) (hb : m.bboxes.length = m.nodes.length) (hbs : Obb.SmallMany m.bboxes)
    (hl : (m.save matBytes g1 ⟨[], 0⟩).data.length < 2 ^ 32) :
    ∃ f : SkinFile μ, f.Ok mats ∧ (m.save matBytes g1 ⟨[], 0⟩).data = f.saved ∧ SoftSkin.load mats old ⟨f.bytes, 0⟩ =
      .ok ({ m with mesh := { m.mesh with alphaTest := if g1 then old.mesh.alphaTest else if m.mesh.alphaTest = 0 then 0 else 1 } },
        ⟨f.bytes, f.bytes.length⟩) := by
  obtain ⟨f, e, hok, hgap, hex, hf⟩ := SoftSkin.save_saved matBytes g1 m ⟨[], 0⟩ (Nat.le_refl _) mats hn hmat ho
  have hd : (m.save matBytes g1 ⟨[], 0⟩).data = f.saved := by
    rw [e]
    simp [Ws.write, splice]
  rw [hd] at hl
  have h0 := hf 0
  have h1 : f.weights = m.weights := congrArg SoftSkin.weights h0
  have h2 : f.wedgeNormals = m.wedgeNormals := congrArg SoftSkin.wedgeNormals h0
  have h3 : f.nodes = m.nodes := congrArg SoftSkin.nodes h0
  have h4 : f.bboxes = m.bboxes := congrArg SoftSkin.bboxes h0
  have h5 : f.mesh.positions.elems = m.mesh.positions := congrArg (fun x => x.mesh.positions) h0
  have hN : f.savedNodes.length = f.nodeBytes.length := by
    simp only [SkinFile.savedNodes, SkinFile.nodeBytes, List.length_append, encW_length]
  simp only [SkinFile.saved, List.length_append, chunkBytes_length, List.length_nil, encW_length] at hl
  have hmok := hok (by omega)
  have hs := Mrm.saved_length f.mesh hmok.pad
  have hnl : f.nodeBytes.length < 2 ^ 32 := by omega
  have hwl : f.weightBytes.length < 2 ^ 32 ∧ ((f.wedgeNormals.map encNormal).flatten).length < 2 ^ 32 := by
    simp only [SkinFile.nodeBytes, List.length_append, encW_length] at hnl
    omega
  have hfok : f.Ok mats :=
    { mesh := hmok
      meshSize := by omega
      weights := by rw [h1, h5, hw]
      weight := by
        intro es hes
        have a1 := Mrm.flat_length (enc := encWeight) (fun t => by simp [encWeight, Vec3.mem_length]) es
        have a2 : (encWeights es).length ≤ f.weightBytes.length := (List.sublist_flatten_of_mem (List.mem_map_of_mem hes)).length_le
        simp only [encWeights, List.length_append] at a2
        omega
      normals := by
        have := Mrm.flat_length (enc := encNormal) (fun t => by simp [encNormal, Vec3.mem_length]) f.wedgeNormals
        omega
      nodes := by rw [h3]; exact hn2
      bboxes := by rw [h3, h4]; exact hb
      small := by rw [h4]; exact hbs
      size := by omega }
  refine ⟨f, hfok, hd, ?_⟩
  have := c82_load mats f hfok old [] []
  simp only [List.nil_append, List.append_nil, List.length_nil, Nat.zero_add] at this
  rw [this, hf, ← hm]

/-- A soft skin mesh with weights for two nodes. -/
def demoSkin : SkinFile (BitVec 8) where
  version := 4
  mesh := demoMrm
  weights := [[⟨1, ⟨1, 1, 1⟩, 0⟩], [⟨2, ⟨1, 1, 1⟩, 0⟩, ⟨3, ⟨2, 2, 2⟩, 1⟩], []]
  gap := [0, 0, 0]
  wedgeNormals := [⟨⟨0, 0, 1⟩, 2⟩]
  nodes := [7, 8]
  bboxes := [demoMrm.obbox, demoMrm.obbox]
  extra := []

theorem demoSkin_ok : demoSkin.Ok demoMats where
  mesh := demoMrm_ok
  meshSize := by decide +kernel
  weights := by decide
  weight := by decide
  normals := by decide
  nodes := by decide
  bboxes := by decide
  small := by simp [demoSkin, demoMrm, Obb.SmallMany, Obb.Small]
  size := by decide +kernel

/-- The example is lost, too, when it is saved. -/
example : (demoSkin.skin 1).weights.length = 3 ∧ ∃ m' st, m'.weights = [] ∧
    SoftSkin.load demoMats ModelMesh.newSkin ⟨((demoSkin.skin 1).save demoMatBytes false ⟨[], 0⟩).data, 0⟩ = .ok (m', st) := by
  have hl : ((demoSkin.skin 1).save demoMatBytes false ⟨[], 0⟩).data.length < 2 ^ 32 := by decide +kernel
  refine ⟨by decide, ?_⟩
  rcases SoftSkin.fwd_load (T := .all False) demoMats_fwd ModelMesh.newSkin _ 0 ⟨hl, trivial⟩ (Nat.zero_le _) with ⟨m', pos, e, _, _⟩ | ⟨h, _⟩
  · exact ⟨m', _, (c52_softskin_violation demoMatBytes false _ _ demoMats_keeps hl e).2.1, e⟩
  · exact h.elim

/-- The example meets the hypotheses of `c52_softskin_content_partial`. -/
example : ∃ f : SkinFile (BitVec 8), f.Ok demoMats ∧ ((demoSkin.skin 1).save demoMatBytes false ⟨[], 0⟩).data = f.saved := by
  obtain ⟨f, hf, e, _⟩ := c52_softskin_content_partial demoMatBytes demoMats false (demoSkin.skin 1) ModelMesh.newSkin (by decide)
    ((Reads.u8 42).bind ((Reads.pure _).bind (Reads.pure _))) rfl demoMrm_ok.obbox (by decide) (by decide) (by decide) demoSkin_ok.small
    (by decide +kernel)
  exact ⟨f, hf, e⟩

/-- **C83** — the loader of model meshes: every soft skin mesh and every attachment, under its name, of a well formed file is loaded into a new
object. -/
theorem c83_load {μ} (mats : Nat → Rd (List μ)) (f : ModelMeshFile μ) (hf : f.Ok mats) (c : BitVec 32) (pre post : Bytes) :
    ModelMesh.load mats ⟨[], [], c⟩ ⟨pre ++ f.bytes ++ post, pre.length⟩ =
      .ok (f.mesh, ⟨pre ++ f.bytes ++ post, pre.length + f.bytes.length⟩) :=
  ModelMesh.reads_load mats f hf c pre post

/-- **C83** — the loader of models: the hierarchy and behind it the mesh. -/
theorem c83_model {μ} (mats : Nat → Rd (List μ)) (h old : Hierarchy) (hn : ∀ n ∈ h.nodes, NoEol n.name) (hp : NoEol h.sourcePath)
    (hc : h.nodes.length < 2 ^ 16) (hb : h.body.length < 2 ^ 32) (hs : h.source.length < 2 ^ 32) (f : ModelMeshFile μ) (hf : f.Ok mats)
    (c : BitVec 32) (pre post : Bytes) :
    GModel.load mats ⟨old, ⟨[], [], c⟩⟩ ⟨pre ++ ((h.save ⟨[], 0⟩).data ++ f.bytes) ++ post, pre.length⟩ =
      .ok (⟨h, f.mesh⟩, ⟨pre ++ ((h.save ⟨[], 0⟩).data ++ f.bytes) ++ post, pre.length + ((h.save ⟨[], 0⟩).data ++ f.bytes).length⟩) := by
  have e : (h.save ⟨[], 0⟩).data = h.enc := by
    rw [Hierarchy.emits h _ (Nat.le_refl _)]
    simp [Ws.write, splice]
  rw [e]
  exact ((Hierarchy.reads h old hn hp hc hb hs).bind (Reads.bind_pure (f := fun mesh => (⟨h, mesh⟩ : GModel μ))
    (ModelMesh.reads_load mats f hf c))) pre post

/-- A model mesh with two attachments and a soft skin mesh. -/
def demoModelMesh : ModelMeshFile (BitVec 8) where
  version := 0x04030506
  date := ⟨2001, 3, 15, 12, 30, 59⟩
  source := b!"HUM_BODY.ASC"
  attachments := [(b!"ZS_RIGHTHAND", demoMrm), (b!"ZS_LEFTHAND", demoMrm)]
  checksum := 99
  skinSize := 6
  skins := [demoSkin]

theorem demoModelMesh_ok : demoModelMesh.Ok demoMats where
  source := by decide
  sourceSize := by decide
  names := by
    intro a ha
    simp only [demoModelMesh, List.mem_cons, List.not_mem_nil, or_false] at ha
    rcases ha with rfl | rfl
    · exact ⟨by decide, 90, b!"S_RIGHTHAND", rfl, by decide⟩
    · exact ⟨by decide, 90, b!"S_LEFTHAND", rfl, by decide⟩
  distinct := by decide
  attachments := by
    intro a ha
    simp only [demoModelMesh, List.mem_cons, List.not_mem_nil, or_false] at ha
    rcases ha with rfl | rfl <;> exact ⟨demoMrm_ok, by decide +kernel⟩
  attachmentCount := by decide
  nameSize := by decide
  skins := by
    intro s hs
    simp only [demoModelMesh, List.mem_singleton] at hs
    exact hs ▸ demoSkin_ok
  skinCount := by decide

/-- **C83** is false of saved model meshes without attachments, every one of them: the chunk of the attachments is written nevertheless, and the
loader accesses a name that does not exist. -/
theorem c83_save_violation {μ} (matBytes : List μ → Bytes) (g1 : Bool) (mats : Nat → Rd (List μ)) (meshes : List (SoftSkin μ)) (c : BitVec 32)
    (m0 : ModelMesh μ) : ModelMesh.load mats m0 ⟨(ModelMesh.save matBytes g1 ⟨meshes, [], c⟩ ⟨[], 0⟩).data, 0⟩ = .error .ub :=
  ModelMesh.load_saved matBytes g1 mats meshes c m0

/-- **C84** — the loader of morph meshes: everything in a well formed file is loaded into an object without animations. -/
theorem c84_load {μ} (mats : Nat → Rd (List μ)) (f : MorphFile μ) (hf : f.Ok mats) (old : MorphMesh μ) (ho : old.animations = []) (pre : Bytes) :
    MorphMesh.load mats old ⟨pre ++ f.bytes, pre.length⟩ = .ok (f.morph old.mesh.alphaTest, ⟨pre ++ f.bytes, (pre ++ f.bytes).length⟩) := by
  have h := MorphMesh.run_load mats f hf old
  rw [ho, List.nil_append] at h
  rw [← f.segs_bytes]
  exact readChunked_segs h pre

/-- A morph mesh with an animation of two frames. -/
def demoMorph : MorphFile (BitVec 8) where
  version := 3
  name := b!"HUM_HEAD_FATBALD"
  sources := [⟨⟨2001, 3, 15, 12, 30, 59⟩, b!"HEAD.ASC"⟩]
  mesh := demoMrm
  morphPositions := [⟨1, 1, 1⟩, ⟨2, 2, 2⟩, ⟨3, 3, 3⟩]
  animations := [⟨b!"BLINK", 1, 2, 3, 4, 5, 0, 2, [0, 2], [⟨1, 1, 1⟩, ⟨2, 2, 2⟩, ⟨1, 0, 1⟩, ⟨2, 0, 2⟩]⟩]

theorem demoMorph_ok : demoMorph.Ok demoMats where
  name := by decide
  nameSize := by decide
  sources := by
    intro s hs
    simp only [demoMorph, List.mem_singleton] at hs
    subst hs
    exact ⟨by decide, 0xD1, _, rfl, by decide⟩
  sourceCount := by decide
  sourceSize := by decide +kernel
  mesh := demoMrm_ok
  meshSize := by decide +kernel
  morph := by decide
  morphSize := by decide
  animations := by
    intro a ha
    simp only [demoMorph, List.mem_singleton] at ha
    subst ha
    exact ⟨by decide, by decide, by decide, by decide⟩
  animationCount := by decide
  animationSize := by decide +kernel

/-- **C84** is false of objects that already hold animations: they are kept, so that loading a file twice gives every animation twice. -/
theorem c84_again_violation {μ} (mats : Nat → Rd (List μ)) (f : MorphFile μ) (hf : f.Ok mats) (old : MorphMesh μ) :
    ∃ m st, MorphMesh.load mats old ⟨f.bytes, 0⟩ = .ok (m, st) ∧ m.animations = old.animations ++ f.animations := by
  have := readChunked_segs (MorphMesh.run_load mats f hf old) []
  rw [f.segs_bytes] at this
  exact ⟨_, _, this, rfl⟩

/-- **C85** — the loader of animations: everything in a well formed file is loaded, whatever the object held before. -/
theorem c85_load (o : SampleOps) (f : AnimFile) (hf : f.Ok) (old : Animation) (pre : Bytes) :
    Animation.load o old ⟨pre ++ f.bytes, pre.length⟩ = .ok (f.animation o, ⟨pre ++ f.bytes, (pre ++ f.bytes).length⟩) := by
  rw [← f.segs_bytes]
  exact readChunked_segs (Animation.run_load o f hf old) pre

/-- An animation with one node, two frames and the given event. -/
def demoAnim (e : AnimEvent) : AnimFile where
  version := 12
  anim := { name := b!"S_RUN", next := b!"S_STAND", layer := 1, frameCount := 2, nodeCount := 1, fps := 1, fpsSource := 2, positionMin := 3,
            positionScale := 4, bbox := ⟨⟨0, 0, 0⟩, ⟨1, 1, 1⟩⟩, checksum := 5, sourcePath := b!"RUN.ASC", sourceDate := ⟨2001, 3, 15, 12, 30, 59⟩,
            sourceScript := b!"HUMANS.MDS", samples := [], events := [e], nodeIndices := [0] }
  raw := [⟨1, 2, 3, 4, 5, 6⟩, ⟨7, 8, 9, 10, 11, 12⟩]

/-- An event as the games write it: strings that are not used hold a blank. -/
def demoEvent : AnimEvent := ⟨4, 12, b!"DEF_HIT", [b!"A", b!"B", b!"C", b!"D"], [0x3F800000, 0, 0, 0], 0⟩

theorem demoAnim_ok : (demoAnim { demoEvent with values := [1, 2, 3, 4] }).Ok where
  path := by decide
  script := by decide
  sourceSize := by decide
  name := by decide
  next := by decide
  nameSize := by decide
  events := by
    intro e he
    simp only [demoAnim, List.mem_singleton] at he
    subst he
    refine ⟨by decide, by decide, ?_, by decide, 1, _, rfl, by decide⟩
    intro c hc
    simp only [demoEvent, List.mem_cons, List.not_mem_nil, or_false] at hc
    rcases hc with rfl | rfl | rfl | rfl <;> exact ⟨by decide, _, _, rfl, by decide⟩
  eventCount := by decide
  eventSize := by decide +kernel
  indices := by decide
  samples := by decide
  sampleSize := by decide +kernel

/-- Simple arithmetic for examples. -/
def demoOps : SampleOps := ⟨fun x y z _ _ => ⟨x.setWidth 32, y.setWidth 32, z.setWidth 32⟩, fun a b c => ⟨a.setWidth 32, b.setWidth 32, c.setWidth 32, 0⟩⟩

/-- **C85** is false of events with an empty string: the line end of the empty line is skipped together with the line before it, and everything
behind it is misread. -/
theorem c85_empty_violation :
    let e : AnimEvent := { demoEvent with content := [[], b!"B", b!"C", b!"D"] }
    (match Animation.load demoOps (demoAnim demoEvent).anim ⟨(demoAnim e).bytes, 0⟩ with
      | .ok (a, _) => decide ((a.events.map AnimEvent.content).head? = some [b!"B", b!"C", b!"D", []])
      | .error _ => false) = true := by decide +kernel

/-! ## Damaged files -/

/-- What a user expects of loading any file: it ends, without undefined behaviour, and the position stays inside of the file; an exception is
possible. -/
def EndsWell {α} (r : Except Fail (α × Rs)) (len : Nat) : Prop := match r with
  | .ok (_, s) => s.pos ≤ len
  | .error (.throw _) => True
  | .error _ => False

private theorem endsWell {α} {p : Rd α} (h : Fwd (.all True) p) (data : Bytes) (hl : data.length < 2 ^ 32) (pos : Nat) (hp : pos ≤ data.length) :
    EndsWell (p ⟨data, pos⟩) data.length := by
  rcases h data pos ⟨hl, trivial⟩ hp with ⟨a, pos', e, _, l⟩ | ⟨_, e, he⟩
  · rw [e]
    exact l
  · rw [he]
    trivial

/-- The reader of the materials of a mesh ends well, too, and does not go back. -/
def MatsOk {μ} (mats : Nat → Rd (List μ)) : Prop := ∀ n, Fwd (.all True) (mats n)

/-- **C86**, multi resolution meshes — any file of less than 4 GiB. -/
theorem c86_mrm {μ} (mats : Nat → Rd (List μ)) (hm : MatsOk mats) (old : Mrm μ) (data : Bytes) (hl : data.length < 2 ^ 32) (pos : Nat)
    (hp : pos ≤ data.length) : EndsWell (Mrm.load mats old ⟨data, pos⟩) data.length :=
  endsWell (Mrm.fwd_load hm old) data hl pos hp

/-- **C86**, soft skin meshes. -/
theorem c86_softskin {μ} (mats : Nat → Rd (List μ)) (hm : MatsOk mats) (old : SoftSkin μ) (data : Bytes) (hl : data.length < 2 ^ 32) (pos : Nat)
    (hp : pos ≤ data.length) : EndsWell (SoftSkin.load mats old ⟨data, pos⟩) data.length :=
  endsWell (SoftSkin.fwd_load hm old) data hl pos hp

/-- **C86**, morph meshes. -/
theorem c86_morph {μ} (mats : Nat → Rd (List μ)) (hm : MatsOk mats) (old : MorphMesh μ) (data : Bytes) (hl : data.length < 2 ^ 32) (pos : Nat)
    (hp : pos ≤ data.length) : EndsWell (MorphMesh.load mats old ⟨data, pos⟩) data.length :=
  endsWell (MorphMesh.fwd_load hm old) data hl pos hp

/-- **C86**, animations. -/
theorem c86_animation (o : SampleOps) (old : Animation) (data : Bytes) (hl : data.length < 2 ^ 32) (pos : Nat) (hp : pos ≤ data.length) :
    EndsWell (Animation.load o old ⟨data, pos⟩) data.length :=
  endsWell (Animation.fwd_load o old) data hl pos hp

/-- **C86**, hierarchies. -/
theorem c86_hierarchy (old : Hierarchy) (data : Bytes) (hl : data.length < 2 ^ 32) (pos : Nat) (hp : pos ≤ data.length) :
    EndsWell (Hierarchy.load old ⟨data, pos⟩) data.length :=
  endsWell (Hierarchy.fwd_load old) data hl pos hp

/-- **C86**, fonts. -/
theorem c86_font (data : Bytes) (hl : data.length < 2 ^ 32) (pos : Nat) (hp : pos ≤ data.length) :
    EndsWell (Font.load ⟨data, pos⟩) data.length :=
  endsWell Font.fwd_load data hl pos hp

example : MatsOk demoMats := demoMats_fwd

/-- **C86** is false of model meshes: a file with an attachment for which it has no name. -/
theorem c86_modelmesh_violation {μ} (mats : Nat → Rd (List μ)) (old : ModelMesh μ) :
    ¬ EndsWell (ModelMesh.load mats old ⟨chunkBytes 0xB100 [], 0⟩) 6 := by
  have h3 : ∀ target st, ModelMesh.onChunk mats ⟨old, []⟩ 0xB100 target st = .error .ub := by
    intro target st
    unfold ModelMesh.onChunk
    rw [if_neg (by decide), if_neg (by decide), if_neg (by decide), if_pos rfl]
    exact Rd.bind_err rfl
  have h := readChunkedFuel_fails h3 [] [] [] 6
  have e : ModelMesh.load mats old ⟨chunkBytes 0xB100 [], 0⟩ = .error .ub := by
    unfold ModelMesh.load
    exact Rd.bind_err h
  rw [e]
  exact id

end Verif.Props
