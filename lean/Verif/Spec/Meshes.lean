import Verif.Lemmas.Boxes
import Verif.Lemmas.Chunk
import Verif.Lemmas.Line
import Verif.Model.ModelMesh
import Verif.Model.MorphMesh
import Verif.Model.ModelAnimation

/-!
# Specification of mesh files

What is in a file with a multi resolution mesh (and in the files that contain such meshes), independent of the loaders: the geometry lies
somewhere in the content, in any order, with gaps or overlaps, and a table behind the content says where.
-/

namespace Verif.Spec

/-- A part of the content: where it begins and the elements there. -/
structure Sec (α : Type) where
  off : BitVec 32
  elems : List α

/-- The entry of the table for a part: offset and number of elements. -/
def Sec.head {α} (s : Sec α) : Bytes := encW 4 s.off ++ encW 4 (BitVec.ofNat 32 s.elems.length)

/-- The elements are in the content where the table says. -/
def Sec.In {α} (enc : α → Bytes) (content : Bytes) (s : Sec α) : Prop :=
  s.elems.length < 2 ^ 32 ∧ ∃ a b, content = a ++ (s.elems.map enc).flatten ++ b ∧ a.length = s.off.toNat

def encTriple (t : MrmTriple) : Bytes := encW 2 t.a ++ encW 2 t.b ++ encW 2 t.c
def encEdge (t : MrmEdge) : Bytes := encW 2 t.a ++ encW 2 t.b
/-- A wedge is followed by two bytes that mean nothing. -/
def encWedge (t : MrmWedge × BitVec 16) : Bytes := t.1.normal.mem ++ t.1.texture.mem ++ encW 2 t.1.index ++ encW 2 t.2
def encPlane (t : MrmPlane) : Bytes := encW 4 t.distance ++ t.normal.mem
def encU16 (v : BitVec 16) : Bytes := encW 2 v
def encU32 (v : BitVec 32) : Bytes := encW 4 v

/-- A sub mesh in a file. `updates` is the entry of a part that is not used. -/
structure MrmPartFile (μ : Type) where
  mat : μ
  triangles : Sec MrmTriple
  wedges : Sec (MrmWedge × BitVec 16)
  colors : Sec F32
  planeIndices : Sec (BitVec 16)
  planes : Sec MrmPlane
  wedgeMap : Sec (BitVec 16)
  updates : BitVec 32 × BitVec 32
  triangleEdges : Sec MrmTriple
  edges : Sec MrmEdge
  edgeScores : Sec F32

namespace MrmPartFile

variable {μ : Type}

/-- The entries of the table. -/
def heads (p : MrmPartFile μ) : Bytes :=
  p.triangles.head ++ (p.wedges.head ++ (p.colors.head ++ (p.planeIndices.head ++ (p.planes.head ++ (p.wedgeMap.head ++
    ((encW 4 p.updates.1 ++ encW 4 p.updates.2) ++ (p.triangleEdges.head ++ (p.edges.head ++ p.edgeScores.head))))))))

/-- Everything is where the table says. -/
def In (content : Bytes) (p : MrmPartFile μ) : Prop :=
  p.triangles.In encTriple content ∧ p.wedges.In encWedge content ∧ p.colors.In encU32 content ∧
    p.planeIndices.In encU16 content ∧ p.planes.In encPlane content ∧ p.wedgeMap.In encU16 content ∧
    p.triangleEdges.In encTriple content ∧ p.edges.In encEdge content ∧ p.edgeScores.In encU32 content

/-- The sub mesh that a user expects. -/
def part (p : MrmPartFile μ) : MrmPart μ where
  mat := p.mat
  triangles := p.triangles.elems
  wedges := p.wedges.elems.map Prod.fst
  colors := p.colors.elems
  planeIndices := p.planeIndices.elems
  planes := p.planes.elems
  triangleEdges := p.triangleEdges.elems
  edges := p.edges.elems
  edgeScores := p.edgeScores.elems
  wedgeMap := p.wedgeMap.elems

end MrmPartFile

/-- A multi resolution mesh in a file. `matBytes` is the archive with the materials; `alpha` is in the file for Gothic 2 only. -/
structure MrmFile (μ : Type) where
  version : BitVec 16
  content : Bytes
  positions : Sec Vec3
  normals : Sec Vec3
  parts : List (MrmPartFile μ)
  matBytes : Bytes
  alpha : BitVec 8
  bbox : Aabb
  obbox : Obb
  pad : Bytes

namespace MrmFile

variable {μ : Type}

/-- Gothic 2 has a byte for the alpha test. -/
def hasAlpha (f : MrmFile μ) : Prop := f.version = 0x905 ∨ f.version = 0x805

instance (f : MrmFile μ) : Decidable f.hasAlpha := inferInstanceAs (Decidable (_ ∨ _))

/-- The bytes of the mesh. -/
def bytes (f : MrmFile μ) : Bytes :=
  encW 2 f.version ++ (encW 4 (BitVec.ofNat 32 f.content.length) ++ (f.content ++ (encW 1 (BitVec.ofNat 8 f.parts.length) ++
    (f.positions.head ++ (f.normals.head ++ ((f.parts.map MrmPartFile.heads).flatten ++ (f.matBytes ++
      ((if f.hasAlpha then encW 1 f.alpha else []) ++ (f.bbox.enc ++ (f.obbox.enc ++ f.pad))))))))))

/-- The file is well formed: the numbers fit, the parts are where the table says, and the archive holds the materials. -/
structure Ok (mats : Nat → Rd (List μ)) (f : MrmFile μ) : Prop where
  content : f.content.length < 2 ^ 32
  count : f.parts.length < 256
  positions : f.positions.In Vec3.mem f.content
  normals : f.normals.In Vec3.mem f.content
  parts : ∀ p ∈ f.parts, p.In f.content
  mats : Reads (mats f.parts.length) f.matBytes (f.parts.map MrmPartFile.mat)
  obbox : f.obbox.Small
  pad : f.pad.length = 16

/-- The mesh that a user expects; for Gothic 1 the flag for the alpha test stays as it was. -/
def mesh (f : MrmFile μ) (old : BitVec 8) : Mrm μ where
  positions := f.positions.elems
  normals := f.normals.elems
  subMeshes := f.parts.map MrmPartFile.part
  materials := f.parts.map MrmPartFile.mat
  alphaTest := if f.hasAlpha then (if f.alpha = 0 then 0 else 1) else old
  bbox := f.bbox
  obbox := f.obbox

end MrmFile

/-- The file of a multi resolution mesh: the mesh and an end marker. -/
def mrmBytes {μ} (f : MrmFile μ) : Bytes := chunkBytes 0xB100 f.bytes ++ chunkBytes 0xB1FF []

/-! ### What is written

`MultiResolutionMesh::save` writes files that no loader understands, but nothing is missing in them: they are files as above with other numbers in
a few places. -/

/-- The entry of the table for a part as it is written: the number of bytes instead of the number of elements. -/
def Sec.savedHead {α} (enc : α → Bytes) (s : Sec α) : Bytes := encW 4 s.off ++ encW 4 (BitVec.ofNat 32 ((s.elems.map enc).flatten).length)

/-- The entries of the table as they are written. -/
def MrmPartFile.savedHeads {μ} (p : MrmPartFile μ) : Bytes :=
  p.triangles.savedHead encTriple ++ (p.wedges.savedHead encWedge ++ (p.colors.savedHead encU32 ++ (p.planeIndices.savedHead encU16 ++
    (p.planes.savedHead encPlane ++ (p.wedgeMap.savedHead encU16 ++ ((encW 4 p.updates.1 ++ encW 4 p.updates.2) ++
    (p.triangleEdges.savedHead encTriple ++ (p.edges.savedHead encEdge ++ p.edgeScores.savedHead encU32))))))))

/-- The mesh as it is written: the size of the content is too large by four, parts are measured in bytes, and six bytes at the end are missing. -/
def MrmFile.saved {μ} (f : MrmFile μ) : Bytes :=
  encW 2 f.version ++ (encW 4 (BitVec.ofNat 32 (f.content.length + 4)) ++ (f.content ++ (encW 1 (BitVec.ofNat 8 f.parts.length) ++
    (f.positions.head ++ (f.normals.head ++ ((f.parts.map MrmPartFile.savedHeads).flatten ++ (f.matBytes ++
      ((if f.hasAlpha then encW 1 f.alpha else []) ++ (f.bbox.enc ++ (f.obbox.enc ++ f.pad.take 10))))))))))

/-! ## Soft skin meshes -/

def encWeight (e : SkinWeight) : Bytes := encW 4 e.weight ++ e.position.mem ++ encW 1 e.node
def encWeights (es : List SkinWeight) : Bytes := encW 4 (BitVec.ofNat 32 es.length) ++ (es.map encWeight).flatten
def encNormal (n : SkinNormal) : Bytes := n.normal.mem ++ encW 4 n.index

/-- A soft skin mesh in a file. `gap` are bytes behind the weights that belong to them but mean nothing; `extra` are bytes at the end of the
chunk with the weights. -/
structure SkinFile (μ : Type) where
  version : BitVec 32
  mesh : MrmFile μ
  weights : List (List SkinWeight)
  gap : Bytes
  wedgeNormals : List SkinNormal
  nodes : List (BitVec 32)
  bboxes : List Obb
  extra : Bytes

namespace SkinFile

variable {μ : Type}

/-- The bytes with the weights. -/
def weightBytes (f : SkinFile μ) : Bytes := (f.weights.map encWeights).flatten

/-- The chunk with the weights. -/
def nodeBytes (f : SkinFile μ) : Bytes :=
  encW 4 (BitVec.ofNat 32 (f.weightBytes.length + f.gap.length)) ++ (f.weightBytes ++ (f.gap ++
    (encW 4 (BitVec.ofNat 32 f.wedgeNormals.length) ++ ((f.wedgeNormals.map encNormal).flatten ++
    (encW 2 (BitVec.ofNat 16 f.nodes.length) ++ ((f.nodes.map encU32).flatten ++ (Obb.encMany f.bboxes ++ f.extra)))))))

/-- The bytes of the mesh. -/
def bytes (f : SkinFile μ) : Bytes :=
  chunkBytes 0xE100 (encW 4 f.version) ++ (chunkBytes 0xB100 f.mesh.bytes ++ (chunkBytes 0xB1FF f.nodeBytes ++ chunkBytes 0xE110 []))

/-- The file is well formed: one list of weights for every position, one box for every node, and the numbers fit. -/
structure Ok (mats : Nat → Rd (List μ)) (f : SkinFile μ) : Prop where
  mesh : f.mesh.Ok mats
  meshSize : f.mesh.bytes.length < 2 ^ 32
  weights : f.weights.length = f.mesh.positions.elems.length
  weight : ∀ es ∈ f.weights, es.length < 2 ^ 32
  normals : f.wedgeNormals.length < 2 ^ 32
  nodes : f.nodes.length < 65536
  bboxes : f.bboxes.length = f.nodes.length
  small : Obb.SmallMany f.bboxes
  size : f.nodeBytes.length < 2 ^ 32

/-- The mesh that a user expects. -/
def skin (f : SkinFile μ) (old : BitVec 8) : SoftSkin μ where
  mesh := f.mesh.mesh old
  bboxes := f.bboxes
  wedgeNormals := f.wedgeNormals
  weights := f.weights
  nodes := f.nodes

end SkinFile

/-- The chunk with the weights as it is written: the size of the weights is too large by four. -/
def SkinFile.savedNodes {μ} (f : SkinFile μ) : Bytes :=
  encW 4 (BitVec.ofNat 32 (f.weightBytes.length + f.gap.length + 4)) ++ (f.weightBytes ++ (f.gap ++
    (encW 4 (BitVec.ofNat 32 f.wedgeNormals.length) ++ ((f.wedgeNormals.map encNormal).flatten ++
    (encW 2 (BitVec.ofNat 16 f.nodes.length) ++ ((f.nodes.map encU32).flatten ++ (Obb.encMany f.bboxes ++ f.extra)))))))

/-- The mesh as it is written: the chunk with the weights has the type of the header. -/
def SkinFile.saved {μ} (f : SkinFile μ) : Bytes :=
  chunkBytes 0xE100 (encW 4 f.version) ++ (chunkBytes 0xB100 f.mesh.saved ++ (chunkBytes 0xE100 f.savedNodes ++ chunkBytes 0xE110 []))

/-! ## Meshes of models -/

/-- A name in a list of names: a line that does not begin with white space. -/
def NameOk (n : Bytes) : Prop := NoEol n ∧ ∃ c rest, n = c :: rest ∧ c ∉ Rd.lineSpaces

def encLine (n : Bytes) : Bytes := n ++ [10]

/-- The mesh of a model in a file. The size that is stored for the chunk with the soft skin meshes does not matter. -/
structure ModelMeshFile (μ : Type) where
  version : BitVec 32
  date : Date
  source : Bytes
  attachments : List (Bytes × MrmFile μ)
  checksum : BitVec 32
  skinSize : BitVec 32
  skins : List (SkinFile μ)

namespace ModelMeshFile

variable {μ : Type}

/-- The bytes of the mesh. -/
def bytes (f : ModelMeshFile μ) : Bytes :=
  chunkBytes 0xD000 (encW 4 f.version) ++ (chunkBytes 0xD010 (f.date.enc ++ encLine f.source) ++
    (chunkBytes 0xD020 (encW 2 (BitVec.ofNat 16 f.attachments.length) ++ (f.attachments.map fun a => encLine a.1).flatten) ++
    ((f.attachments.map fun a => chunkBytes 0xB100 a.2.bytes).flatten ++
    ((encW 2 (0xD030 : BitVec 16) ++ encW 4 f.skinSize ++ (encW 4 f.checksum ++ (encW 2 (BitVec.ofNat 16 f.skins.length) ++
      (f.skins.map SkinFile.bytes).flatten))) ++ chunkBytes 0xD040 []))))

/-- The file is well formed. -/
structure Ok (mats : Nat → Rd (List μ)) (f : ModelMeshFile μ) : Prop where
  source : NoEol f.source
  sourceSize : f.source.length < 2 ^ 31
  names : ∀ a ∈ f.attachments, NameOk a.1
  distinct : (f.attachments.map Prod.fst).Nodup
  attachments : ∀ a ∈ f.attachments, a.2.Ok mats ∧ a.2.bytes.length < 2 ^ 32
  attachmentCount : f.attachments.length < 65536
  nameSize : ((f.attachments.map fun a => encLine a.1).flatten).length < 2 ^ 31
  skins : ∀ s ∈ f.skins, s.Ok mats
  skinCount : f.skins.length < 65536

/-- The mesh that a user expects. -/
def mesh (f : ModelMeshFile μ) : ModelMesh μ where
  meshes := f.skins.map fun s => s.skin 1
  attachments := f.attachments.map fun a => (a.1, a.2.mesh 1)
  checksum := f.checksum

end ModelMeshFile

/-! ## Morph meshes -/

def encMorph (a : MorphAnimation) : Bytes :=
  encLine a.name ++ (encW 4 a.blendIn ++ (encW 4 a.blendOut ++ (encW 4 a.duration ++ (encW 4 a.layer ++ (encW 4 a.speed ++
    (encW 1 a.flags ++ (encW 4 (BitVec.ofNat 32 a.vertices.length) ++ (encW 4 a.frameCount ++
    ((a.vertices.map encU32).flatten ++ (a.samples.map Vec3.mem).flatten)))))))))

def encSource (s : MorphSource) : Bytes := s.fileDate.enc ++ encLine s.fileName

/-- A morph mesh in a file. -/
structure MorphFile (μ : Type) where
  version : BitVec 32
  name : Bytes
  sources : List MorphSource
  mesh : MrmFile μ
  morphPositions : List Vec3
  animations : List MorphAnimation

namespace MorphFile

variable {μ : Type}

/-- The bytes of the mesh, which end the file. -/
def bytes (f : MorphFile μ) : Bytes :=
  chunkBytes 0xE010 (encW 2 (BitVec.ofNat 16 f.sources.length) ++ (f.sources.map encSource).flatten) ++
  (chunkBytes 0xE020 (encW 4 f.version ++ encLine f.name) ++ (chunkBytes 0xB100 f.mesh.bytes ++
  (chunkBytes 0xB1FF (f.morphPositions.map Vec3.mem).flatten ++
  chunkBytes 0xE030 (encW 2 (BitVec.ofNat 16 f.animations.length) ++ (f.animations.map encMorph).flatten))))

/-- A source whose year does not begin with a byte that looks like white space. -/
def SourceOk (s : MorphSource) : Prop := NoEol s.fileName ∧ ∃ c rest, s.fileDate.enc = c :: rest ∧ c ∉ Rd.lineSpaces

/-- The numbers of an animation fit and belong together. -/
def AnimOk (a : MorphAnimation) : Prop :=
  NoEol a.name ∧ a.vertices.length < 2 ^ 32 ∧ a.samples.length = a.frameCount.toNat * a.vertices.length ∧ a.samples.length < 2 ^ 32

/-- The file is well formed. -/
structure Ok (mats : Nat → Rd (List μ)) (f : MorphFile μ) : Prop where
  name : NoEol f.name
  nameSize : f.name.length < 2 ^ 31
  sources : ∀ s ∈ f.sources, SourceOk s
  sourceCount : f.sources.length < 65536
  sourceSize : ((f.sources.map encSource).flatten).length < 2 ^ 31
  mesh : f.mesh.Ok mats
  meshSize : f.mesh.bytes.length < 2 ^ 32
  morph : f.morphPositions.length = f.mesh.positions.elems.length
  morphSize : f.morphPositions.length < 2 ^ 28
  animations : ∀ a ∈ f.animations, AnimOk a
  animationCount : f.animations.length < 65536
  animationSize : ((f.animations.map encMorph).flatten).length < 2 ^ 31

/-- The mesh that a user expects. -/
def morph (f : MorphFile μ) (old : BitVec 8) : MorphMesh μ where
  name := f.name
  mesh := f.mesh.mesh old
  morphPositions := f.morphPositions
  animations := f.animations
  sources := f.sources

end MorphFile

/-! ## Animations of models -/

/-- A sample as it is stored: rotation and position. -/
structure RawSample where
  a : BitVec 16
  b : BitVec 16
  c : BitVec 16
  x : BitVec 16
  y : BitVec 16
  z : BitVec 16

def encSample (s : RawSample) : Bytes := encW 2 s.a ++ (encW 2 s.b ++ (encW 2 s.c ++ (encW 2 s.x ++ (encW 2 s.y ++ encW 2 s.z))))

def encEvent (e : AnimEvent) : Bytes :=
  encW 4 e.type ++ (encW 4 e.frame ++ (encLine e.tag ++ ((e.content.map encLine).flatten ++ ((e.values.map encU32).flatten ++
    encW 4 e.probability))))

/-- An animation in a file: `anim` without samples, and the samples as they are stored. -/
structure AnimFile where
  version : BitVec 16
  anim : Animation
  raw : List RawSample

namespace AnimFile

/-- The bytes of the animation, which end the file. -/
def bytes (f : AnimFile) : Bytes :=
  let a := f.anim
  chunkBytes 0xA000 [] ++ (chunkBytes 0xA010 (a.sourceDate.enc ++ (encLine a.sourcePath ++ encLine a.sourceScript)) ++
  (chunkBytes 0xA020 (encW 2 f.version ++ (encLine a.name ++ (encW 4 a.layer ++ (encW 4 a.frameCount ++ (encW 4 a.nodeCount ++
    (encW 4 a.fps ++ (encW 4 a.fpsSource ++ (encW 4 a.positionMin ++ (encW 4 a.positionScale ++ (a.bbox.enc ++ encLine a.next)))))))))) ++
  (chunkBytes 0xA030 (encW 4 (BitVec.ofNat 32 a.events.length) ++ (a.events.map encEvent).flatten) ++
  chunkBytes 0xA090 (encW 4 a.checksum ++ ((a.nodeIndices.map encU32).flatten ++ (f.raw.map encSample).flatten)))))

/-- The strings of an event are not empty and do not begin with white space, and neither do the numbers that follow them. -/
def EventOk (e : AnimEvent) : Prop :=
  NoEol e.tag ∧ e.content.length = 4 ∧ (∀ c ∈ e.content, NameOk c) ∧ e.values.length = 4 ∧
    ∃ c rest, (e.values.map encU32).flatten = c :: rest ∧ c ∉ Rd.lineSpaces

/-- The file is well formed: one index for every node, and a sample for every node in every frame. -/
structure Ok (f : AnimFile) : Prop where
  path : NoEol f.anim.sourcePath
  script : NoEol f.anim.sourceScript
  sourceSize : f.anim.sourcePath.length + f.anim.sourceScript.length < 2 ^ 31
  name : NoEol f.anim.name
  next : NoEol f.anim.next
  nameSize : f.anim.name.length + f.anim.next.length < 2 ^ 31
  events : ∀ e ∈ f.anim.events, EventOk e
  eventCount : f.anim.events.length < 2 ^ 32
  eventSize : ((f.anim.events.map encEvent).flatten).length < 2 ^ 31
  indices : f.anim.nodeIndices.length = f.anim.nodeCount.toNat
  samples : f.raw.length = f.anim.nodeCount.toNat * f.anim.frameCount.toNat
  sampleSize : ((f.anim.nodeIndices.map encU32).flatten ++ (f.raw.map encSample).flatten).length < 2 ^ 31

/-- The animation that a user expects: the samples are converted one by one. -/
def animation (o : SampleOps) (f : AnimFile) : Animation :=
  { f.anim with samples := f.raw.map fun s => ⟨o.pos s.x s.y s.z f.anim.positionScale f.anim.positionMin, o.rot s.a s.b s.c⟩ }

end AnimFile

end Verif.Spec
