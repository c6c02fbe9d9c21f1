import Verif.Model.Boxes
import Verif.Model.Chunk

/-!
# Multi resolution meshes

`src/MultiResolutionMesh.cc`, `include/zenkit/MultiResolutionMesh.hh`. The materials of the parts are in an archive in the middle of
the mesh; what they are is a parameter `μ`, reading them is a parameter of the loader and their bytes are a parameter of the
writer.
-/

namespace Verif

/-- `struct MeshTriangle`, `struct MeshTriangleEdge` (`include/zenkit/MultiResolutionMesh.hh:14-20`). -/
structure MrmTriple where
  a : BitVec 16
  b : BitVec 16
  c : BitVec 16
  deriving DecidableEq, Repr

/-- `struct MeshEdge` (`include/zenkit/MultiResolutionMesh.hh:22-24`). -/
structure MrmEdge where
  a : BitVec 16
  b : BitVec 16
  deriving DecidableEq, Repr

/-- `struct MeshWedge` (`include/zenkit/MultiResolutionMesh.hh:26-30`). -/
structure MrmWedge where
  normal : Vec3
  texture : Vec2
  index : BitVec 16
  deriving DecidableEq, Repr

/-- `struct MeshPlane` (`include/zenkit/MultiResolutionMesh.hh:32-35`). -/
structure MrmPlane where
  distance : F32
  normal : Vec3
  deriving DecidableEq, Repr

/-- `struct SubMesh` (`include/zenkit/MultiResolutionMesh.hh:59-75`); the material is kept in `Mrm.materials`, of which the loader
stores a copy here (`src/MultiResolutionMesh.cc:97`). -/
structure MrmPart (μ : Type) where
  mat : μ
  triangles : List MrmTriple
  wedges : List MrmWedge
  colors : List F32
  planeIndices : List (BitVec 16)
  planes : List MrmPlane
  triangleEdges : List MrmTriple
  edges : List MrmEdge
  edgeScores : List F32
  wedgeMap : List (BitVec 16)

/-- `class MultiResolutionMesh` (`include/zenkit/MultiResolutionMesh.hh:81-107`). -/
structure Mrm (μ : Type) where
  positions : List Vec3
  normals : List Vec3
  subMeshes : List (MrmPart μ)
  materials : List μ
  alphaTest : BitVec 8
  bbox : Aabb
  obbox : Obb

/-- `struct MeshSection` (`include/zenkit/MultiResolutionMesh.hh:38-41`). -/
structure MrmSection where
  offset : Nat
  size : BitVec 32

/-- `struct SubMeshSection` (`include/zenkit/MultiResolutionMesh.hh:45-56`). -/
structure MrmSections where
  triangles : MrmSection
  wedges : MrmSection
  colors : MrmSection
  planeIndices : MrmSection
  planes : MrmSection
  wedgeMap : MrmSection
  vertexUpdates : MrmSection
  triangleEdges : MrmSection
  edges : MrmSection
  edgeScores : MrmSection

namespace Mrm

/-! ## Loading -/

/-- A pair of an offset and a size (`src/MultiResolutionMesh.cc:38-41,48-57`). -/
def loadSection (base : Nat) : Rd MrmSection := do
  let o ← Rd.u32
  let n ← Rd.u32
  return ⟨o.toNat + base, n⟩

/-- The ten pairs of a sub mesh (`src/MultiResolutionMesh.cc:47-58`). -/
def loadSections (base : Nat) : Rd MrmSections := do
  let triangles ← loadSection base
  let wedges ← loadSection base
  let colors ← loadSection base
  let planeIndices ← loadSection base
  let planes ← loadSection base
  let wedgeMap ← loadSection base
  let vertexUpdates ← loadSection base
  let triangleEdges ← loadSection base
  let edges ← loadSection base
  let edgeScores ← loadSection base
  return { triangles, wedges, colors, planeIndices, planes, wedgeMap, vertexUpdates, triangleEdges, edges, edgeScores }

/-- A loop over the elements of a section: a seek from the beginning, then one element after the other
(e.g. `src/MultiResolutionMesh.cc:80-84,193-197`). -/
def readAt {α} (p : Rd α) (s : MrmSection) : Rd (List α) := do
  Rd.seek s.offset .beg
  Rd.times p s.size.toNat

/-- `{{r->read_ushort(), r->read_ushort(), r->read_ushort()}}` (`src/MultiResolutionMesh.cc:196,239`). -/
def loadTriple : Rd MrmTriple := do
  let a ← Rd.u16
  let b ← Rd.u16
  let c ← Rd.u16
  return ⟨a, b, c⟩

/-- `src/MultiResolutionMesh.cc:247`. -/
def loadEdge : Rd MrmEdge := do
  let a ← Rd.u16
  let b ← Rd.u16
  return ⟨a, b⟩

/-- `src/MultiResolutionMesh.cc:204-207`: the last word is padding. -/
def loadWedge : Rd MrmWedge := do
  let normal ← Rd.vec3
  let texture ← Rd.vec2
  let index ← Rd.u16
  let _pad ← Rd.u16
  return ⟨normal, texture, index⟩

/-- `src/MultiResolutionMesh.cc:231`. -/
def loadPlane : Rd MrmPlane := do
  let distance ← Rd.f32
  let normal ← Rd.vec3
  return ⟨distance, normal⟩

/-- `SubMesh::load` (`src/MultiResolutionMesh.cc:191-265`) and the assignment of the material (line 97). -/
def loadPart {μ} (map : MrmSections) (mat : μ) : Rd (MrmPart μ) := do
  let triangles ← readAt loadTriple map.triangles
  let wedges ← readAt loadWedge map.wedges
  let colors ← readAt Rd.f32 map.colors
  let planeIndices ← readAt Rd.u16 map.planeIndices
  let planes ← readAt loadPlane map.planes
  let triangleEdges ← readAt loadTriple map.triangleEdges
  let edges ← readAt loadEdge map.edges
  let edgeScores ← readAt Rd.f32 map.edgeScores
  let wedgeMap ← readAt Rd.u16 map.wedgeMap
  return { mat, triangles, wedges, colors, planeIndices, planes, triangleEdges, edges, edgeScores, wedgeMap }

/-- The loop over the sub meshes (`src/MultiResolutionMesh.cc:94-98`). -/
def loadParts {μ} : List (MrmSections × μ) → Rd (List (MrmPart μ))
  | [] => return []
  | (map, mat) :: rest => do
    let p ← loadPart map mat
    let ps ← loadParts rest
    return p :: ps

/-- `src/MultiResolutionMesh.cc:68-70`. -/
def loadAlpha (version : BitVec 16) (old : BitVec 8) : Rd (BitVec 8) :=
  if version = 0x905 ∨ version = 0x805 then do
    let b ← Rd.u8
    return (if b ≠ 0 then 1 else 0)
  else return old

/-- `MultiResolutionMesh::load_from_section` (`src/MultiResolutionMesh.cc:30-101`). `mats n` is the construction of the archive and the
loading of `n` materials (lines 62-66): it returns one material for each sub mesh. -/
def loadFrom {μ} (mats : Nat → Rd (List μ)) (m : Mrm μ) : Rd (Mrm μ) := do
  let version ← Rd.u16
  let contentSize ← Rd.u32
  let base ← Rd.tell
  Rd.seek contentSize.toNat .cur
  let count ← Rd.u8
  let vertices ← loadSection base
  let norms ← loadSection base
  let sections ← Rd.times (loadSections base) count.toNat
  let materials ← mats count.toNat
  let alphaTest ← loadAlpha version m.alphaTest
  let bbox ← Aabb.load
  let obbox ← Obb.load
  Rd.seek 0x10 .cur
  let fin ← Rd.tell
  let positions ← readAt Rd.vec3 vertices
  let normals ← readAt Rd.vec3 norms
  let subMeshes ← loadParts (sections.zip materials)
  Rd.seek (fin % 2 ^ 32 : Nat) .beg
  return { positions, normals, subMeshes, materials, alphaTest, bbox, obbox }

/-- The handler of `MultiResolutionMesh::load` (`src/MultiResolutionMesh.cc:15-27`). -/
def onChunk {μ} (mats : Nat → Rd (List μ)) (m : Mrm μ) (type : BitVec 16) : Rd (Mrm μ × Bool) :=
  if type = 0xB100 then do
    let m ← loadFrom mats m
    return (m, false)
  else if type = 0xB1FF then return (m, true)
  else return (m, false)

/-- `MultiResolutionMesh::load` (`src/MultiResolutionMesh.cc:14-28`). -/
def load {μ} (mats : Nat → Rd (List μ)) (m : Mrm μ) : Rd (Mrm μ) := readChunked (simpleCb (onChunk mats)) m

/-! ## Saving -/

/-- `src/MultiResolutionMesh.cc:273-275,314-316`. -/
def saveTriple (t : MrmTriple) (w : Ws) : Ws := ((w.u16 t.a).u16 t.b).u16 t.c

/-- `src/MultiResolutionMesh.cc:323-324`. -/
def saveEdge (t : MrmEdge) (w : Ws) : Ws := (w.u16 t.a).u16 t.b

/-- `src/MultiResolutionMesh.cc:282-285`. -/
def saveWedge (t : MrmWedge) (w : Ws) : Ws := (((w.vec3 t.normal).vec2 t.texture).u16 t.index).u16 0

/-- `src/MultiResolutionMesh.cc:306-307`. -/
def savePlane (t : MrmPlane) (w : Ws) : Ws := (w.f32 t.distance).vec3 t.normal

/-- One section of `SubMesh::save`: the offset, the elements, and the number of *bytes* as the size
(e.g. `src/MultiResolutionMesh.cc:271-277`). -/
def saveSection {α} (f : α → Ws → Ws) (xs : List α) (w : Ws) : Ws × MrmSection :=
  let w' := xs.foldl (fun w x => f x w) w
  (w', ⟨w.pos, BitVec.ofInt 32 ((w'.pos : Int) - w.pos)⟩)

/-- `SubMesh::save` (`src/MultiResolutionMesh.cc:267-343`): `vertex_updates` stays zero. -/
def savePart {μ} (p : MrmPart μ) (w : Ws) : Ws × MrmSections :=
  let (w, triangles) := saveSection saveTriple p.triangles w
  let (w, wedges) := saveSection saveWedge p.wedges w
  let (w, colors) := saveSection Ws.f32 p.colors w
  let (w, planeIndices) := saveSection Ws.u16 p.planeIndices w
  let (w, planes) := saveSection savePlane p.planes w
  let (w, triangleEdges) := saveSection saveTriple p.triangleEdges w
  let (w, edges) := saveSection saveEdge p.edges w
  let (w, edgeScores) := saveSection Ws.f32 p.edgeScores w
  let (w, wedgeMap) := saveSection Ws.u16 p.wedgeMap w
  (w, { triangles, wedges, colors, planeIndices, planes, wedgeMap, vertexUpdates := ⟨0, 0⟩, triangleEdges, edges, edgeScores })

/-- The loop over the sub meshes (`src/MultiResolutionMesh.cc:125-128`). -/
def saveParts {μ} : List (MrmPart μ) → Ws → Ws × List MrmSections
  | [], w => (w, [])
  | p :: ps, w =>
    let (w, s) := savePart p w
    let (w, ss) := saveParts ps w
    (w, s :: ss)

/-- `w->write_uint(s.offset - off_content); w->write_uint(s.size)` (`src/MultiResolutionMesh.cc:142-143`). -/
def putSection (base : Nat) (s : MrmSection) (w : Ws) : Ws :=
  (w.u32 (BitVec.ofInt 32 ((s.offset : Int) - base))).u32 s.size

/-- The ten pairs of a sub mesh (`src/MultiResolutionMesh.cc:141-171`). -/
def putSections (base : Nat) (s : MrmSections) (w : Ws) : Ws :=
  let w := putSection base s.triangles w
  let w := putSection base s.wedges w
  let w := putSection base s.colors w
  let w := putSection base s.planeIndices w
  let w := putSection base s.planes w
  let w := putSection base s.wedgeMap w
  let w := putSection base s.vertexUpdates w
  let w := putSection base s.triangleEdges w
  let w := putSection base s.edges w
  putSection base s.edgeScores w

/-- `MultiResolutionMesh::save_to_section` (`src/MultiResolutionMesh.cc:108-189`). `matBytes` are the bytes of the archive with the
materials of the sub meshes (lines 173-178). -/
def saveTo {μ} (matBytes : List μ → Bytes) (g1 : Bool) (m : Mrm μ) (w : Ws) : Ws :=
  let w := w.u16 (if g1 then 0x305 else 0x905)
  let offSize := w.pos
  let w := w.u32 0
  let offContent := w.pos
  let offPositions := w.pos
  let w := m.positions.foldl (fun w v => w.vec3 v) w
  let offNormals := w.pos
  let w := m.normals.foldl (fun w v => w.vec3 v) w
  let (w, sections) := saveParts m.subMeshes w
  let offEnd := w.pos
  let w := w.seek offSize .beg
  let w := w.u32 (BitVec.ofInt 32 ((offEnd : Int) - offSize))
  let w := w.seek offEnd .beg
  let w := w.u8 (BitVec.ofNat 8 m.subMeshes.length)
  let w := w.u32 (BitVec.ofInt 32 ((offPositions : Int) - offContent))
  let w := w.u32 (BitVec.ofNat 32 m.positions.length)
  let w := w.u32 (BitVec.ofInt 32 ((offNormals : Int) - offContent))
  let w := w.u32 (BitVec.ofNat 32 m.normals.length)
  let w := sections.foldl (fun w s => putSections offContent s w) w
  let w := w.write (matBytes (m.subMeshes.map MrmPart.mat))
  let w := if g1 then w else w.u8 (if m.alphaTest ≠ 0 then 1 else 0)
  let w := m.bbox.save w
  let w := m.obbox.save w
  w.write (List.replicate 10 0)

/-- `MultiResolutionMesh::save` (`src/MultiResolutionMesh.cc:103-106`). -/
def save {μ} (matBytes : List μ → Bytes) (g1 : Bool) (m : Mrm μ) (w : Ws) : Ws :=
  let w := writeChunk 0xB100 (saveTo matBytes g1 m) w
  writeChunk 0xB1FF (fun w => w) w

end Mrm

end Verif
