import Verif.Model.Mrm

/-! # Soft skin meshes: `src/SoftSkinMesh.cc`, `include/zenkit/SoftSkinMesh.hh` -/

namespace Verif

/-- `struct SoftSkinWedgeNormal` (`include/zenkit/SoftSkinMesh.hh:14-17`). -/
structure SkinNormal where
  normal : Vec3
  index : BitVec 32
  deriving DecidableEq, Repr

/-- `struct SoftSkinWeightEntry` (`include/zenkit/SoftSkinMesh.hh:19-23`). -/
structure SkinWeight where
  weight : F32
  position : Vec3
  node : BitVec 8
  deriving DecidableEq, Repr

/-- `class SoftSkinMesh` (`include/zenkit/SoftSkinMesh.hh:26-45`). -/
structure SoftSkin (μ : Type) where
  mesh : Mrm μ
  bboxes : List Obb
  wedgeNormals : List SkinNormal
  weights : List (List SkinWeight)
  nodes : List (BitVec 32)

namespace SoftSkin

/-- `src/SoftSkinMesh.cc:40-42`. -/
def loadWeight : Rd SkinWeight := do
  let weight ← Rd.f32
  let position ← Rd.vec3
  let node ← Rd.u8
  return ⟨weight, position, node⟩

/-- The weights of one position (`src/SoftSkinMesh.cc:35-43`). -/
def loadWeights : Rd (List SkinWeight) := do
  let count ← Rd.u32
  Rd.times loadWeight count.toNat

/-- `src/SoftSkinMesh.cc:54-55`. -/
def loadNormal : Rd SkinNormal := do
  let normal ← Rd.vec3
  let index ← Rd.u32
  return ⟨normal, index⟩

/-- `src/SoftSkinMesh.cc:46-49`: skip to the end of the weights if it has not been reached. -/
def skipTo (fin : Nat) : Rd Unit := do
  let here ← Rd.tell
  if here ≠ fin then Rd.seek fin .beg else return ()

/-- The chunk with the weights (`src/SoftSkinMesh.cc:28-71`). -/
def loadNodes {μ} (m : SoftSkin μ) : Rd (SoftSkin μ) := do
  let size ← Rd.u32
  let here ← Rd.tell
  let weights ← Rd.times loadWeights m.mesh.positions.length
  skipTo (here + size.toNat)
  let normalCount ← Rd.u32
  let wedgeNormals ← Rd.times loadNormal normalCount.toNat
  let nodeCount ← Rd.u16
  let nodes ← Rd.times Rd.u32 nodeCount.toNat
  let bboxes ← Rd.times Obb.load nodes.length
  return { m with weights, wedgeNormals, nodes, bboxes }

/-- The handler of `SoftSkinMesh::load` (`src/SoftSkinMesh.cc:20-79`). -/
def onChunk {μ} (mats : Nat → Rd (List μ)) (m : SoftSkin μ) (type : BitVec 16) : Rd (SoftSkin μ × Bool) :=
  if type = 0xE100 then do
    let _version ← Rd.u32
    return (m, false)
  else if type = 0xB100 then do
    let mesh ← Mrm.loadFrom mats m.mesh
    return ({ m with mesh }, false)
  else if type = 0xB1FF then do
    let m ← loadNodes m
    return (m, false)
  else if type = 0xE110 then return (m, true)
  else return (m, false)

/-- `SoftSkinMesh::load` (`src/SoftSkinMesh.cc:19-80`). -/
def load {μ} (mats : Nat → Rd (List μ)) (m : SoftSkin μ) : Rd (SoftSkin μ) := readChunked (simpleCb (onChunk mats)) m

/-- `src/SoftSkinMesh.cc:99-101`. -/
def saveWeight (e : SkinWeight) (w : Ws) : Ws := ((w.f32 e.weight).vec3 e.position).u8 e.node

/-- `src/SoftSkinMesh.cc:96-102`. -/
def saveWeights (es : List SkinWeight) (w : Ws) : Ws :=
  es.foldl (fun w e => saveWeight e w) (w.u32 (BitVec.ofNat 32 es.length))

/-- `src/SoftSkinMesh.cc:112-113`. -/
def saveNormal (n : SkinNormal) (w : Ws) : Ws := (w.vec3 n.normal).u32 n.index

/-- The third chunk of `SoftSkinMesh::save` (`src/SoftSkinMesh.cc:92-123`). -/
def saveNodes {μ} (m : SoftSkin μ) (w : Ws) : Ws :=
  let offSize := w.pos
  let w := w.u32 0
  let w := m.weights.foldl (fun w es => saveWeights es w) w
  let offEnd := w.pos
  let w := w.seek offSize .beg
  let w := w.u32 (BitVec.ofInt 32 ((offEnd : Int) - offSize))
  let w := w.seek offEnd .beg
  let w := w.u32 (BitVec.ofNat 32 m.wedgeNormals.length)
  let w := m.wedgeNormals.foldl (fun w n => saveNormal n w) w
  let w := w.u16 (BitVec.ofNat 16 m.nodes.length)
  let w := m.nodes.foldl (fun w n => w.u32 n) w
  m.bboxes.foldl (fun w b => b.save w) w

/-- `SoftSkinMesh::save` (`src/SoftSkinMesh.cc:82-127`): the type of the third chunk is `HEADER` (line 91). Both versions are 4
(lines 8-9). -/
def save {μ} (matBytes : List μ → Bytes) (g1 : Bool) (m : SoftSkin μ) (w : Ws) : Ws :=
  let w := writeChunk 0xE100 (fun w => w.u32 4) w
  let w := writeChunk 0xB100 (Mrm.saveTo matBytes g1 m.mesh) w
  let w := writeChunk 0xE100 (saveNodes m) w
  writeChunk 0xE110 (fun w => w) w

end SoftSkin

end Verif
