import Verif.Model.ModelMesh

/-! # Morph meshes: `src/MorphMesh.cc`, `include/zenkit/MorphMesh.hh` -/

namespace Verif

/-- `struct MorphAnimation` (`include/zenkit/MorphMesh.hh:16-38`). -/
structure MorphAnimation where
  name : Bytes
  layer : BitVec 32
  blendIn : F32
  blendOut : F32
  duration : F32
  speed : F32
  flags : BitVec 8
  frameCount : BitVec 32
  vertices : List (BitVec 32)
  samples : List Vec3
  deriving DecidableEq, Repr

/-- `struct MorphSource` (`include/zenkit/MorphMesh.hh:41-47`). -/
structure MorphSource where
  fileDate : Date
  fileName : Bytes
  deriving DecidableEq, Repr

/-- `class MorphMesh` (`include/zenkit/MorphMesh.hh:53-71`). -/
structure MorphMesh (μ : Type) where
  name : Bytes
  mesh : Mrm μ
  morphPositions : List Vec3
  animations : List MorphAnimation
  sources : List MorphSource

namespace MorphMesh

/-- `src/MorphMesh.cc:23-24`. -/
def loadSource : Rd MorphSource := do
  let fileDate ← Date.load
  let fileName ← Rd.line true
  return ⟨fileDate, fileName⟩

/-- One animation (`src/MorphMesh.cc:48-69`); the number of samples is a product of 32-bit numbers (lines 61, 67). -/
def loadAnimation : Rd MorphAnimation := do
  let name ← Rd.line false
  let blendIn ← Rd.f32
  let blendOut ← Rd.f32
  let duration ← Rd.f32
  let layer ← Rd.u32
  let speed ← Rd.f32
  let flags ← Rd.u8
  let vertexCount ← Rd.u32
  let frameCount ← Rd.u32
  let vertices ← Rd.times Rd.u32 vertexCount.toNat
  let samples ← Rd.times Rd.vec3 (frameCount * vertexCount).toNat
  return { name, layer, blendIn, blendOut, duration, speed, flags, frameCount, vertices, samples }

/-- `this->morph_positions.resize(n)` (`src/MorphMesh.cc:35`): new elements are zero. -/
def resize (ps : List Vec3) (n : Nat) : List Vec3 := ps.take n ++ List.replicate (n - ps.length) ⟨0, 0, 0⟩

/-- The handler of `MorphMesh::load` (`src/MorphMesh.cc:16-78`): it is never done. -/
def onChunk {μ} (mats : Nat → Rd (List μ)) (m : MorphMesh μ) (type : BitVec 16) : Rd (MorphMesh μ × Bool) :=
  if type = 0xE010 then do
    let count ← Rd.u16
    let sources ← Rd.times loadSource count.toNat
    return ({ m with sources }, false)
  else if type = 0xE020 then do
    let _version ← Rd.u32
    let name ← Rd.line true
    return ({ m with name }, false)
  else if type = 0xB100 then do
    let mesh ← Mrm.loadFrom mats m.mesh
    return ({ m with mesh, morphPositions := resize m.morphPositions mesh.positions.length }, false)
  else if type = 0xB1FF then do
    let morphPositions ← Rd.times Rd.vec3 m.morphPositions.length
    return ({ m with morphPositions }, false)
  else if type = 0xE030 then do
    let count ← Rd.u16
    let animations ← Rd.times loadAnimation count.toNat
    return ({ m with animations := m.animations ++ animations }, false)
  else return (m, false)

/-- `MorphMesh::load` (`src/MorphMesh.cc:15-79`). -/
def load {μ} (mats : Nat → Rd (List μ)) (m : MorphMesh μ) : Rd (MorphMesh μ) := readChunked (simpleCb (onChunk mats)) m

end MorphMesh

end Verif
