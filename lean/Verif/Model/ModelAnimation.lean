import Verif.Model.Chunk

/-!
# Animations of models

`src/ModelAnimation.cc`, `include/zenkit/ModelAnimation.hh`. The arithmetic that turns the stored numbers of a sample into a position and a
rotation is a parameter (`rot`, `pos`).
-/

namespace Verif

/-- `struct AnimationEvent` (`include/zenkit/ModelAnimation.hh:87-101`). -/
structure AnimEvent where
  type : BitVec 32
  frame : BitVec 32
  tag : Bytes
  content : List Bytes
  values : List F32
  probability : F32
  deriving DecidableEq, Repr

/-- `struct AnimationSample` (`include/zenkit/ModelAnimation.hh:21-26`). -/
structure AnimSample where
  position : Vec3
  rotation : Vec4
  deriving DecidableEq, Repr

/-- `class ModelAnimation` (`include/zenkit/ModelAnimation.hh:104-164`). -/
structure Animation where
  name : Bytes
  next : Bytes
  layer : BitVec 32
  frameCount : BitVec 32
  nodeCount : BitVec 32
  fps : F32
  fpsSource : F32
  positionMin : F32
  positionScale : F32
  bbox : Aabb
  checksum : BitVec 32
  sourcePath : Bytes
  sourceDate : Date
  sourceScript : Bytes
  samples : List AnimSample
  events : List AnimEvent
  nodeIndices : List (BitVec 32)
  deriving DecidableEq, Repr

/-- The arithmetic of `read_sample_position` and `read_sample_quaternion` (`src/ModelAnimation.cc:32-64`). -/
structure SampleOps where
  /-- the three stored numbers, the scale and the minimum -/
  pos : BitVec 16 → BitVec 16 → BitVec 16 → F32 → F32 → Vec3
  /-- the three stored numbers -/
  rot : BitVec 16 → BitVec 16 → BitVec 16 → Vec4

namespace Animation

/-- One sample (`src/ModelAnimation.cc:124-125`): the rotation is stored first. -/
def loadSample (o : SampleOps) (scale min : F32) : Rd AnimSample := do
  let a ← Rd.u16
  let b ← Rd.u16
  let c ← Rd.u16
  let x ← Rd.u16
  let y ← Rd.u16
  let z ← Rd.u16
  return ⟨o.pos x y z scale min, o.rot a b c⟩

/-- One event (`src/ModelAnimation.cc:98-110`). -/
def loadEvent : Rd AnimEvent := do
  let type ← Rd.u32
  let frame ← Rd.u32
  let tag ← Rd.line true
  let content ← Rd.times (Rd.line true) 4
  let values ← Rd.times Rd.f32 4
  let probability ← Rd.f32
  return ⟨type, frame, tag, content, values, probability⟩

/-- The handler of `ModelAnimation::load` (`src/ModelAnimation.cc:71-134`): it is never done. The number of samples is a product of 32-bit
numbers (line 122). -/
def onChunk (o : SampleOps) (m : Animation) (type : BitVec 16) : Rd (Animation × Bool) :=
  if type = 0xA010 then do
    let sourceDate ← Date.load
    let sourcePath ← Rd.line false
    let sourceScript ← Rd.line false
    return ({ m with sourceDate, sourcePath, sourceScript }, false)
  else if type = 0xA020 then do
    let _version ← Rd.u16
    let name ← Rd.line false
    let layer ← Rd.u32
    let frameCount ← Rd.u32
    let nodeCount ← Rd.u32
    let fps ← Rd.f32
    let fpsSource ← Rd.f32
    let positionMin ← Rd.f32
    let positionScale ← Rd.f32
    let bbox ← Aabb.load
    let next ← Rd.line false
    return ({ m with name, layer, frameCount, nodeCount, fps, fpsSource, positionMin, positionScale, bbox, next }, false)
  else if type = 0xA030 then do
    let count ← Rd.u32
    let events ← Rd.times loadEvent count.toNat
    return ({ m with events }, false)
  else if type = 0xA090 then do
    let checksum ← Rd.u32
    let nodeIndices ← Rd.times Rd.u32 m.nodeCount.toNat
    let samples ← Rd.times (loadSample o m.positionScale m.positionMin) (m.nodeCount * m.frameCount).toNat
    return ({ m with checksum, nodeIndices, samples }, false)
  else return (m, false)

/-- `ModelAnimation::load` (`src/ModelAnimation.cc:70-135`). -/
def load (o : SampleOps) (m : Animation) : Rd Animation := readChunked (simpleCb (onChunk o)) m

end Animation

end Verif
