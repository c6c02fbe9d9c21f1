import Verif.Model.Chunk

/-! # Model hierarchies: `src/ModelHierarchy.cc`, `include/zenkit/ModelHierarchy.hh` -/

namespace Verif

/-- `struct ModelHierarchyNode`. -/
structure HNode where
  parent : BitVec 16
  name : Bytes
  transform : Mat4
  deriving DecidableEq, Repr

/-- `class ModelHierarchy`. A new object has an indeterminate `checksum` and `source_date`; any value will do here. -/
structure Hierarchy where
  nodes : List HNode
  bbox : Aabb
  collisionBbox : Aabb
  rootTranslation : Vec3
  checksum : BitVec 32
  sourceDate : Date
  sourcePath : Bytes
  deriving DecidableEq, Repr

/-- One node in a file (`src/ModelHierarchy.cc:27-31`). -/
def HNode.load : Rd HNode := do
  let name ← Rd.line false
  let parent ← Rd.u16
  let transform ← Rd.mat4
  return ⟨parent, name, transform⟩

/-- The handler of `ModelHierarchy::load` (`src/ModelHierarchy.cc:19-50`). Another version only logs a warning. -/
def Hierarchy.onChunk (h : Hierarchy) (type : BitVec 16) : Rd (Hierarchy × Bool) :=
  if type = 0xD100 then do
    let _version ← Rd.u32
    let n ← Rd.u16
    let nodes ← Rd.times HNode.load n.toNat
    let bbox ← Aabb.load
    let collisionBbox ← Aabb.load
    let rootTranslation ← Rd.vec3
    let checksum ← Rd.u32
    return ({ h with nodes, bbox, collisionBbox, rootTranslation, checksum }, false)
  else if type = 0xD110 then do
    let sourceDate ← Date.load
    let sourcePath ← Rd.line false
    return ({ h with sourceDate, sourcePath }, false)
  else if type = 0xD120 then return (h, true)
  else return (h, false)

/-- `ModelHierarchy::load` (`src/ModelHierarchy.cc:14-51`). -/
def Hierarchy.load (h : Hierarchy) : Rd Hierarchy := readChunked (simpleCb Hierarchy.onChunk) h

/-- One node to a file (`src/ModelHierarchy.cc:58-62`). -/
def HNode.save (n : HNode) (w : Ws) : Ws := ((w.line n.name).u16 n.parent).mat4 n.transform

/-- `ModelHierarchy::save` (`src/ModelHierarchy.cc:53-77`). -/
def Hierarchy.save (h : Hierarchy) (w : Ws) : Ws :=
  let w := writeChunk 0xD100 (fun w =>
    let w := w.u32 3
    let w := w.u16 (BitVec.ofNat 16 h.nodes.length)
    let w := h.nodes.foldl (fun w n => n.save w) w
    let w := h.bbox.save w
    let w := h.collisionBbox.save w
    let w := w.vec3 h.rootTranslation
    w.u32 h.checksum) w
  let w := writeChunk 0xD110 (fun w => (h.sourceDate.save w).line h.sourcePath) w
  writeChunk 0xD120 (fun w => w) w

end Verif
