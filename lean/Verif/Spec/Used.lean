import Verif.Model.Texture
import Verif.Model.ModelHierarchy
import Verif.Model.ModelAnimation
import Verif.Model.SoftSkin

/-!
# Specification of loading into objects that were used before

What an object holds after a load that replaces what the file has, and keeps the rest.
-/

namespace Verif.Spec

/-- The header of a chunk. -/
def header (type : BitVec 16) (payload : Bytes) : Bytes := encW 2 type ++ encW 4 (BitVec.ofNat 32 payload.length)

/-- A file of chunks: the types of all chunks up to the first one of type `stop`, behind which there may be anything, or up to the end of the file.
The payloads are any bytes. -/
inductive Chunks (stop : Option (BitVec 16)) : Bytes → List (BitVec 16) → Prop
  | stop {t payload post} : stop = some t → payload.length < 2 ^ 32 → Chunks stop (header t payload ++ payload ++ post) [t]
  | fin {t payload} : stop ≠ some t → payload.length < 2 ^ 32 → Chunks stop (header t payload ++ payload) [t]
  | next {t payload rest ts} : stop ≠ some t → payload.length < 2 ^ 32 → Chunks stop rest ts →
      Chunks stop (header t payload ++ payload ++ rest) (t :: ts)

/-- Fields that a chunk of type `t` holds: those of the file if there is such a chunk, those of the object otherwise. -/
def pick {α} (ts : List (BitVec 16)) (t : BitVec 16) (got old : α) : α := if t ∈ ts then got else old

/-- A hierarchy `old` into which a file with chunks of the types `ts` was loaded that makes a new object `got`. -/
def hierarchyOver (ts : List (BitVec 16)) (old got : Hierarchy) : Hierarchy where
  nodes := pick ts 0xD100 got.nodes old.nodes
  bbox := pick ts 0xD100 got.bbox old.bbox
  collisionBbox := pick ts 0xD100 got.collisionBbox old.collisionBbox
  rootTranslation := pick ts 0xD100 got.rootTranslation old.rootTranslation
  checksum := pick ts 0xD100 got.checksum old.checksum
  sourceDate := pick ts 0xD110 got.sourceDate old.sourceDate
  sourcePath := pick ts 0xD110 got.sourcePath old.sourcePath

/-- The same for animations. -/
def animationOver (ts : List (BitVec 16)) (old got : Animation) : Animation where
  name := pick ts 0xA020 got.name old.name
  next := pick ts 0xA020 got.next old.next
  layer := pick ts 0xA020 got.layer old.layer
  frameCount := pick ts 0xA020 got.frameCount old.frameCount
  nodeCount := pick ts 0xA020 got.nodeCount old.nodeCount
  fps := pick ts 0xA020 got.fps old.fps
  fpsSource := pick ts 0xA020 got.fpsSource old.fpsSource
  positionMin := pick ts 0xA020 got.positionMin old.positionMin
  positionScale := pick ts 0xA020 got.positionScale old.positionScale
  bbox := pick ts 0xA020 got.bbox old.bbox
  checksum := pick ts 0xA090 got.checksum old.checksum
  nodeIndices := pick ts 0xA090 got.nodeIndices old.nodeIndices
  samples := pick ts 0xA090 got.samples old.samples
  events := pick ts 0xA030 got.events old.events
  sourceDate := pick ts 0xA010 got.sourceDate old.sourceDate
  sourcePath := pick ts 0xA010 got.sourcePath old.sourcePath
  sourceScript := pick ts 0xA010 got.sourceScript old.sourceScript

/-- The samples of an animation come behind its header. -/
def HeaderFirst (ts : List (BitVec 16)) : Prop := ∀ seen rest, ts = seen ++ 0xA090 :: rest → 0xA020 ∈ seen

/-- Two meshes `x` and `y` made of one file out of `a` and `b`: they are equal but for the alpha test, which may be that from before. -/
def MeshOver {μ} (a b x y : Mrm μ) : Prop := x = { y with alphaTest := x.alphaTest } ∧ (x.alphaTest = y.alphaTest ∨ x.alphaTest = a.alphaTest ∧ y.alphaTest = b.alphaTest)

/-- The weights of a skin come behind its mesh. -/
def MeshFirst (ts : List (BitVec 16)) : Prop := ∀ seen rest, ts = seen ++ 0xB1FF :: rest → 0xB100 ∈ seen

/-- Two skins made of one file with chunks of the types `ts` out of `a` and `b`. -/
structure SkinOver {μ} (ts : List (BitVec 16)) (a b x y : SoftSkin μ) : Prop where
  mesh : if 0xB100 ∈ ts then MeshOver a.mesh b.mesh x.mesh y.mesh else x.mesh = a.mesh ∧ y.mesh = b.mesh
  weights : x.weights = pick ts 0xB1FF y.weights a.weights
  wedgeNormals : x.wedgeNormals = pick ts 0xB1FF y.wedgeNormals a.wedgeNormals
  nodes : x.nodes = pick ts 0xB1FF y.nodes a.nodes
  bboxes : x.bboxes = pick ts 0xB1FF y.bboxes a.bboxes

end Verif.Spec
