import Verif.Spec.Meshes
import Verif.Lemmas.Segments
import Verif.Spec.Chunk

/-!
# Chunks that a loader does not know

Files of other versions of the game, or of other tools, may hold chunks of types that a loader does not know. They are files as in
`Verif.Spec.Meshes` with additional chunks between theirs.
-/

namespace Verif.Spec

/-- `cs'` is `cs` with more chunks, of types that are not in `known`, in front of any of its chunks. -/
inductive Extended (known : List (BitVec 16)) : List Seg → List Seg → Prop
  | last (c : Seg) : Extended known [c] [c]
  | keep (c : Seg) {cs cs' : List Seg} : Extended known cs cs' → Extended known (c :: cs) (c :: cs')
  | more (type : BitVec 16) (payload : Bytes) {cs cs' : List Seg} : type ∉ known → payload.length < 2 ^ 32 → Extended known cs cs' →
      Extended known cs (Seg.of type payload :: cs')

/-- Chunks of types that are not in `known`. -/
def Foreign (known : List (BitVec 16)) (cs : List Seg) : Prop :=
  ∀ c ∈ cs, ∃ type payload, c = Seg.of type payload ∧ type ∉ known ∧ payload.length < 2 ^ 32

/-- The chunks of a multi resolution mesh and their types. -/
def MrmFile.segs {μ} (f : MrmFile μ) : List Seg := [Seg.of 0xB100 f.bytes, Seg.of 0xB1FF []]
def MrmFile.known : List (BitVec 16) := [0xB100, 0xB1FF]

theorem MrmFile.segs_bytes {μ} (f : MrmFile μ) : segsBytes f.segs = mrmBytes f := by simp [segsBytes, mrmBytes, MrmFile.segs, Seg.of_bytes]

/-- The chunks of a soft skin mesh and their types. -/
def SkinFile.segs {μ} (f : SkinFile μ) : List Seg :=
  [Seg.of 0xE100 (encW 4 f.version), Seg.of 0xB100 f.mesh.bytes, Seg.of 0xB1FF f.nodeBytes, Seg.of 0xE110 []]
def SkinFile.known : List (BitVec 16) := [0xE100, 0xB100, 0xB1FF, 0xE110]

theorem SkinFile.segs_bytes {μ} (f : SkinFile μ) : segsBytes f.segs = f.bytes := by simp [segsBytes, SkinFile.bytes, SkinFile.segs, Seg.of_bytes]

/-- The chunks of the mesh of a model and their types. -/
def ModelMeshFile.segs {μ} (f : ModelMeshFile μ) : List Seg :=
  [Seg.of 0xD000 (encW 4 f.version), Seg.of 0xD010 (f.date.enc ++ encLine f.source),
    Seg.of 0xD020 (encW 2 (BitVec.ofNat 16 f.attachments.length) ++ (f.attachments.map fun a => encLine a.1).flatten)] ++
  ((f.attachments.map fun a => Seg.of 0xB100 a.2.bytes) ++
  [⟨0xD030, f.skinSize, encW 4 f.checksum ++ (encW 2 (BitVec.ofNat 16 f.skins.length) ++ (f.skins.map SkinFile.bytes).flatten)⟩,
    Seg.of 0xD040 []])
def ModelMeshFile.known : List (BitVec 16) := [0xD000, 0xD010, 0xD020, 0xB100, 0xD030, 0xD040]

theorem ModelMeshFile.segs_bytes {μ} (f : ModelMeshFile μ) : segsBytes f.segs = f.bytes := by
  simp only [ModelMeshFile.bytes, ModelMeshFile.segs, segsBytes, List.map_cons, List.map_append, List.flatten_cons, List.flatten_append,
    List.map_map, Seg.bytes, List.map_nil, List.flatten_nil, List.append_assoc]
  rfl

/-- The chunks of a morph mesh and their types. -/
def MorphFile.segs {μ} (f : MorphFile μ) : List Seg :=
  [Seg.of 0xE010 (encW 2 (BitVec.ofNat 16 f.sources.length) ++ (f.sources.map encSource).flatten), Seg.of 0xE020 (encW 4 f.version ++ encLine f.name),
    Seg.of 0xB100 f.mesh.bytes, Seg.of 0xB1FF (f.morphPositions.map Vec3.mem).flatten,
    Seg.of 0xE030 (encW 2 (BitVec.ofNat 16 f.animations.length) ++ (f.animations.map encMorph).flatten)]
def MorphFile.known : List (BitVec 16) := [0xE010, 0xE020, 0xB100, 0xB1FF, 0xE030]

theorem MorphFile.segs_bytes {μ} (f : MorphFile μ) : segsBytes f.segs = f.bytes := by simp [segsBytes, MorphFile.bytes, MorphFile.segs, Seg.of_bytes]

/-- The chunks of an animation and the types of those that have a meaning. -/
def AnimFile.segs (f : AnimFile) : List Seg :=
  let a := f.anim
  [Seg.of 0xA000 [], Seg.of 0xA010 (a.sourceDate.enc ++ (encLine a.sourcePath ++ encLine a.sourceScript)),
    Seg.of 0xA020 (encW 2 f.version ++ (encLine a.name ++ (encW 4 a.layer ++ (encW 4 a.frameCount ++ (encW 4 a.nodeCount ++
      (encW 4 a.fps ++ (encW 4 a.fpsSource ++ (encW 4 a.positionMin ++ (encW 4 a.positionScale ++ (a.bbox.enc ++ encLine a.next)))))))))),
    Seg.of 0xA030 (encW 4 (BitVec.ofNat 32 a.events.length) ++ (a.events.map encEvent).flatten),
    Seg.of 0xA090 (encW 4 a.checksum ++ ((a.nodeIndices.map encU32).flatten ++ (f.raw.map encSample).flatten))]
def AnimFile.known : List (BitVec 16) := [0xA010, 0xA020, 0xA030, 0xA090]

theorem AnimFile.segs_bytes (f : AnimFile) : segsBytes f.segs = f.bytes := by simp [segsBytes, AnimFile.bytes, AnimFile.segs, Seg.of_bytes]

/-- A chunk with its right size. -/
def Chunk.seg (c : Chunk) : Seg := Seg.of c.type c.payload

/-- The types of the chunks of a hierarchy, of a BSP tree and of a world mesh (with both kinds of light maps). -/
def hierarchyKnown : List (BitVec 16) := [0xD100, 0xD110, 0xD120]
def bspKnown : List (BitVec 16) := [0xC000, 0xC010, 0xC040, 0xC045, 0xC050, 0xC0FF]
def meshKnown : List (BitVec 16) := [0xB000, 0xB010, 0xB020, 0xB025, 0xB026, 0xB030, 0xB040, 0xB050, 0xB060]

/-- Nothing has to be added. -/
theorem Extended.refl (known : List (BitVec 16)) : ∀ {cs : List Seg}, cs ≠ [] → Extended known cs cs
  | [], h => absurd rfl h
  | [c], _ => .last c
  | c :: d :: cs, _ => .keep c (Extended.refl known (by simp))

end Verif.Spec
