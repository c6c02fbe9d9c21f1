import Verif.Model.SoftSkin
import Verif.Model.ModelHierarchy

/-! # Meshes of models: `src/ModelMesh.cc`, `include/zenkit/ModelMesh.hh`, `src/Model.cc` -/

namespace Verif

/-- `class ModelMesh` (`include/zenkit/ModelMesh.hh:20-33`). The hash map of attachments is a list of pairs with distinct names, in some
order. A new object has an indeterminate `checksum`. -/
structure ModelMesh (μ : Type) where
  meshes : List (SoftSkin μ)
  attachments : List (Bytes × Mrm μ)
  checksum : BitVec 32

namespace ModelMesh

/-- The state of the loader: the object and the local variable `attachment_names` (`src/ModelMesh.cc:21`). -/
structure St (μ : Type) where
  obj : ModelMesh μ
  names : List Bytes

/-- A new `MultiResolutionMesh`: empty vectors, `alpha_test` true (`include/zenkit/MultiResolutionMesh.hh:89-106`). -/
def newMrm {μ} : Mrm μ := ⟨[], [], [], [], 1, ⟨⟨0, 0, 0⟩, ⟨0, 0, 0⟩⟩, .mk ⟨0, 0, 0⟩ ⟨0, 0, 0⟩ ⟨0, 0, 0⟩ ⟨0, 0, 0⟩ ⟨0, 0, 0⟩ []⟩

/-- A new `SoftSkinMesh`. -/
def newSkin {μ} : SoftSkin μ := ⟨newMrm, [], [], [], []⟩

/-- `this->attachments[name]` before the call: the attachment of that name or a new one. -/
def attachment {μ} (as : List (Bytes × Mrm μ)) (name : Bytes) : Mrm μ :=
  match as.find? (fun a => a.1 == name) with
  | some a => a.2
  | none => newMrm

/-- The map with the attachment set. -/
def setAttachment {μ} (as : List (Bytes × Mrm μ)) (name : Bytes) (m : Mrm μ) : List (Bytes × Mrm μ) :=
  as.filter (fun a => !(a.1 == name)) ++ [(name, m)]

/-- `this->attachments[attachment_names[this->attachments.size()]].load_from_section(c)` (`src/ModelMesh.cc:47`): without a name for it
the access to `attachment_names` is out of bounds. -/
def onProto {μ} (mats : Nat → Rd (List μ)) (s : St μ) : Rd (St μ) :=
  match s.names[s.obj.attachments.length]? with
  | none => Rd.fail .ub
  | some name => do
    let m ← Mrm.loadFrom mats (attachment s.obj.attachments name)
    return { s with obj := { s.obj with attachments := setAttachment s.obj.attachments name m } }

/-- The chunk with the soft skin meshes (`src/ModelMesh.cc:49-61`). -/
def onSkins {μ} (mats : Nat → Rd (List μ)) (s : St μ) : Rd (St μ × Bool × Nat) := do
  let checksum ← Rd.u32
  let count ← Rd.u16
  let meshes ← Rd.times (SoftSkin.load mats newSkin) count.toNat
  let fin ← Rd.tell
  return ({ s with obj := { s.obj with checksum, meshes } }, false, fin)

/-- The handler of `ModelMesh::load` (`src/ModelMesh.cc:25-69`). Meshes that are in the object before the call are taken to be new (`resize`
keeps the old ones, whose fields are then overwritten). -/
def onChunk {μ} (mats : Nat → Rd (List μ)) : ChunkCb (St μ) := fun s type target =>
  if type = 0xD000 then do
    let _version ← Rd.u32
    return (s, false, target)
  else if type = 0xD010 then do
    let _date ← Date.load
    let _source ← Rd.line false
    return (s, false, target)
  else if type = 0xD020 then do
    let count ← Rd.u16
    let names ← Rd.times (Rd.line true) count.toNat
    return ({ s with names := s.names ++ names }, false, target)
  else if type = 0xB100 then do
    let s ← onProto mats s
    return (s, false, target)
  else if type = 0xD030 then onSkins mats s
  else if type = 0xD040 then return (s, true, target)
  else return (s, false, target)

/-- `ModelMesh::load` (`src/ModelMesh.cc:20-70`). -/
def load {μ} (mats : Nat → Rd (List μ)) (m : ModelMesh μ) : Rd (ModelMesh μ) := do
  let s ← readChunked (onChunk mats) ⟨m, []⟩
  return s.obj

/-- `ModelMesh::save` (`src/ModelMesh.cc:72-108`): all attachments are in one chunk, and the soft skin meshes are not counted. -/
def save {μ} (matBytes : List μ → Bytes) (g1 : Bool) (m : ModelMesh μ) (w : Ws) : Ws :=
  let w := writeChunk 0xD000 (fun w => w.u32 0x04030506) w
  let w := writeChunk 0xD020 (fun w =>
    m.attachments.foldl (fun w a => w.line a.1) (w.u16 (BitVec.ofNat 16 m.attachments.length))) w
  let w := writeChunk 0xB100 (fun w => m.attachments.foldl (fun w a => Mrm.saveTo matBytes g1 a.2 w) w) w
  let w := writeChunk 0xD030 (fun w => m.meshes.foldl (fun w s => s.save matBytes g1 w) (w.u32 m.checksum)) w
  writeChunk 0xD040 (fun w => w) w

end ModelMesh

/-- `class Model` (`include/zenkit/Model.hh:15-25`). -/
structure GModel (μ : Type) where
  hierarchy : Hierarchy
  mesh : ModelMesh μ

namespace GModel

/-- `Model::load` (`src/Model.cc:7-10`). -/
def load {μ} (mats : Nat → Rd (List μ)) (m : GModel μ) : Rd (GModel μ) := do
  let hierarchy ← Hierarchy.load m.hierarchy
  let mesh ← ModelMesh.load mats m.mesh
  return ⟨hierarchy, mesh⟩

/-- `Model::save` (`src/Model.cc:12-15`). -/
def save {μ} (matBytes : List μ → Bytes) (g1 : Bool) (m : GModel μ) (w : Ws) : Ws :=
  ModelMesh.save matBytes g1 m.mesh (m.hierarchy.save w)

end GModel

end Verif
