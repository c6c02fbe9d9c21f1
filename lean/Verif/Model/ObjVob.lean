import Verif.Model.ObjLoad

/-!
# `VirtualObject` and the objects it points to: `src/vobs/VirtualObject.cc`

A structure has the members of the class, in the order of the header, with their initialisers as default values; objects made by
`std::make_shared<T>()` have zero in members without initialiser. `load` is called for an object `o` and returns what it
becomes. Enumerations are their values. Members that are marked as deprecated copies of others (`associated_visual_type`,
`visual_decal`) and the list of children (C48) are left out.
-/

namespace Verif.Obj

open Verif.Ar

def Vec3.zero : Vec3 := ⟨0, 0, 0⟩
def Vec2.zero : Vec2 := ⟨0, 0⟩

/-- `RigidBody` (`include/zenkit/vobs/VirtualObject.hh`). -/
structure RigidBody where
  vel : Vec3 := Vec3.zero
  mode : BitVec 8 := 0
  gravityEnabled : Bool := false
  gravityScale : F32 := 0
  slideDirection : Vec3 := Vec3.zero
  deriving DecidableEq, Repr

/-- `RigidBody::load` (`src/vobs/VirtualObject.cc:326-332`). -/
def RigidBody.load {P} : Ld P RigidBody := do
  let vel ← Ld.vec3
  let mode ← Ld.byte
  let gravityEnabled ← Ld.bool
  let gravityScale ← Ld.float
  let slideDirection ← Ld.vec3
  return { vel, mode, gravityEnabled, gravityScale, slideDirection }

/-- `RigidBody::save` (`src/vobs/VirtualObject.cc:334-340`). -/
def RigidBody.save (x : RigidBody) : List Field :=
  [fVec3 b!"vel" x.vel, fByte b!"mode" x.mode, fBool b!"gravOn" x.gravityEnabled, fFloat b!"gravScale" x.gravityScale,
   fVec3 b!"slideDir" x.slideDirection]

/-- A pointer to a `Visual`, and the members `name` and `type` of the object it denotes. -/
structure VisualRef (P : Type) where
  obj : P
  name : Bytes
  type : BitVec 8
  deriving DecidableEq, Repr

/-- `VisualType::UNKNOWN`. -/
def visUnknown : BitVec 8 := 7

/-- `visual_type_map` (`src/vobs/VirtualObject.cc:14-23`), and which types are those of classes derived from `Visual`: the same. -/
def visualType : ObjectType → Option (BitVec 8)
  | .zCDecal => some 0
  | .zCMesh => some 1
  | .zCProgMeshProto => some 2
  | .zCParticleFX => some 3
  | .zCModel => some 5
  | .zCAICamera => some 4
  | .zCMorphMesh => some 6
  | _ => none

/-- The answers, given the types of the objects. -/
def Env.of {P} (type : P → ObjectType) (flag : P → Bool) (dflt : P) : Env P where
  is t a := type a = t
  vob a := match (type a).make with
    | some c => ObjClass.VirtualObject.isBaseOf 6 c
    | none => false
  visual a := visualType (type a)
  flag := flag
  dflt := dflt

/-- `VirtualObject` (`include/zenkit/vobs/VirtualObject.hh`). -/
structure VObj (P : Type) where
  bbox : Aabb := ⟨Vec3.zero, Vec3.zero⟩
  position : Vec3 := Vec3.zero
  rotation : Mat3 := ⟨⟨0x3F800000, 0, 0⟩, ⟨0, 0x3F800000, 0⟩, ⟨0, 0, 0x3F800000⟩⟩
  showVisual : Bool := false
  camAlign : BitVec 8 := 0
  cdStatic : Bool := true
  cdDynamic : Bool := true
  vobStatic : Bool := false
  shadows : BitVec 8 := 0
  physics : Bool := true
  animMode : BitVec 8 := 0
  bias : BitVec 32 := 0
  ambient : Bool := false
  animStrength : F32 := 0
  farClip : F32 := 0x40000000
  presetName : Bytes := []
  vobName : Bytes := []
  visualName : Bytes := []
  visual : Option (VisualRef P) := none
  ai : Option P := none
  eventManager : Option P := none
  sleepMode : BitVec 8 := 0
  nextOnTimer : F32 := 0
  rigidBody : Option RigidBody := none
  deriving DecidableEq, Repr

/-- A `bool` in an arithmetic expression. -/
def bit (n : Nat) (b : Bool) : BitVec n := if b then 1 else 0

/-- `this->visual && !this->visual->name.empty()` (`src/vobs/VirtualObject.cc:229, 291`). -/
def VObj.hasVisualName {P} (x : VObj P) : Bool :=
  match x.visual with
  | some v => !v.name.isEmpty
  | none => false

/-- `this->visual && this->visual->type != VisualType::UNKNOWN` (`src/vobs/VirtualObject.cc:230, 295`). -/
def VObj.hasVisualObj {P} (x : VObj P) : Bool :=
  match x.visual with
  | some v => v.type != visUnknown
  | none => false

/-- `bit0` (`src/vobs/VirtualObject.cc:215-222`). -/
def VObj.bit0 {P} (x : VObj P) : BitVec 8 :=
  bit 8 x.showVisual ||| ((x.camAlign &&& 3) <<< 1) ||| (bit 8 x.cdStatic <<< 3) ||| (bit 8 x.cdDynamic <<< 4) |||
    (bit 8 x.vobStatic <<< 5) ||| ((x.shadows &&& 3) <<< 6)

/-- `bit1` as both games have it (`src/vobs/VirtualObject.cc:226-239`). -/
def VObj.bit1 {P} (c : Ctx) (x : VObj P) : BitVec 16 :=
  bit 16 (!x.presetName.isEmpty) ||| (bit 16 (!x.vobName.isEmpty) <<< 1) ||| (bit 16 x.hasVisualName <<< 2) |||
    (bit 16 x.hasVisualObj <<< 3) ||| (bit 16 x.ai.isSome <<< 4) ||| (bit 16 x.eventManager.isSome <<< 5) |||
    (bit 16 (if c.g2 then x.physics && x.rigidBody.isSome else x.physics) <<< 6)

/-- What Gothic 2 has in `bit1` in addition (`src/vobs/VirtualObject.cc:242-244`). -/
def VObj.bit1g2 {P} (x : VObj P) : BitVec 16 :=
  (((x.animMode &&& 2).setWidth 16) <<< 7) ||| (((x.bias.setWidth 8 &&& 31).setWidth 16) <<< 13) ||| (bit 16 x.ambient <<< 14)

/-- `dataRaw` (`src/vobs/VirtualObject.cc:208-251`). -/
def VObj.packed {P} (c : Ctx) (x : VObj P) (w : Ws) : Ws :=
  let w := x.bbox.save w
  let w := w.vec3 x.position
  let w := w.mat3 x.rotation
  let w := w.u8 x.bit0
  if c.g2 then
    let w := w.u16 (x.bit1 c ||| x.bit1g2)
    let w := w.f32 x.animStrength
    w.f32 x.farClip
  else w.u8 ((x.bit1 c).setWidth 8)

/-- The members that are not packed (`src/vobs/VirtualObject.cc:255-280`). -/
def VObj.saveUnpacked (c : Ctx) (x : VObj Nat) : List Field :=
  [fInt b!"pack" 0, fStr b!"presetName" x.presetName, fBbox b!"bbox3DWS" x.bbox, fMat3 b!"trafoOSToWSRot" x.rotation,
   fVec3 b!"trafoOSToWSPos" x.position, fStr b!"vobName" x.vobName, fStr b!"visual" x.visualName,
   fBool b!"showVisual" x.showVisual, fEnum b!"visualCamAlign" (x.camAlign.setWidth 32)] ++
  (if c.g2 then
    [fEnum b!"visualAniMode" (x.animMode.setWidth 32), fFloat b!"visualAniModeStrength" x.animStrength,
     fFloat b!"vobFarClipZScale" x.farClip, fBool b!"cdStatic" x.cdStatic, fBool b!"cdDyn" x.cdDynamic,
     fBool b!"staticVob" x.vobStatic, fEnum b!"dynShadow" (x.shadows.setWidth 32), fInt b!"zbias" x.bias,
     fBool b!"isAmbient" x.ambient]
   else
    [fBool b!"cdStatic" x.cdStatic, fBool b!"cdDyn" x.cdDynamic, fBool b!"staticVob" x.vobStatic,
     fEnum b!"dynShadow" (x.shadows.setWidth 32)])

/-- The rigid body (`src/vobs/VirtualObject.cc:311-314`). -/
def VObj.saveBody {P} (x : VObj P) : List Field :=
  match x.rigidBody with
  | some b => fIf x.physics b.save
  | none => []

/-- `VirtualObject::save` (`src/vobs/VirtualObject.cc:203-316`). -/
def VObj.save (c : Ctx) (x : VObj Nat) : List Field :=
  (if c.pack then [fInt b!"pack" 1, fRaw b!"dataRaw" (x.packed c ⟨[], 0⟩).data] else x.saveUnpacked c) ++
  fIf (!x.presetName.isEmpty) [fStr b!"presetName" x.presetName] ++
  fIf (!x.vobName.isEmpty) [fStr b!"vobName" x.vobName] ++
  fIf x.hasVisualName [fStr b!"visual" ((x.visual.map (·.name)).getD [])] ++
  fIf x.hasVisualObj [fObj b!"visual" (x.visual.map (·.obj))] ++
  fIf x.ai.isSome [fObj b!"ai" x.ai] ++
  fIf x.eventManager.isSome [fObj b!"%" x.eventManager] ++
  fIf c.save ([fByte b!"sleepMode" x.sleepMode, fFloat b!"nextOnTimer" x.nextOnTimer] ++ x.saveBody)

/-- What has been found out before the objects are read (`src/vobs/VirtualObject.cc:69-71`). -/
structure VObj.Has where
  visual : Bool
  ai : Bool
  eventManager : Bool

/-- The content of `dataRaw` as it is read. -/
structure VObj.Raw where
  bbox : Aabb
  position : Vec3
  rotation : Mat3
  bit0 : BitVec 8
  bit1 : BitVec 16
  animStrength : F32
  farClip : F32

/-- Reading `dataRaw` (`src/vobs/VirtualObject.cc:74-87, 113-114`). In the source the strengths are read behind some assignments. -/
def VObj.readRaw {P} (c : Ctx) (o : VObj P) : Rd VObj.Raw := do
  let bbox ← Aabb.load
  let position ← Rd.vec3
  let rotation ← Rd.mat3
  let bit0 ← Rd.u8
  let bit1 ← (if c.g2 then Rd.u16 else do let b ← Rd.u8; return b.setWidth 16)
  let animStrength ← (if c.g2 then Rd.f32 else return o.animStrength)
  let farClip ← (if c.g2 then Rd.f32 else return o.farClip)
  return { bbox, position, rotation, bit0, bit1, animStrength, farClip }

/-- `packed` (`src/vobs/VirtualObject.cc:73-127`). `bit1 & 0b110000000u >> 7u` is `bit1 & 3`. -/
def VObj.loadPacked {P} (c : Ctx) (o : VObj P) : Ld P (VObj P × VObj.Has) := do
  let r ← Ld.raw (if c.g2 then 83 else 74) (VObj.readRaw c o)
  let presetName ← Ld.opt (r.bit1 &&& 1 != 0) o.presetName Ld.str
  let vobName ← Ld.opt (r.bit1 &&& 2 != 0) o.vobName Ld.str
  let visualName ← Ld.opt (r.bit1 &&& 4 != 0) o.visualName Ld.str
  return ({ o with
    bbox := r.bbox
    position := r.position
    rotation := r.rotation
    showVisual := r.bit0 &&& 1 != 0
    camAlign := (r.bit0 &&& 6) >>> 1
    cdStatic := r.bit0 &&& 8 != 0
    cdDynamic := r.bit0 &&& 16 != 0
    vobStatic := r.bit0 &&& 32 != 0
    shadows := (r.bit0 &&& 192) >>> 6
    physics := r.bit1 &&& 64 != 0
    animMode := if c.g2 then (r.bit1 &&& 3).setWidth 8 else o.animMode
    bias := if c.g2 then ((r.bit1 &&& 0x3E00) >>> 9).setWidth 32 else o.bias
    ambient := if c.g2 then r.bit1 &&& 0x4000 != 0 else o.ambient
    animStrength := r.animStrength
    farClip := r.farClip
    presetName, vobName, visualName },
    ⟨r.bit1 &&& 8 != 0, r.bit1 &&& 16 != 0, r.bit1 &&& 32 != 0 && c.save⟩)

/-- `!packed` (`src/vobs/VirtualObject.cc:128-156`). -/
def VObj.loadUnpacked {P} (c : Ctx) (o : VObj P) : Ld P (VObj P × VObj.Has) := do
  let presetName ← Ld.str
  let bbox ← Ld.bbox
  let rotation ← Ld.mat3
  let position ← Ld.vec3
  let vobName ← Ld.str
  let visualName ← Ld.str
  let showVisual ← Ld.bool
  let camAlign ← Ld.enum
  let animMode ← Ld.opt c.g2 (o.animMode.setWidth 32) Ld.enum
  let animStrength ← Ld.opt c.g2 o.animStrength Ld.float
  let farClip ← Ld.opt c.g2 o.farClip Ld.float
  let cdStatic ← Ld.bool
  let cdDynamic ← Ld.bool
  let vobStatic ← Ld.bool
  let shadows ← Ld.enum
  let bias ← Ld.opt c.g2 o.bias Ld.int
  let ambient ← Ld.opt c.g2 o.ambient Ld.bool
  return ({ o with
    presetName, bbox, rotation, position, vobName, visualName, showVisual, animStrength, farClip, cdStatic, cdDynamic, vobStatic, bias,
    ambient
    camAlign := camAlign.setWidth 8
    animMode := animMode.setWidth 8
    shadows := shadows.setWidth 8 }, ⟨true, true, false⟩)

/-- The visual after its object has been read (`src/vobs/VirtualObject.cc:158-179`). `it->second` is used even if `it` is the end of
the map, but the map has all classes derived from `Visual`. -/
def VObj.visualOf {P} (env : Env P) (name : Bytes) (p : Option P) : VisualRef P :=
  match p with
  | some a =>
    match env.visual a with
    | some t => ⟨a, name, t⟩
    | none => ⟨env.dflt, [], visUnknown⟩
  | none => ⟨env.dflt, [], visUnknown⟩

/-- `VirtualObject::load` (`src/vobs/VirtualObject.cc:65-201`). The pointer
to the AI is converted without a check. -/
def VObj.load {P} (c : Ctx) (env : Env P) (o : VObj P) : Ld P (VObj P) := do
  let packed ← Ld.int
  let oh ← (if packed != 0 then VObj.loadPacked c o else VObj.loadUnpacked c o)
  let visual ← Ld.opt oh.2.visual none Ld.obj
  let ai ← Ld.opt oh.2.ai oh.1.ai Ld.obj
  let eventManager ← Ld.opt oh.2.eventManager oh.1.eventManager (Ld.objAs .zCEventManager)
  let sleepMode ← Ld.opt c.save oh.1.sleepMode Ld.byte
  let nextOnTimer ← Ld.opt c.save oh.1.nextOnTimer Ld.float
  let rigidBody ← Ld.opt (c.save && oh.1.physics) oh.1.rigidBody (do return some (← RigidBody.load))
  return { oh.1 with
    visual := some (VObj.visualOf env oh.1.visualName visual)
    ai, eventManager, sleepMode, nextOnTimer, rigidBody }

/-- `VisualDecal` (`include/zenkit/vobs/VirtualObject.hh`), with the members of `Visual`. -/
structure VDecal where
  type : BitVec 8 := visUnknown
  name : Bytes := []
  dimension : Vec2 := Vec2.zero
  offset : Vec2 := Vec2.zero
  twoSided : Bool := false
  alphaFunc : BitVec 32 := 0
  texAnimFps : F32 := 0
  alphaWeight : BitVec 8 := 0
  ignoreDaylight : Bool := false
  deriving DecidableEq, Repr

/-- `VisualDecal::load` (`src/vobs/VirtualObject.cc:31-43`). -/
def VDecal.load {P} (c : Ctx) (o : VDecal) : Ld P VDecal := do
  let name ← Ld.str
  let dimension ← Ld.vec2
  let offset ← Ld.vec2
  let twoSided ← Ld.bool
  let alphaFunc ← Ld.enum
  let texAnimFps ← Ld.float
  let alphaWeight ← Ld.opt c.g2 o.alphaWeight Ld.byte
  let ignoreDaylight ← Ld.opt c.g2 o.ignoreDaylight Ld.bool
  return { o with name, dimension, offset, twoSided, alphaFunc, texAnimFps, alphaWeight, ignoreDaylight }

/-- `VisualDecal::save` (`src/vobs/VirtualObject.cc:45-59`). -/
def VDecal.save (c : Ctx) (x : VDecal) : List Field :=
  [fStr b!"name" x.name, fVec2 b!"decalDim" x.dimension, fVec2 b!"decalOffset" x.offset, fBool b!"decal2Sided" x.twoSided,
   fEnum b!"decalAlphaFunc" x.alphaFunc, fFloat b!"decalTexAniFPS" x.texAnimFps] ++
  fIf c.g2 [fByte b!"decalAlphaWeight" x.alphaWeight, fBool b!"ignoreDayLight" x.ignoreDaylight]

/-- `EventManager` (`include/zenkit/vobs/VirtualObject.hh`). Pointers of type `weak_ptr` are modelled like others: what they
denote is alive as long as the archive is. -/
structure EventManager (P : Type) where
  cleared : Bool := false
  active : Bool := false
  cutscene : Option P := none
  deriving DecidableEq, Repr

/-- `EventManager::load` (`src/vobs/VirtualObject.cc:342-346`). -/
def EventManager.load {P} (_ : EventManager P) : Ld P (EventManager P) := do
  let cleared ← Ld.bool
  let active ← Ld.bool
  let cutscene ← Ld.objAs .zCCSCutsceneContext
  return { cleared, active, cutscene }

/-- `EventManager::save` (`src/vobs/VirtualObject.cc:348-352`). -/
def EventManager.save (x : EventManager Nat) : List Field :=
  [fBool b!"cleared" x.cleared, fBool b!"active" x.active, fObj b!"emCutscene" x.cutscene]

/-- `AiHuman` (`include/zenkit/vobs/VirtualObject.hh`). -/
structure AiHuman (P : Type) where
  waterLevel : BitVec 32 := 0
  floorY : F32 := 0
  waterY : F32 := 0
  ceilY : F32 := 0
  feetY : F32 := 0
  headY : F32 := 0
  fallDistY : F32 := 0
  fallStartY : F32 := 0
  npc : Option P := none
  walkMode : BitVec 32 := 0
  weaponMode : BitVec 32 := 0
  wmodeLast : BitVec 32 := 0
  wmodeSelect : BitVec 32 := 0
  changeWeapon : Bool := false
  actionMode : BitVec 32 := 0
  deriving DecidableEq, Repr

/-- `AiHuman::load` (`src/vobs/VirtualObject.cc:354-372`). -/
def AiHuman.load {P} (_ : AiHuman P) : Ld P (AiHuman P) := do
  let waterLevel ← Ld.int
  let floorY ← Ld.float
  let waterY ← Ld.float
  let ceilY ← Ld.float
  let feetY ← Ld.float
  let headY ← Ld.float
  let fallDistY ← Ld.float
  let fallStartY ← Ld.float
  let npc ← Ld.objAs .oCNpc
  let walkMode ← Ld.int
  let weaponMode ← Ld.int
  let wmodeLast ← Ld.int
  let wmodeSelect ← Ld.int
  let changeWeapon ← Ld.bool
  let actionMode ← Ld.int
  return { waterLevel, floorY, waterY, ceilY, feetY, headY, fallDistY, fallStartY, npc, walkMode, weaponMode, wmodeLast, wmodeSelect,
           changeWeapon, actionMode }

/-- `AiHuman::save` (`src/vobs/VirtualObject.cc:374-392`). -/
def AiHuman.save (x : AiHuman Nat) : List Field :=
  [fInt b!"waterLevel" x.waterLevel, fFloat b!"floorY" x.floorY, fFloat b!"waterY" x.waterY, fFloat b!"ceilY" x.ceilY,
   fFloat b!"feetY" x.feetY, fFloat b!"headY" x.headY, fFloat b!"fallDistY" x.fallDistY, fFloat b!"fallStartY" x.fallStartY,
   fObj b!"aiNpc" x.npc, fInt b!"walkMode" x.walkMode, fInt b!"weaponMode" x.weaponMode, fInt b!"wmodeLast" x.wmodeLast,
   fInt b!"wmodeSelect" x.wmodeSelect, fBool b!"changeWeapon" x.changeWeapon, fInt b!"actionMode" x.actionMode]

/-- `AiMove` (`include/zenkit/vobs/VirtualObject.hh`). -/
structure AiMove (P : Type) where
  vob : Option P := none
  owner : Option P := none
  deriving DecidableEq, Repr

/-- `AiMove::load` (`src/vobs/VirtualObject.cc:394-399`). The pointer `vob` is converted without a check. -/
def AiMove.load {P} (_ : AiMove P) : Ld P (AiMove P) := do
  let vob ← Ld.obj
  let owner ← Ld.objAs .oCNpc
  return { vob, owner }

/-- `AiMove::save` (`src/vobs/VirtualObject.cc:401-406`). -/
def AiMove.save (x : AiMove Nat) : List Field := [fObj b!"vob" x.vob, fObj b!"owner" x.owner]

end Verif.Obj
