import Verif.Model.ObjVob

/-!
# Items, movable objects, zones, sounds and similar: `src/vobs/Misc.cc`, `MovableObject.cc`, `Zone.cc`, `Sound.cc`

The member `base` of a structure has the members of the base class. Classes that add nothing to their base and do not override
`load` and `save` are not mentioned.
-/

namespace Verif.Obj

open Verif.Ar

/-- `VAnimate` (`include/zenkit/vobs/Misc.hh`). -/
structure VAnimate (P : Type) where
  base : VObj P := {}
  startOn : Bool := false
  isRunning : Bool := false
  deriving DecidableEq, Repr

/-- `VAnimate::load` (`src/vobs/Misc.cc:15-24`). -/
def VAnimate.load {P} (c : Ctx) (env : Env P) (o : VAnimate P) : Ld P (VAnimate P) := do
  let base ← VObj.load c env o.base
  let startOn ← Ld.bool
  let isRunning ← Ld.opt c.save startOn Ld.bool
  return { base, startOn, isRunning }

/-- `VAnimate::save` (`src/vobs/Misc.cc:26-33`). -/
def VAnimate.save (c : Ctx) (x : VAnimate Nat) : List Field :=
  x.base.save c ++
  [fBool b!"startOn" x.startOn] ++
  fIf c.save [fBool b!"isRunning" x.isRunning]

/-- `VItem` (`include/zenkit/vobs/Misc.hh`). -/
structure VItem (P : Type) where
  base : VObj P := {}
  instance_ : Bytes := []
  amount : BitVec 32 := 0
  flags : BitVec 32 := 0
  deriving DecidableEq, Repr

/-- `VItem::load` (`src/vobs/Misc.cc:39-48`). -/
def VItem.load {P} (c : Ctx) (env : Env P) (o : VItem P) : Ld P (VItem P) := do
  let base ← VObj.load c env o.base
  let instance_ ← Ld.str
  let amount ← Ld.opt c.save o.amount Ld.int
  let flags ← Ld.opt c.save o.flags Ld.int
  return { base, instance_, amount, flags }

/-- `VItem::save` (`src/vobs/Misc.cc:50-58`). -/
def VItem.save (c : Ctx) (x : VItem Nat) : List Field :=
  x.base.save c ++
  [fStr b!"itemInstance" x.instance_] ++
  fIf c.save [fInt b!"amount" x.amount, fInt b!"flags" x.flags]

/-- `VLensFlare` (`include/zenkit/vobs/Misc.hh`). -/
structure VLensFlare (P : Type) where
  base : VObj P := {}
  fx : Bytes := []
  deriving DecidableEq, Repr

/-- `VLensFlare::load` (`src/vobs/Misc.cc:68-71`). -/
def VLensFlare.load {P} (c : Ctx) (env : Env P) (o : VLensFlare P) : Ld P (VLensFlare P) := do
  let base ← VObj.load c env o.base
  let fx ← Ld.str
  return { base, fx }

/-- `VLensFlare::save` (`src/vobs/Misc.cc:73-76`). -/
def VLensFlare.save (c : Ctx) (x : VLensFlare Nat) : List Field :=
  x.base.save c ++
  [fStr b!"lensflareFX" x.fx]

/-- `VParticleEffectController` (`include/zenkit/vobs/Misc.hh`). -/
structure VPfxController (P : Type) where
  base : VObj P := {}
  pfxName : Bytes := []
  killWhenDone : Bool := false
  initiallyRunning : Bool := false
  deriving DecidableEq, Repr

/-- `VParticleEffectController::load` (`src/vobs/Misc.cc:86-91`). -/
def VPfxController.load {P} (c : Ctx) (env : Env P) (o : VPfxController P) : Ld P (VPfxController P) := do
  let base ← VObj.load c env o.base
  let pfxName ← Ld.str
  let killWhenDone ← Ld.bool
  let initiallyRunning ← Ld.bool
  return { base, pfxName, killWhenDone, initiallyRunning }

/-- `VParticleEffectController::save` (`src/vobs/Misc.cc:93-98`). -/
def VPfxController.save (c : Ctx) (x : VPfxController Nat) : List Field :=
  x.base.save c ++
  [fStr b!"pfxName" x.pfxName, fBool b!"killVobWhenDone" x.killWhenDone, fBool b!"pfxStartOn" x.initiallyRunning]

/-- `VMessageFilter` (`include/zenkit/vobs/Misc.hh`). -/
structure VMessageFilter (P : Type) where
  base : VObj P := {}
  target : Bytes := []
  onTrigger : BitVec 32 := 0
  onUntrigger : BitVec 32 := 0
  deriving DecidableEq, Repr

/-- `VMessageFilter::load` (`src/vobs/Misc.cc:104-109`). -/
def VMessageFilter.load {P} (c : Ctx) (env : Env P) (o : VMessageFilter P) : Ld P (VMessageFilter P) := do
  let base ← VObj.load c env o.base
  let target ← Ld.str
  let onTrigger ← Ld.enum
  let onUntrigger ← Ld.enum
  return { base, target, onTrigger, onUntrigger }

/-- `VMessageFilter::save` (`src/vobs/Misc.cc:111-116`). -/
def VMessageFilter.save (c : Ctx) (x : VMessageFilter Nat) : List Field :=
  x.base.save c ++
  [fStr b!"triggerTarget" x.target, fEnum b!"onTrigger" x.onTrigger, fEnum b!"onUntrigger" x.onUntrigger]

/-- `VMoverController` (`include/zenkit/vobs/Misc.hh`). -/
structure VMoverController (P : Type) where
  base : VObj P := {}
  target : Bytes := []
  message : BitVec 32 := 0
  key : BitVec 32 := 0
  deriving DecidableEq, Repr

/-- `VMoverController::load` (`src/vobs/Misc.cc:176-181`). -/
def VMoverController.load {P} (c : Ctx) (env : Env P) (o : VMoverController P) : Ld P (VMoverController P) := do
  let base ← VObj.load c env o.base
  let target ← Ld.str
  let message ← Ld.enum
  let key ← Ld.int
  return { base, target, message, key }

/-- `VMoverController::save` (`src/vobs/Misc.cc:183-188`). -/
def VMoverController.save (c : Ctx) (x : VMoverController Nat) : List Field :=
  x.base.save c ++
  [fStr b!"triggerTarget" x.target, fEnum b!"moverMessage" x.message, fInt b!"gotoFixedKey" x.key]

/-- `VTouchDamage` (`include/zenkit/vobs/Misc.hh`). -/
structure VTouchDamage (P : Type) where
  base : VObj P := {}
  damage : F32 := 0
  barrier : Bool := false
  blunt : Bool := false
  edge : Bool := false
  fire : Bool := false
  fly : Bool := false
  magic : Bool := false
  point : Bool := false
  fall : Bool := false
  repeatDelaySec : F32 := 0
  volumeScale : F32 := 0
  collision : BitVec 32 := 0
  deriving DecidableEq, Repr

/-- `VTouchDamage::load` (`src/vobs/Misc.cc:198-212`). -/
def VTouchDamage.load {P} (c : Ctx) (env : Env P) (o : VTouchDamage P) : Ld P (VTouchDamage P) := do
  let base ← VObj.load c env o.base
  let damage ← Ld.float
  let barrier ← Ld.bool
  let blunt ← Ld.bool
  let edge ← Ld.bool
  let fire ← Ld.bool
  let fly ← Ld.bool
  let magic ← Ld.bool
  let point ← Ld.bool
  let fall ← Ld.bool
  let repeatDelaySec ← Ld.float
  let volumeScale ← Ld.float
  let collision ← Ld.enum
  return { base, damage, barrier, blunt, edge, fire, fly, magic, point, fall, repeatDelaySec, volumeScale, collision }

/-- `VTouchDamage::save` (`src/vobs/Misc.cc:214-228`). -/
def VTouchDamage.save (c : Ctx) (x : VTouchDamage Nat) : List Field :=
  x.base.save c ++
  [fFloat b!"damage" x.damage, fBool b!"Barrier" x.barrier, fBool b!"Blunt" x.blunt, fBool b!"Edge" x.edge, fBool b!"Fire"
   x.fire, fBool b!"Fly" x.fly, fBool b!"Magic" x.magic, fBool b!"Point" x.point, fBool b!"Fall" x.fall, fFloat
   b!"damageRepeatDelaySec" x.repeatDelaySec, fFloat b!"damageVolDownScale" x.volumeScale, fEnum b!"damageCollType" x.collision]

/-- `VEarthquake` (`include/zenkit/vobs/Misc.hh`). -/
structure VEarthquake (P : Type) where
  base : VObj P := {}
  radius : F32 := 0
  duration : F32 := 0
  amplitude : Vec3 := Vec3.zero
  deriving DecidableEq, Repr

/-- `VEarthquake::load` (`src/vobs/Misc.cc:238-243`). -/
def VEarthquake.load {P} (c : Ctx) (env : Env P) (o : VEarthquake P) : Ld P (VEarthquake P) := do
  let base ← VObj.load c env o.base
  let radius ← Ld.float
  let duration ← Ld.float
  let amplitude ← Ld.vec3
  return { base, radius, duration, amplitude }

/-- `VEarthquake::save` (`src/vobs/Misc.cc:245-250`). -/
def VEarthquake.save (c : Ctx) (x : VEarthquake Nat) : List Field :=
  x.base.save c ++
  [fFloat b!"radius" x.radius, fFloat b!"timeSec" x.duration, fVec3 b!"amplitudeCM" x.amplitude]

/-- `VNpc::Talent` (`include/zenkit/vobs/Misc.hh`). -/
structure Talent where
  talent : BitVec 32 := 0
  value : BitVec 32 := 0
  skill : BitVec 32 := 0
  deriving DecidableEq, Repr

/-- `VNpc::Talent::load` (`src/vobs/Misc.cc:256-260`). -/
def Talent.load {P} (_ : Ctx) (_ : Env P) (_ : Talent) : Ld P Talent := do
  let talent ← Ld.int
  let value ← Ld.int
  let skill ← Ld.int
  return { talent, value, skill }

/-- `VNpc::Talent::save` (`src/vobs/Misc.cc:262-266`). -/
def Talent.save (_ : Ctx) (x : Talent) : List Field :=
  [fInt b!"talent" x.talent, fInt b!"value" x.value, fInt b!"skill" x.skill]

/-- `VMovableObject` (`include/zenkit/vobs/MovableObject.hh`). -/
structure VMovable (P : Type) where
  base : VObj P := {}
  name : Bytes := []
  hp : BitVec 32 := 0
  damage : BitVec 32 := 0
  movable : Bool := false
  takable : Bool := false
  focusOverride : Bool := false
  material : BitVec 32 := 0
  visualDestroyed : Bytes := []
  owner : Bytes := []
  ownerGuild : Bytes := []
  destroyed : Bool := false
  deriving DecidableEq, Repr

/-- `VMovableObject::load` (`src/vobs/MovableObject.cc:11-24`). -/
def VMovable.load {P} (c : Ctx) (env : Env P) (o : VMovable P) : Ld P (VMovable P) := do
  let base ← VObj.load c env o.base
  let name ← Ld.str
  let hp ← Ld.int
  let damage ← Ld.int
  let movable ← Ld.bool
  let takable ← Ld.bool
  let focusOverride ← Ld.bool
  let material ← Ld.enum
  let visualDestroyed ← Ld.str
  let owner ← Ld.str
  let ownerGuild ← Ld.str
  let destroyed ← Ld.bool
  return { base, name, hp, damage, movable, takable, focusOverride, material, visualDestroyed, owner, ownerGuild, destroyed }

/-- `VMovableObject::save` (`src/vobs/MovableObject.cc:26-39`). -/
def VMovable.save (c : Ctx) (x : VMovable Nat) : List Field :=
  x.base.save c ++
  [fStr b!"focusName" x.name, fInt b!"hitpoints" x.hp, fInt b!"damage" x.damage, fBool b!"moveable" x.movable, fBool
   b!"takeable" x.takable, fBool b!"focusOverride" x.focusOverride, fEnum b!"soundMaterial" x.material, fStr b!"visualDestroyed"
   x.visualDestroyed, fStr b!"owner" x.owner, fStr b!"ownerGuild" x.ownerGuild, fBool b!"isDestroyed" x.destroyed]

/-- `VInteractiveObject` (`include/zenkit/vobs/MovableObject.hh`). -/
structure VInteractive (P : Type) where
  base : VMovable P := {}
  stateCount : BitVec 32 := 0
  target : Bytes := []
  item : Bytes := []
  conditionFunction : Bytes := []
  onStateChangeFunction : Bytes := []
  rewind : Bool := false
  deriving DecidableEq, Repr

/-- `VInteractiveObject::load` (`src/vobs/MovableObject.cc:49-57`). Beds, ladders, switches and wheels add nothing to it. -/
def VInteractive.load {P} (c : Ctx) (env : Env P) (o : VInteractive P) : Ld P (VInteractive P) := do
  let base ← VMovable.load c env o.base
  let stateCount ← Ld.int
  let target ← Ld.str
  let item ← Ld.str
  let conditionFunction ← Ld.str
  let onStateChangeFunction ← Ld.str
  let rewind ← Ld.bool
  return { base, stateCount, target, item, conditionFunction, onStateChangeFunction, rewind }

/-- `VInteractiveObject::save` (`src/vobs/MovableObject.cc:59-67`). -/
def VInteractive.save (c : Ctx) (x : VInteractive Nat) : List Field :=
  x.base.save c ++
  [fInt b!"stateNum" x.stateCount, fStr b!"triggerTarget" x.target, fStr b!"useWithItem" x.item, fStr b!"conditionFunc"
   x.conditionFunction, fStr b!"onStateFunc" x.onStateChangeFunction, fBool b!"rewind" x.rewind]

/-- `VDoor` (`include/zenkit/vobs/MovableObject.hh`). -/
structure VDoor (P : Type) where
  base : VInteractive P := {}
  locked : Bool := false
  key : Bytes := []
  pickString : Bytes := []
  deriving DecidableEq, Repr

/-- `VDoor::load` (`src/vobs/MovableObject.cc:120-125`). -/
def VDoor.load {P} (c : Ctx) (env : Env P) (o : VDoor P) : Ld P (VDoor P) := do
  let base ← VInteractive.load c env o.base
  let locked ← Ld.bool
  let key ← Ld.str
  let pickString ← Ld.str
  return { base, locked, key, pickString }

/-- `VDoor::save` (`src/vobs/MovableObject.cc:127-132`). -/
def VDoor.save (c : Ctx) (x : VDoor Nat) : List Field :=
  x.base.save c ++
  [fBool b!"locked" x.locked, fStr b!"keyInstance" x.key, fStr b!"pickLockStr" x.pickString]

/-- `VFire` (`include/zenkit/vobs/MovableObject.hh`). -/
structure VFire (P : Type) where
  base : VInteractive P := {}
  slot : Bytes := []
  vobTree : Bytes := []
  deriving DecidableEq, Repr

/-- `VFire::load` (`src/vobs/MovableObject.cc:146-150`). -/
def VFire.load {P} (c : Ctx) (env : Env P) (o : VFire P) : Ld P (VFire P) := do
  let base ← VInteractive.load c env o.base
  let slot ← Ld.str
  let vobTree ← Ld.str
  return { base, slot, vobTree }

/-- `VFire::save` (`src/vobs/MovableObject.cc:152-156`). -/
def VFire.save (c : Ctx) (x : VFire Nat) : List Field :=
  x.base.save c ++
  [fStr b!"fireSlot" x.slot, fStr b!"fireVobtreeName" x.vobTree]

/-- `VZoneMusic` (`include/zenkit/vobs/Zone.hh`). -/
structure VZoneMusic (P : Type) where
  base : VObj P := {}
  enabled : Bool := false
  priority : BitVec 32 := 0
  ellipsoid : Bool := false
  reverb : F32 := 0
  volume : F32 := 0
  loop : Bool := false
  localEnabled : Bool := true
  dayEntranceDone : Bool := false
  nightEntranceDone : Bool := false
  deriving DecidableEq, Repr

/-- `VZoneMusic::load` (`src/vobs/Zone.cc:11-26`). -/
def VZoneMusic.load {P} (c : Ctx) (env : Env P) (o : VZoneMusic P) : Ld P (VZoneMusic P) := do
  let base ← VObj.load c env o.base
  let enabled ← Ld.bool
  let priority ← Ld.int
  let ellipsoid ← Ld.bool
  let reverb ← Ld.float
  let volume ← Ld.float
  let loop ← Ld.bool
  let localEnabled ← Ld.opt c.save o.localEnabled Ld.bool
  let dayEntranceDone ← Ld.opt c.save o.dayEntranceDone Ld.bool
  let nightEntranceDone ← Ld.opt c.save o.nightEntranceDone Ld.bool
  return { base, enabled, priority, ellipsoid, reverb, volume, loop, localEnabled, dayEntranceDone, nightEntranceDone }

/-- `VZoneMusic::save` (`src/vobs/Zone.cc:28-43`). -/
def VZoneMusic.save (c : Ctx) (x : VZoneMusic Nat) : List Field :=
  x.base.save c ++
  [fBool b!"enabled" x.enabled, fInt b!"priority" x.priority, fBool b!"ellipsoid" x.ellipsoid, fFloat b!"reverbLevel" x.reverb,
   fFloat b!"volumeLevel" x.volume, fBool b!"loop" x.loop] ++
  fIf c.save [fBool b!"local_enabled" x.localEnabled, fBool b!"dayEntranceDone" x.dayEntranceDone, fBool b!"nightEntranceDone"
       x.nightEntranceDone]

/-- `VZoneFarPlane` (`include/zenkit/vobs/Zone.hh`). -/
structure VZoneFarPlane (P : Type) where
  base : VObj P := {}
  farPlaneZ : F32 := 0
  innerRange : F32 := 0
  deriving DecidableEq, Repr

/-- `VZoneFarPlane::load` (`src/vobs/Zone.cc:53-57`). -/
def VZoneFarPlane.load {P} (c : Ctx) (env : Env P) (o : VZoneFarPlane P) : Ld P (VZoneFarPlane P) := do
  let base ← VObj.load c env o.base
  let farPlaneZ ← Ld.float
  let innerRange ← Ld.float
  return { base, farPlaneZ, innerRange }

/-- `VZoneFarPlane::save` (`src/vobs/Zone.cc:59-63`). -/
def VZoneFarPlane.save (c : Ctx) (x : VZoneFarPlane Nat) : List Field :=
  x.base.save c ++
  [fFloat b!"vobFarPlaneZ" x.farPlaneZ, fFloat b!"innerRangePerc" x.innerRange]

/-- `VZoneFog` (`include/zenkit/vobs/Zone.hh`). -/
structure VZoneFog (P : Type) where
  base : VObj P := {}
  rangeCenter : F32 := 0
  innerRange : F32 := 0
  color : Color := ⟨0, 0, 0, 0⟩
  fadeOutSky : Bool := false
  overrideColor : Bool := false
  deriving DecidableEq, Repr

/-- `VZoneFog::load` (`src/vobs/Zone.cc:69-79`). -/
def VZoneFog.load {P} (c : Ctx) (env : Env P) (o : VZoneFog P) : Ld P (VZoneFog P) := do
  let base ← VObj.load c env o.base
  let rangeCenter ← Ld.float
  let innerRange ← Ld.float
  let color ← Ld.color
  let fadeOutSky ← Ld.opt c.g2 o.fadeOutSky Ld.bool
  let overrideColor ← Ld.opt c.g2 o.overrideColor Ld.bool
  return { base, rangeCenter, innerRange, color, fadeOutSky, overrideColor }

/-- `VZoneFog::save` (`src/vobs/Zone.cc:81-91`). -/
def VZoneFog.save (c : Ctx) (x : VZoneFog Nat) : List Field :=
  x.base.save c ++
  [fFloat b!"fogRangeCenter" x.rangeCenter, fFloat b!"innerRangePerc" x.innerRange, fColor b!"fogColor" x.color] ++
  fIf c.g2 [fBool b!"fadeOutSky" x.fadeOutSky, fBool b!"overrideColor" x.overrideColor]

/-- `VSound` (`include/zenkit/vobs/Sound.hh`). -/
structure VSound (P : Type) where
  base : VObj P := {}
  volume : F32 := 0
  mode : BitVec 32 := 1
  randomDelay : F32 := 0
  randomDelayVar : F32 := 0
  initiallyPlaying : Bool := false
  ambient3d : Bool := false
  obstruction : Bool := true
  coneAngle : F32 := 0
  volumeType : BitVec 32 := 0
  radius : F32 := 0
  soundName : Bytes := []
  isRunning : Bool := false
  isAllowedToRun : Bool := false
  deriving DecidableEq, Repr

/-- `VSound::load` (`src/vobs/Sound.cc:11-30`). -/
def VSound.load {P} (c : Ctx) (env : Env P) (o : VSound P) : Ld P (VSound P) := do
  let base ← VObj.load c env o.base
  let volume ← Ld.float
  let mode ← Ld.enum
  let randomDelay ← Ld.float
  let randomDelayVar ← Ld.float
  let initiallyPlaying ← Ld.bool
  let ambient3d ← Ld.bool
  let obstruction ← Ld.bool
  let coneAngle ← Ld.float
  let volumeType ← Ld.enum
  let radius ← Ld.float
  let soundName ← Ld.str
  let isRunning ← Ld.opt c.save o.isRunning Ld.bool
  let isAllowedToRun ← Ld.opt c.save o.isAllowedToRun Ld.bool
  return { base, volume, mode, randomDelay, randomDelayVar, initiallyPlaying, ambient3d, obstruction, coneAngle, volumeType,
           radius, soundName, isRunning, isAllowedToRun }

/-- `VSound::save` (`src/vobs/Sound.cc:32-51`). -/
def VSound.save (c : Ctx) (x : VSound Nat) : List Field :=
  x.base.save c ++
  [fFloat b!"sndVolume" x.volume, fEnum b!"sndVolume" x.mode, fFloat b!"sndVolume" x.randomDelay, fFloat b!"sndVolume"
   x.randomDelayVar, fBool b!"sndVolume" x.initiallyPlaying, fBool b!"sndVolume" x.ambient3d, fBool b!"sndVolume" x.obstruction,
   fFloat b!"sndVolume" x.coneAngle, fEnum b!"sndVolume" x.volumeType, fFloat b!"sndVolume" x.radius, fStr b!"sndName"
   x.soundName] ++
  fIf c.save [fBool b!"soundIsRunning" x.isRunning, fBool b!"soundAllowedToRun" x.isAllowedToRun]

/-- `VSoundDaytime` (`include/zenkit/vobs/Sound.hh`). -/
structure VSoundDaytime (P : Type) where
  base : VSound P := {}
  startTime : F32 := 0
  endTime : F32 := 0
  soundName2 : Bytes := []
  deriving DecidableEq, Repr

/-- `VSoundDaytime::load` (`src/vobs/Sound.cc:61-66`). -/
def VSoundDaytime.load {P} (c : Ctx) (env : Env P) (o : VSoundDaytime P) : Ld P (VSoundDaytime P) := do
  let base ← VSound.load c env o.base
  let startTime ← Ld.float
  let endTime ← Ld.float
  let soundName2 ← Ld.str
  return { base, startTime, endTime, soundName2 }

/-- `VSoundDaytime::save` (`src/vobs/Sound.cc:68-73`). -/
def VSoundDaytime.save (c : Ctx) (x : VSoundDaytime Nat) : List Field :=
  x.base.save c ++
  [fFloat b!"sndStartTime" x.startTime, fFloat b!"sndEndTime" x.endTime, fStr b!"sndName2" x.soundName2]

/-- Entries whose name ends with their number. -/
def numbered {α} (f : Bytes → α → Field) (pre : Bytes) (l : List α) : List Field := l.zipIdx.map fun p => f (pre ++ dec p.2) p.1

/-- `VCodeMaster` (`include/zenkit/vobs/Misc.hh`). -/
structure VCodeMaster (P : Type) where
  base : VObj P := {}
  target : Bytes := []
  ordered : Bool := false
  firstFalseIsFailure : Bool := false
  failureTarget : Bytes := []
  untriggeredCancels : Bool := false
  slaves : List Bytes := []
  numTriggeredSlaves : BitVec 8 := 0
  deriving DecidableEq, Repr

/-- `VCodeMaster::load` (`src/vobs/Misc.cc:126-148`). -/
def VCodeMaster.load {P} (c : Ctx) (env : Env P) (o : VCodeMaster P) : Ld P (VCodeMaster P) := do
  let base ← VObj.load c env o.base
  let target ← Ld.str
  let ordered ← Ld.bool
  let firstFalseIsFailure ← Ld.bool
  let failureTarget ← Ld.str
  let untriggeredCancels ← Ld.bool
  let count ← Ld.byte
  let slaves ← Ld.times count.toNat Ld.str
  let numTriggeredSlaves ← Ld.opt (c.save && c.g2) o.numTriggeredSlaves Ld.byte
  let _ ← Ld.opt (c.save && c.g2) [] (Ld.times count.toNat Ld.skipNext)
  return { base, target, ordered, firstFalseIsFailure, failureTarget, untriggeredCancels, numTriggeredSlaves
           slaves := o.slaves ++ slaves }

/-- `VCodeMaster::save` (`src/vobs/Misc.cc:150-166`). -/
def VCodeMaster.save (c : Ctx) (x : VCodeMaster Nat) : List Field :=
  x.base.save c ++
  [fStr b!"triggerTarget" x.target, fBool b!"orderRelevant" x.ordered, fBool b!"firstFalseIsFailure" x.firstFalseIsFailure,
   fStr b!"triggerTargetFailure" x.failureTarget, fBool b!"untriggerCancels" x.untriggeredCancels,
   fByte b!"numSlaves" (BitVec.ofNat 8 x.slaves.length)] ++
  numbered fStr b!"slaveVobName" (x.slaves.take (x.slaves.length % 256))

/-- `VContainer` (`include/zenkit/vobs/MovableObject.hh`). -/
structure VContainer (P : Type) where
  base : VInteractive P := {}
  locked : Bool := false
  key : Bytes := []
  pickString : Bytes := []
  contents : Bytes := []
  items : List (Option P) := []
  deriving DecidableEq, Repr

/-- `VContainer::load` (`src/vobs/MovableObject.cc:77-93`). -/
def VContainer.load {P} (c : Ctx) (env : Env P) (o : VContainer P) : Ld P (VContainer P) := do
  let base ← VInteractive.load c env o.base
  let locked ← Ld.bool
  let key ← Ld.str
  let pickString ← Ld.str
  let contents ← Ld.str
  let count ← Ld.opt c.save 0 Ld.int
  let items ← Ld.opt c.save o.items (Ld.sized count (Ld.objAs .oCItem))
  return { base, locked, key, pickString, contents, items }

/-- `VContainer::save` (`src/vobs/MovableObject.cc:95-110`). -/
def VContainer.save (c : Ctx) (x : VContainer Nat) : List Field :=
  x.base.save c ++
  [fBool b!"locked" x.locked, fStr b!"keyInstance" x.key, fStr b!"pickLockStr" x.pickString, fStr b!"contains" x.contents] ++
  fIf c.save (fInt b!"NumOfEntries" (size32 x.items) :: x.items.map (fObj b!"%"))

/-- `VScreenEffect` (`include/zenkit/vobs/Misc.hh`). -/
structure VScreenEffect (P : Type) where
  base : VObj P := {}
  deriving DecidableEq, Repr

/-- `count * 4` (`src/vobs/Misc.cc:605, 619`). -/
def VScreenEffect.size (c : Ctx) : Nat := if c.g2 then 48 else 20

/-- `VScreenEffect::load` (`src/vobs/Misc.cc:601-612`). What is read is not used. -/
def VScreenEffect.load {P} (c : Ctx) (env : Env P) (o : VScreenEffect P) : Ld P (VScreenEffect P) := do
  let base ← VObj.load c env o.base
  let _ ← Ld.opt c.save () (Ld.raw (VScreenEffect.size c) (pure ()))
  let _ ← Ld.opt c.save () (Ld.raw (VScreenEffect.size c) (pure ()))
  let _ ← Ld.opt c.save () (Ld.raw (VScreenEffect.size c) (pure ()))
  let _ ← Ld.opt c.save Vec2.zero Ld.vec2
  let _ ← Ld.opt c.save Vec2.zero Ld.vec2
  return { base }

/-- `VScreenEffect::save` (`src/vobs/Misc.cc:614-627`). -/
def VScreenEffect.save (c : Ctx) (x : VScreenEffect Nat) : List Field :=
  let z := List.replicate (VScreenEffect.size c) (0 : Byte)
  x.base.save c ++
  fIf c.save [fRaw b!"blend" z, fRaw b!"cinema" z, fRaw b!"fovMorph" z, fVec2 b!"fovSaved" Vec2.zero, fVec2 b!"fovSaved1st" Vec2.zero]

end Verif.Obj
