import Verif.Model.ObjMisc

/-! # Triggers: `src/vobs/Trigger.cc` -/

namespace Verif.Obj

open Verif.Ar

/-- `VTrigger` (`include/zenkit/vobs/Trigger.hh`). -/
structure VTrigger (P : Type) where
  base : VObj P := {}
  target : Bytes := []
  flags : BitVec 8 := 0
  startEnabled : Bool := false
  sendUntrigger : Bool := false
  filterFlags : BitVec 8 := 0
  reactToOnTrigger : Bool := false
  reactToOnTouch : Bool := false
  reactToOnDamage : Bool := false
  respondToObject : Bool := false
  respondToPc : Bool := false
  respondToNpc : Bool := false
  vobTarget : Bytes := []
  maxActivationCount : BitVec 32 := 0
  retriggerDelaySec : F32 := 0
  damageThreshold : F32 := 0
  fireDelaySec : F32 := 0
  nextTimeTriggerable : F32 := 0
  countCanBeActivated : BitVec 32 := 0
  otherVob : Option P := none
  isEnabled : Bool := true
  deriving DecidableEq, Repr

/-- `VTrigger::load` (`src/vobs/Trigger.cc:11-44`). -/
def VTrigger.load {P} (c : Ctx) (env : Env P) (o : VTrigger P) : Ld P (VTrigger P) := do
  let base ← VObj.load c env o.base
  let target ← Ld.str
  let flags ← Ld.raw 1 Rd.u8
  let filterFlags ← Ld.raw 1 Rd.u8
  let vobTarget ← Ld.str
  let maxActivationCount ← Ld.int
  let retriggerDelaySec ← Ld.float
  let damageThreshold ← Ld.float
  let fireDelaySec ← Ld.float
  let nextTimeTriggerable ← Ld.opt c.save o.nextTimeTriggerable Ld.float
  let otherVob ← Ld.opt c.save o.otherVob (Ld.objVob env)
  let countCanBeActivated ← Ld.opt c.save maxActivationCount Ld.int
  let isEnabled ← Ld.opt (c.save && c.g2) o.isEnabled Ld.bool
  return {
    base, target, flags, filterFlags, vobTarget, maxActivationCount, retriggerDelaySec, damageThreshold, fireDelaySec
    nextTimeTriggerable, otherVob, countCanBeActivated, isEnabled
    startEnabled := flags &&& 1 != 0
    sendUntrigger := (flags &&& 4) >>> 2 != 0
    reactToOnTrigger := filterFlags &&& 1 != 0
    reactToOnTouch := (filterFlags &&& 2) >>> 1 != 0
    reactToOnDamage := (filterFlags &&& 4) >>> 2 != 0
    respondToObject := (filterFlags &&& 8) >>> 3 != 0
    respondToPc := (filterFlags &&& 16) >>> 4 != 0
    respondToNpc := (filterFlags &&& 32) >>> 5 != 0 }

/-- `VTrigger::save` (`src/vobs/Trigger.cc:46-67`). -/
def VTrigger.save (c : Ctx) (x : VTrigger Nat) : List Field :=
  x.base.save c ++
  [fStr b!"triggerTarget" x.target, fRaw b!"flags" (encW 1 x.flags), fRaw b!"filterFlags" (encW 1 x.filterFlags),
   fStr b!"respondToVobName" x.vobTarget, fInt b!"numCanBeActivated" x.maxActivationCount,
   fFloat b!"retriggerWaitSec" x.retriggerDelaySec, fFloat b!"damageThreshold" x.damageThreshold,
   fFloat b!"fireDelaySec" x.fireDelaySec] ++
  fIf c.save ([fFloat b!"nextTimeTriggerable" x.nextTimeTriggerable, fObj b!"savedOtherVob" x.otherVob,
    fInt b!"countCanBeActivated" x.countCanBeActivated] ++ fIf c.g2 [fBool b!"isEnabled" x.isEnabled])

/-- `VTriggerScript` (`include/zenkit/vobs/Trigger.hh`). -/
structure VTriggerScript (P : Type) where
  base : VTrigger P := {}
  function : Bytes := []
  deriving DecidableEq, Repr

/-- `VTriggerScript::load` (`src/vobs/Trigger.cc:243-246`). -/
def VTriggerScript.load {P} (c : Ctx) (env : Env P) (o : VTriggerScript P) : Ld P (VTriggerScript P) := do
  let base ← VTrigger.load c env o.base
  let function ← Ld.str
  return { base, function }

/-- `VTriggerScript::save` (`src/vobs/Trigger.cc:248-251`). -/
def VTriggerScript.save (c : Ctx) (x : VTriggerScript Nat) : List Field :=
  x.base.save c ++
  [fStr b!"scriptFunc" x.function]

/-- `VTriggerChangeLevel` (`include/zenkit/vobs/Trigger.hh`). -/
structure VTriggerChangeLevel (P : Type) where
  base : VTrigger P := {}
  levelName : Bytes := []
  startVob : Bytes := []
  deriving DecidableEq, Repr

/-- `VTriggerChangeLevel::load` (`src/vobs/Trigger.cc:261-265`). -/
def VTriggerChangeLevel.load {P} (c : Ctx) (env : Env P) (o : VTriggerChangeLevel P) : Ld P (VTriggerChangeLevel P) := do
  let base ← VTrigger.load c env o.base
  let levelName ← Ld.str
  let startVob ← Ld.str
  return { base, levelName, startVob }

/-- `VTriggerChangeLevel::save` (`src/vobs/Trigger.cc:267-271`). -/
def VTriggerChangeLevel.save (c : Ctx) (x : VTriggerChangeLevel Nat) : List Field :=
  x.base.save c ++
  [fStr b!"levelName" x.levelName, fStr b!"startVobName" x.startVob]

/-- `VTriggerWorldStart` (`include/zenkit/vobs/Trigger.hh`). -/
structure VTriggerWorldStart (P : Type) where
  base : VObj P := {}
  target : Bytes := []
  fireOnce : Bool := false
  hasFired : Bool := false
  deriving DecidableEq, Repr

/-- `VTriggerWorldStart::load` (`src/vobs/Trigger.cc:281-290`). -/
def VTriggerWorldStart.load {P} (c : Ctx) (env : Env P) (o : VTriggerWorldStart P) : Ld P (VTriggerWorldStart P) := do
  let base ← VObj.load c env o.base
  let target ← Ld.str
  let fireOnce ← Ld.bool
  let hasFired ← Ld.opt (c.save && c.g2) o.hasFired Ld.bool
  return { base, target, fireOnce, hasFired }

/-- `VTriggerWorldStart::save` (`src/vobs/Trigger.cc:292-301`). -/
def VTriggerWorldStart.save (c : Ctx) (x : VTriggerWorldStart Nat) : List Field :=
  x.base.save c ++
  [fStr b!"triggerTarget" x.target, fBool b!"fireOnlyFirstTime" x.fireOnce] ++
  fIf (c.save && c.g2) [fBool b!"hasFired" x.hasFired]

/-- `VTriggerUntouch` (`include/zenkit/vobs/Trigger.hh`). -/
structure VTriggerUntouch (P : Type) where
  base : VObj P := {}
  target : Bytes := []
  deriving DecidableEq, Repr

/-- `VTriggerUntouch::load` (`src/vobs/Trigger.cc:311-314`). -/
def VTriggerUntouch.load {P} (c : Ctx) (env : Env P) (o : VTriggerUntouch P) : Ld P (VTriggerUntouch P) := do
  let base ← VObj.load c env o.base
  let target ← Ld.str
  return { base, target }

/-- `VTriggerUntouch::save` (`src/vobs/Trigger.cc:316-319`). -/
def VTriggerUntouch.save (c : Ctx) (x : VTriggerUntouch Nat) : List Field :=
  x.base.save c ++
  [fStr b!"triggerTarget" x.target]

/-- `VTriggerList` (`include/zenkit/vobs/Trigger.hh`). A target is its name and delay. -/
structure VTriggerList (P : Type) where
  base : VTrigger P := {}
  mode : BitVec 32 := 0
  targets : List (Bytes × F32) := []
  actTarget : BitVec 8 := 0
  sendOnTrigger : Bool := false
  deriving DecidableEq, Repr

/-- One round of the loop (`src/vobs/Trigger.cc:204-209`). -/
def VTriggerList.target {P} : Ld P (Bytes × F32) := do
  let n ← Ld.str
  let d ← Ld.float
  return (n, d)

/-- `VTriggerList::load` (`src/vobs/Trigger.cc:199-216`). -/
def VTriggerList.load {P} (c : Ctx) (env : Env P) (o : VTriggerList P) : Ld P (VTriggerList P) := do
  let base ← VTrigger.load c env o.base
  let mode ← Ld.enum
  let count ← Ld.byte
  let targets ← Ld.times count.toNat VTriggerList.target
  let actTarget ← Ld.opt c.save o.actTarget Ld.byte
  let sendOnTrigger ← Ld.opt c.save o.sendOnTrigger Ld.bool
  return { base, mode, actTarget, sendOnTrigger, targets := o.targets ++ targets }

/-- `VTriggerList::save` (`src/vobs/Trigger.cc:218-233`). -/
def VTriggerList.save (c : Ctx) (x : VTriggerList Nat) : List Field :=
  x.base.save c ++
  [fEnum b!"listProcess" x.mode, fByte b!"numTargets" (BitVec.ofNat 8 x.targets.length)] ++
  x.targets.zipIdx.flatMap (fun p => [fStr (b!"triggerTarget" ++ dec p.2) p.1.1, fFloat (b!"fireDelay" ++ dec p.2) p.1.2]) ++
  fIf c.save [fByte b!"actTarget" x.actTarget, fBool b!"sendOnTrigger" x.sendOnTrigger]

/-- `AnimationSample` (`include/zenkit/ModelAnimation.hh:21-26`), with the members of `Quat`. -/
structure Sample where
  pos : Vec3
  w : F32
  x : F32
  y : F32
  z : F32
  deriving DecidableEq, Repr

/-- `VMover` (`include/zenkit/vobs/Trigger.hh`). -/
structure VMover (P : Type) where
  base : VTrigger P := {}
  behavior : BitVec 32 := 0
  touchBlockerDamage : F32 := 0
  stayOpenTimeSec : F32 := 0
  locked : Bool := true
  autoLink : Bool := false
  autoRotate : Bool := false
  speed : F32 := 0
  lerpMode : BitVec 32 := 1
  speedMode : BitVec 32 := 0
  keyframes : List Sample := []
  sfxOpenStart : Bytes := []
  sfxOpenEnd : Bytes := []
  sfxTransitioning : Bytes := []
  sfxCloseStart : Bytes := []
  sfxCloseEnd : Bytes := []
  sfxLock : Bytes := []
  sfxUnlock : Bytes := []
  sfxUseLocked : Bytes := []
  actKeyPosDelta : Vec3 := Vec3.zero
  actKeyframeF : F32 := 0
  actKeyframe : BitVec 32 := 0
  nextKeyframe : BitVec 32 := 0
  moveSpeedUnit : F32 := 0
  advanceDir : F32 := 0
  moverState : BitVec 32 := 0
  triggerEventCount : BitVec 32 := 0
  stayOpenTimeDest : F32 := 0
  deriving DecidableEq, Repr

/-- One round of the loop (`src/vobs/Trigger.cc:100-109`). -/
def Sample.load : Rd Sample := do
  let pos ← Rd.vec3
  let x ← Rd.f32
  let y ← Rd.f32
  let z ← Rd.f32
  let w ← Rd.f32
  return { pos, w, x, y, z }

/-- One round of the loop (`src/vobs/Trigger.cc:157-163`). -/
def Sample.save (s : Sample) (w : Ws) : Ws :=
  let w := w.vec3 s.pos
  let w := w.f32 s.x
  let w := w.f32 s.y
  let w := w.f32 s.z
  w.f32 s.w

/-- `VMover::load` (`src/vobs/Trigger.cc:81-133`). -/
def VMover.load {P} (c : Ctx) (env : Env P) (o : VMover P) : Ld P (VMover P) := do
  let base ← VTrigger.load c env o.base
  let behavior ← Ld.enum
  let touchBlockerDamage ← Ld.float
  let stayOpenTimeSec ← Ld.float
  let locked ← Ld.bool
  let autoLink ← Ld.bool
  let autoRotate ← Ld.opt c.g2 o.autoRotate Ld.bool
  let count ← Ld.word
  let speed ← Ld.opt (count != 0) o.speed Ld.float
  let lerpMode ← Ld.opt (count != 0) o.lerpMode Ld.enum
  let speedMode ← Ld.opt (count != 0) o.speedMode Ld.enum
  let keyframes ← Ld.opt (count != 0) [] (Ld.raw (count.toNat * 28) (Rd.times Sample.load count.toNat))
  let actKeyPosDelta ← Ld.opt c.save o.actKeyPosDelta Ld.vec3
  let actKeyframeF ← Ld.opt c.save o.actKeyframeF Ld.float
  let actKeyframe ← Ld.opt c.save o.actKeyframe Ld.int
  let nextKeyframe ← Ld.opt c.save o.nextKeyframe Ld.int
  let moveSpeedUnit ← Ld.opt c.save o.moveSpeedUnit Ld.float
  let advanceDir ← Ld.opt c.save o.advanceDir Ld.float
  let moverState ← Ld.opt c.save o.moverState Ld.enum
  let triggerEventCount ← Ld.opt c.save o.triggerEventCount Ld.int
  let stayOpenTimeDest ← Ld.opt c.save o.stayOpenTimeDest Ld.float
  let sfxOpenStart ← Ld.str
  let sfxOpenEnd ← Ld.str
  let sfxTransitioning ← Ld.str
  let sfxCloseStart ← Ld.str
  let sfxCloseEnd ← Ld.str
  let sfxLock ← Ld.str
  let sfxUnlock ← Ld.str
  let sfxUseLocked ← Ld.str
  return {
    base, behavior, touchBlockerDamage, stayOpenTimeSec, locked, autoLink, autoRotate, speed, lerpMode, speedMode
    actKeyPosDelta, actKeyframeF, actKeyframe, nextKeyframe, moveSpeedUnit, advanceDir, moverState, triggerEventCount
    stayOpenTimeDest, sfxOpenStart, sfxOpenEnd, sfxTransitioning, sfxCloseStart, sfxCloseEnd, sfxLock, sfxUnlock
    sfxUseLocked
    keyframes := o.keyframes ++ keyframes }

/-- `VMover::save` (`src/vobs/Trigger.cc:135-189`). -/
def VMover.save (c : Ctx) (x : VMover Nat) : List Field :=
  x.base.save c ++
  [fEnum b!"moverBehavior" x.behavior, fFloat b!"autoLinkEnabled" x.touchBlockerDamage,
   fFloat b!"autoLinkEnabled" x.stayOpenTimeSec, fBool b!"autoLinkEnabled" x.locked, fBool b!"autoLinkEnabled" x.autoLink] ++
  fIf c.g2 [fBool b!"autoRotate" x.autoRotate] ++
  [fWord b!"numKeyframes" (BitVec.ofNat 16 x.keyframes.length)] ++
  fIf (!x.keyframes.isEmpty) [fFloat b!"moveSpeed" x.speed, fEnum b!"posLerpType" x.lerpMode, fEnum b!"speedType" x.speedMode,
    fRaw b!"keyframes" (x.keyframes.foldl (fun w s => s.save w) Ws.empty).data] ++
  fIf c.save [fVec3 b!"actKeyPosDelta" x.actKeyPosDelta, fFloat b!"actKeyframeF" x.actKeyframeF,
    fInt b!"actKeyframe" x.actKeyframe, fInt b!"nextKeyframe" x.nextKeyframe, fFloat b!"moveSpeedUnit" x.moveSpeedUnit,
    fFloat b!"advanceDir" x.advanceDir, fEnum b!"moverState" x.moverState, fInt b!"numTriggerEvents" x.triggerEventCount,
    fFloat b!"stayOpenTimeDest" x.stayOpenTimeDest] ++
  [fStr b!"sfxOpenStart" x.sfxOpenStart, fStr b!"sfxOpenEnd" x.sfxOpenEnd, fStr b!"sfxMoving" x.sfxTransitioning,
   fStr b!"sfxCloseStart" x.sfxCloseStart, fStr b!"sfxCloseEnd" x.sfxCloseEnd, fStr b!"sfxLock" x.sfxLock,
   fStr b!"sfxUnlock" x.sfxUnlock, fStr b!"sfxUseLocked" x.sfxUseLocked]

end Verif.Obj
