import Verif.Model.ObjMisc

/-! # Cameras: `src/vobs/Camera.cc` -/

namespace Verif.Obj

open Verif.Ar

def Mat4.zero : Mat4 := ⟨⟨0, 0, 0, 0⟩, ⟨0, 0, 0, 0⟩, ⟨0, 0, 0, 0⟩, ⟨0, 0, 0, 0⟩⟩

/-- `VCameraTrajectoryFrame` (`include/zenkit/vobs/Camera.hh`). -/
structure VFrame (P : Type) where
  base : VObj P := {}
  time : F32 := 0
  rollAngle : F32 := 0
  fovScale : F32 := 0
  motionType : BitVec 32 := 0
  motionTypeFov : BitVec 32 := 0
  motionTypeRoll : BitVec 32 := 0
  motionTypeTimeScale : BitVec 32 := 0
  tension : F32 := 0
  camBias : F32 := 0
  continuity : F32 := 0
  timeScale : F32 := 0
  timeFixed : Bool := false
  originalPose : Mat4 := Mat4.zero
  deriving DecidableEq, Repr

/-- `VCameraTrajectoryFrame::load` (`src/vobs/Camera.cc:13-30`). -/
def VFrame.load {P} (c : Ctx) (env : Env P) (o : VFrame P) : Ld P (VFrame P) := do
  let base ← VObj.load c env o.base
  let time ← Ld.float
  let rollAngle ← Ld.float
  let fovScale ← Ld.float
  let motionType ← Ld.enum
  let motionTypeFov ← Ld.enum
  let motionTypeRoll ← Ld.enum
  let motionTypeTimeScale ← Ld.enum
  let tension ← Ld.float
  let camBias ← Ld.float
  let continuity ← Ld.float
  let timeScale ← Ld.float
  let timeFixed ← Ld.bool
  let originalPose ← Ld.raw 64 Rd.mat4
  return { base, time, rollAngle, fovScale, motionType, motionTypeFov, motionTypeRoll, motionTypeTimeScale, tension, camBias,
           continuity, timeScale, timeFixed, originalPose }

/-- `VCameraTrajectoryFrame::save` (`src/vobs/Camera.cc:32-50`). The matrix is written as it is in memory. -/
def VFrame.save (c : Ctx) (x : VFrame Nat) : List Field :=
  x.base.save c ++
  [fFloat b!"time" x.time, fFloat b!"angleRollDeg" x.rollAngle, fFloat b!"camFOVScale" x.fovScale,
   fEnum b!"motionType" x.motionType, fEnum b!"motionTypeFOV" x.motionTypeFov, fEnum b!"motionTypeRoll" x.motionTypeRoll,
   fEnum b!"motionTypeTimeScale" x.motionTypeTimeScale, fFloat b!"tension" x.tension, fFloat b!"bias" x.camBias,
   fFloat b!"continuity" x.continuity, fFloat b!"timeScale" x.timeScale, fBool b!"timeIsFixed" x.timeFixed,
   fRaw b!"originalPose" x.originalPose.mem]

/-- `VCutsceneCamera` (`include/zenkit/vobs/Camera.hh`). -/
structure VCamera (P : Type) where
  base : VObj P := {}
  trajectoryFor : BitVec 32 := 0
  targetTrajectoryFor : BitVec 32 := 0
  loopMode : BitVec 32 := 0
  lerpMode : BitVec 32 := 0
  ignoreForVobRotation : Bool := false
  ignoreForVobRotationTarget : Bool := false
  adapt : Bool := false
  easeFirst : Bool := false
  easeLast : Bool := false
  totalDuration : F32 := 0
  autoFocusVob : Bytes := []
  autoPlayerMovable : Bool := false
  autoUntriggerLast : Bool := false
  autoUntriggerLastDelay : F32 := 0
  positionCount : BitVec 32 := 0
  targetCount : BitVec 32 := 0
  trajectoryFrames : List (Option P) := []
  targetFrames : List (Option P) := []
  paused : Bool := false
  started : Bool := false
  gotoTimeMode : Bool := false
  csTime : F32 := 0
  deriving DecidableEq, Repr

/-- `VCutsceneCamera::load` (`src/vobs/Camera.cc:56-92`). -/
def VCamera.load {P} (c : Ctx) (env : Env P) (o : VCamera P) : Ld P (VCamera P) := do
  let base ← VObj.load c env o.base
  let trajectoryFor ← Ld.enum
  let targetTrajectoryFor ← Ld.enum
  let loopMode ← Ld.enum
  let lerpMode ← Ld.enum
  let ignoreForVobRotation ← Ld.bool
  let ignoreForVobRotationTarget ← Ld.bool
  let adapt ← Ld.bool
  let easeFirst ← Ld.bool
  let easeLast ← Ld.bool
  let totalDuration ← Ld.float
  let autoFocusVob ← Ld.str
  let autoPlayerMovable ← Ld.bool
  let autoUntriggerLast ← Ld.bool
  let autoUntriggerLastDelay ← Ld.float
  let positionCount ← Ld.int
  let targetCount ← Ld.int
  let trajectoryFrames ← Ld.times (Ld.rounds positionCount) (Ld.objAs .zCCamTrj_KeyFrame)
  let targetFrames ← Ld.times (Ld.rounds targetCount) (Ld.objAs .zCCamTrj_KeyFrame)
  let paused ← Ld.opt (c.save && c.g2) o.paused Ld.bool
  let started ← Ld.opt (c.save && c.g2) o.started Ld.bool
  let gotoTimeMode ← Ld.opt (c.save && c.g2) o.gotoTimeMode Ld.bool
  let csTime ← Ld.opt (c.save && c.g2) o.csTime Ld.float
  return {
    base, trajectoryFor, targetTrajectoryFor, loopMode, lerpMode, ignoreForVobRotation, ignoreForVobRotationTarget, adapt
    easeFirst, easeLast, totalDuration, autoFocusVob, autoPlayerMovable, autoUntriggerLast, autoUntriggerLastDelay
    positionCount, targetCount, paused, started, gotoTimeMode, csTime
    trajectoryFrames := o.trajectoryFrames ++ trajectoryFrames
    targetFrames := o.targetFrames ++ targetFrames }

/-- One of the loops (`src/vobs/Camera.cc:114-116, 118-120`): `operator[]` behind the end is undefined behaviour. -/
def VCamera.frames (n : BitVec 32) (l : List (Option Nat)) : Except Fail (List Field) :=
  if Ld.rounds n ≤ l.length then .ok ((l.take (Ld.rounds n)).map (fObj b!"%")) else .error .ub

/-- `VCutsceneCamera::save` (`src/vobs/Camera.cc:94-129`). -/
def VCamera.save (c : Ctx) (x : VCamera Nat) : Except Fail (List Field) := do
  let a ← VCamera.frames x.positionCount x.trajectoryFrames
  let b ← VCamera.frames x.targetCount x.targetFrames
  return x.base.save c ++
    [fEnum b!"camTrjFOR" x.trajectoryFor, fEnum b!"targetTrjFOR" x.targetTrajectoryFor, fEnum b!"loopMode" x.loopMode,
     fEnum b!"splLerpMode" x.lerpMode, fBool b!"ignoreFORVobRotCam" x.ignoreForVobRotation,
     fBool b!"ignoreFORVobRotTarget" x.ignoreForVobRotationTarget, fBool b!"adaptToSurroundings" x.adapt,
     fBool b!"easeToFirstKey" x.easeFirst, fBool b!"easeFromLastKey" x.easeLast, fFloat b!"totalTime" x.totalDuration,
     fStr b!"autoCamFocusVobName" x.autoFocusVob, fBool b!"autoCamPlayerMovable" x.autoPlayerMovable,
     fBool b!"autoCamUntriggerOnLastKey" x.autoUntriggerLast,
     fFloat b!"autoCamUntriggerOnLastKeyDelay" x.autoUntriggerLastDelay, fInt b!"numPos" x.positionCount,
     fInt b!"numTargets" x.targetCount] ++ a ++ b ++
    fIf (c.save && c.g2) [fBool b!"paused" x.paused, fBool b!"started" x.started, fBool b!"gotoTimeMode" x.gotoTimeMode,
      fFloat b!"csTime" x.csTime]

end Verif.Obj
