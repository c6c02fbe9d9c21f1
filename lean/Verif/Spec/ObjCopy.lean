import Verif.Spec.ObjVob
import Verif.Model.ObjTrigger
import Verif.Model.ObjNpc
import Verif.Model.ObjCamera
import Verif.Model.ObjGame

/-!
# What of an object is stored, class by class

`T.copy` is the object that `load` makes of `o` from what `save` has written for `x`, if the `VirtualObject` in it is read as `b`.
All members come from `x`, with pointers to the new addresses, except for members that are not stored under the given circumstances: they
come from `o`.
-/

namespace Verif.Obj

open Verif.Ar

/-- `VAnimate`. -/
def VAnimate.copy {P : Type} (c : Ctx) (_ : Env P) (_ : Nat → P) (b : VObj P) (x : VAnimate Nat) (_ : VAnimate P) : VAnimate
    P where
  base := b
  startOn := x.startOn
  isRunning := if c.save then x.isRunning else x.startOn

/-- `VItem`. -/
def VItem.copy {P : Type} (c : Ctx) (_ : Env P) (_ : Nat → P) (b : VObj P) (x : VItem Nat) (o : VItem P) : VItem P where
  base := b
  instance_ := x.instance_
  amount := if c.save then x.amount else o.amount
  flags := if c.save then x.flags else o.flags

/-- `VLensFlare`. -/
def VLensFlare.copy {P : Type} (_ : Ctx) (_ : Env P) (_ : Nat → P) (b : VObj P) (x : VLensFlare Nat) (_ : VLensFlare P) :
    VLensFlare P where
  base := b
  fx := x.fx

/-- `VParticleEffectController`. -/
def VPfxController.copy {P : Type} (_ : Ctx) (_ : Env P) (_ : Nat → P) (b : VObj P) (x : VPfxController Nat)
    (_ : VPfxController P) : VPfxController P where
  base := b
  pfxName := x.pfxName
  killWhenDone := x.killWhenDone
  initiallyRunning := x.initiallyRunning

/-- `VMessageFilter`. -/
def VMessageFilter.copy {P : Type} (_ : Ctx) (_ : Env P) (_ : Nat → P) (b : VObj P) (x : VMessageFilter Nat)
    (_ : VMessageFilter P) : VMessageFilter P where
  base := b
  target := x.target
  onTrigger := x.onTrigger
  onUntrigger := x.onUntrigger

/-- `VMoverController`. -/
def VMoverController.copy {P : Type} (_ : Ctx) (_ : Env P) (_ : Nat → P) (b : VObj P) (x : VMoverController Nat)
    (_ : VMoverController P) : VMoverController P where
  base := b
  target := x.target
  message := x.message
  key := x.key

/-- `VTouchDamage`. -/
def VTouchDamage.copy {P : Type} (_ : Ctx) (_ : Env P) (_ : Nat → P) (b : VObj P) (x : VTouchDamage Nat) (_ : VTouchDamage P) :
    VTouchDamage P where
  base := b
  damage := x.damage
  barrier := x.barrier
  blunt := x.blunt
  edge := x.edge
  fire := x.fire
  fly := x.fly
  magic := x.magic
  point := x.point
  fall := x.fall
  repeatDelaySec := x.repeatDelaySec
  volumeScale := x.volumeScale
  collision := x.collision

/-- `VEarthquake`. -/
def VEarthquake.copy {P : Type} (_ : Ctx) (_ : Env P) (_ : Nat → P) (b : VObj P) (x : VEarthquake Nat) (_ : VEarthquake P) :
    VEarthquake P where
  base := b
  radius := x.radius
  duration := x.duration
  amplitude := x.amplitude

/-- `VNpc::Talent`. -/
def Talent.copy {P : Type} (_ : Ctx) (_ : Env P) (_ : Nat → P) (x : Talent) (_ : Talent) : Talent where
  talent := x.talent
  value := x.value
  skill := x.skill

/-- `VMovableObject`. -/
def VMovable.copy {P : Type} (_ : Ctx) (_ : Env P) (_ : Nat → P) (b : VObj P) (x : VMovable Nat) (_ : VMovable P) : VMovable
    P where
  base := b
  name := x.name
  hp := x.hp
  damage := x.damage
  movable := x.movable
  takable := x.takable
  focusOverride := x.focusOverride
  material := x.material
  visualDestroyed := x.visualDestroyed
  owner := x.owner
  ownerGuild := x.ownerGuild
  destroyed := x.destroyed

/-- `VInteractiveObject`. -/
def VInteractive.copy {P : Type} (c : Ctx) (env : Env P) (φ : Nat → P) (b : VObj P) (x : VInteractive Nat) (o : VInteractive P)
    : VInteractive P where
  base := x.base.copy c env φ b o.base
  stateCount := x.stateCount
  target := x.target
  item := x.item
  conditionFunction := x.conditionFunction
  onStateChangeFunction := x.onStateChangeFunction
  rewind := x.rewind

/-- `VDoor`. -/
def VDoor.copy {P : Type} (c : Ctx) (env : Env P) (φ : Nat → P) (b : VObj P) (x : VDoor Nat) (o : VDoor P) : VDoor P where
  base := x.base.copy c env φ b o.base
  locked := x.locked
  key := x.key
  pickString := x.pickString

/-- `VFire`. -/
def VFire.copy {P : Type} (c : Ctx) (env : Env P) (φ : Nat → P) (b : VObj P) (x : VFire Nat) (o : VFire P) : VFire P where
  base := x.base.copy c env φ b o.base
  slot := x.slot
  vobTree := x.vobTree

/-- `VZoneMusic`. -/
def VZoneMusic.copy {P : Type} (c : Ctx) (_ : Env P) (_ : Nat → P) (b : VObj P) (x : VZoneMusic Nat) (o : VZoneMusic P) :
    VZoneMusic P where
  base := b
  enabled := x.enabled
  priority := x.priority
  ellipsoid := x.ellipsoid
  reverb := x.reverb
  volume := x.volume
  loop := x.loop
  localEnabled := if c.save then x.localEnabled else o.localEnabled
  dayEntranceDone := if c.save then x.dayEntranceDone else o.dayEntranceDone
  nightEntranceDone := if c.save then x.nightEntranceDone else o.nightEntranceDone

/-- `VZoneFarPlane`. -/
def VZoneFarPlane.copy {P : Type} (_ : Ctx) (_ : Env P) (_ : Nat → P) (b : VObj P) (x : VZoneFarPlane Nat) (_ : VZoneFarPlane P)
    : VZoneFarPlane P where
  base := b
  farPlaneZ := x.farPlaneZ
  innerRange := x.innerRange

/-- `VZoneFog`. -/
def VZoneFog.copy {P : Type} (c : Ctx) (_ : Env P) (_ : Nat → P) (b : VObj P) (x : VZoneFog Nat) (o : VZoneFog P) : VZoneFog
    P where
  base := b
  rangeCenter := x.rangeCenter
  innerRange := x.innerRange
  color := x.color
  fadeOutSky := if c.g2 then x.fadeOutSky else o.fadeOutSky
  overrideColor := if c.g2 then x.overrideColor else o.overrideColor

/-- `VSound`. -/
def VSound.copy {P : Type} (c : Ctx) (_ : Env P) (_ : Nat → P) (b : VObj P) (x : VSound Nat) (o : VSound P) : VSound P where
  base := b
  volume := x.volume
  mode := x.mode
  randomDelay := x.randomDelay
  randomDelayVar := x.randomDelayVar
  initiallyPlaying := x.initiallyPlaying
  ambient3d := x.ambient3d
  obstruction := x.obstruction
  coneAngle := x.coneAngle
  volumeType := x.volumeType
  radius := x.radius
  soundName := x.soundName
  isRunning := if c.save then x.isRunning else o.isRunning
  isAllowedToRun := if c.save then x.isAllowedToRun else o.isAllowedToRun

/-- `VSoundDaytime`. -/
def VSoundDaytime.copy {P : Type} (c : Ctx) (env : Env P) (φ : Nat → P) (b : VObj P) (x : VSoundDaytime Nat)
    (o : VSoundDaytime P) : VSoundDaytime P where
  base := x.base.copy c env φ b o.base
  startTime := x.startTime
  endTime := x.endTime
  soundName2 := x.soundName2

/-- `VTrigger`. The switches come from the two bytes, not from the members of `x`. -/
def VTrigger.copy {P : Type} (c : Ctx) (env : Env P) (φ : Nat → P) (b : VObj P) (x : VTrigger Nat) (o : VTrigger P) : VTrigger P where
  base := b
  target := x.target
  flags := x.flags
  startEnabled := x.flags.getLsbD 0
  sendUntrigger := x.flags.getLsbD 2
  filterFlags := x.filterFlags
  reactToOnTrigger := x.filterFlags.getLsbD 0
  reactToOnTouch := x.filterFlags.getLsbD 1
  reactToOnDamage := x.filterFlags.getLsbD 2
  respondToObject := x.filterFlags.getLsbD 3
  respondToPc := x.filterFlags.getLsbD 4
  respondToNpc := x.filterFlags.getLsbD 5
  vobTarget := x.vobTarget
  maxActivationCount := x.maxActivationCount
  retriggerDelaySec := x.retriggerDelaySec
  damageThreshold := x.damageThreshold
  fireDelaySec := x.fireDelaySec
  nextTimeTriggerable := if c.save then x.nextTimeTriggerable else o.nextTimeTriggerable
  countCanBeActivated := if c.save then x.countCanBeActivated else x.maxActivationCount
  otherVob := if c.save then (x.otherVob.map φ).filter env.vob else o.otherVob
  isEnabled := if c.save && c.g2 then x.isEnabled else o.isEnabled

/-- `VTriggerScript`. -/
def VTriggerScript.copy {P : Type} (c : Ctx) (env : Env P) (φ : Nat → P) (b : VObj P) (x : VTriggerScript Nat)
    (o : VTriggerScript P) : VTriggerScript P where
  base := x.base.copy c env φ b o.base
  function := x.function

/-- `VTriggerChangeLevel`. -/
def VTriggerChangeLevel.copy {P : Type} (c : Ctx) (env : Env P) (φ : Nat → P) (b : VObj P) (x : VTriggerChangeLevel Nat)
    (o : VTriggerChangeLevel P) : VTriggerChangeLevel P where
  base := x.base.copy c env φ b o.base
  levelName := x.levelName
  startVob := x.startVob

/-- `VTriggerWorldStart`. -/
def VTriggerWorldStart.copy {P : Type} (c : Ctx) (_ : Env P) (_ : Nat → P) (b : VObj P) (x : VTriggerWorldStart Nat)
    (o : VTriggerWorldStart P) : VTriggerWorldStart P where
  base := b
  target := x.target
  fireOnce := x.fireOnce
  hasFired := if c.save && c.g2 then x.hasFired else o.hasFired

/-- `VTriggerUntouch`. -/
def VTriggerUntouch.copy {P : Type} (_ : Ctx) (_ : Env P) (_ : Nat → P) (b : VObj P) (x : VTriggerUntouch Nat)
    (_ : VTriggerUntouch P) : VTriggerUntouch P where
  base := b
  target := x.target

/-- `VTriggerList`. Targets are added to those that the object has. -/
def VTriggerList.copy {P : Type} (c : Ctx) (env : Env P) (φ : Nat → P) (b : VObj P) (x : VTriggerList Nat) (o : VTriggerList P) :
    VTriggerList P where
  base := x.base.copy c env φ b o.base
  mode := x.mode
  targets := o.targets ++ x.targets
  actTarget := if c.save then x.actTarget else o.actTarget
  sendOnTrigger := if c.save then x.sendOnTrigger else o.sendOnTrigger

/-- `VMover`. The speed and the modes are stored together with keyframes only. -/
def VMover.copy {P : Type} (c : Ctx) (env : Env P) (φ : Nat → P) (b : VObj P) (x : VMover Nat) (o : VMover P) : VMover P where
  base := x.base.copy c env φ b o.base
  behavior := x.behavior
  touchBlockerDamage := x.touchBlockerDamage
  stayOpenTimeSec := x.stayOpenTimeSec
  locked := x.locked
  autoLink := x.autoLink
  autoRotate := if c.g2 then x.autoRotate else o.autoRotate
  speed := if x.keyframes = [] then o.speed else x.speed
  lerpMode := if x.keyframes = [] then o.lerpMode else x.lerpMode
  speedMode := if x.keyframes = [] then o.speedMode else x.speedMode
  keyframes := o.keyframes ++ x.keyframes
  sfxOpenStart := x.sfxOpenStart
  sfxOpenEnd := x.sfxOpenEnd
  sfxTransitioning := x.sfxTransitioning
  sfxCloseStart := x.sfxCloseStart
  sfxCloseEnd := x.sfxCloseEnd
  sfxLock := x.sfxLock
  sfxUnlock := x.sfxUnlock
  sfxUseLocked := x.sfxUseLocked
  actKeyPosDelta := if c.save then x.actKeyPosDelta else o.actKeyPosDelta
  actKeyframeF := if c.save then x.actKeyframeF else o.actKeyframeF
  actKeyframe := if c.save then x.actKeyframe else o.actKeyframe
  nextKeyframe := if c.save then x.nextKeyframe else o.nextKeyframe
  moveSpeedUnit := if c.save then x.moveSpeedUnit else o.moveSpeedUnit
  advanceDir := if c.save then x.advanceDir else o.advanceDir
  moverState := if c.save then x.moverState else o.moverState
  triggerEventCount := if c.save then x.triggerEventCount else o.triggerEventCount
  stayOpenTimeDest := if c.save then x.stayOpenTimeDest else o.stayOpenTimeDest

/-- `VCodeMaster`. -/
def VCodeMaster.copy {P : Type} (b : VObj P) (x : VCodeMaster Nat) (o : VCodeMaster P) : VCodeMaster P where
  base := b
  target := x.target
  ordered := x.ordered
  firstFalseIsFailure := x.firstFalseIsFailure
  failureTarget := x.failureTarget
  untriggeredCancels := x.untriggeredCancels
  slaves := o.slaves ++ x.slaves
  numTriggeredSlaves := o.numTriggeredSlaves

/-- `VContainer`. -/
def VContainer.copy {P : Type} (c : Ctx) (env : Env P) (φ : Nat → P) (b : VObj P) (x : VContainer Nat) (o : VContainer P) :
    VContainer P where
  base := x.base.copy c env φ b o.base
  locked := x.locked
  key := x.key
  pickString := x.pickString
  contents := x.contents
  items := if c.save then x.items.map (Option.map φ) else o.items

/-- `VCameraTrajectoryFrame`. The matrix is transposed. -/
def VFrame.copy {P : Type} (b : VObj P) (x : VFrame Nat) : VFrame P where
  base := b
  time := x.time
  rollAngle := x.rollAngle
  fovScale := x.fovScale
  motionType := x.motionType
  motionTypeFov := x.motionTypeFov
  motionTypeRoll := x.motionTypeRoll
  motionTypeTimeScale := x.motionTypeTimeScale
  tension := x.tension
  camBias := x.camBias
  continuity := x.continuity
  timeScale := x.timeScale
  timeFixed := x.timeFixed
  originalPose := x.originalPose.transpose

/-- `VCutsceneCamera`. The numbers of frames are those of the members for them. -/
def VCamera.copy {P : Type} (c : Ctx) (φ : Nat → P) (b : VObj P) (x : VCamera Nat) (o : VCamera P) : VCamera P where
  base := b
  trajectoryFor := x.trajectoryFor
  targetTrajectoryFor := x.targetTrajectoryFor
  loopMode := x.loopMode
  lerpMode := x.lerpMode
  ignoreForVobRotation := x.ignoreForVobRotation
  ignoreForVobRotationTarget := x.ignoreForVobRotationTarget
  adapt := x.adapt
  easeFirst := x.easeFirst
  easeLast := x.easeLast
  totalDuration := x.totalDuration
  autoFocusVob := x.autoFocusVob
  autoPlayerMovable := x.autoPlayerMovable
  autoUntriggerLast := x.autoUntriggerLast
  autoUntriggerLastDelay := x.autoUntriggerLastDelay
  positionCount := x.positionCount
  targetCount := x.targetCount
  trajectoryFrames := o.trajectoryFrames ++ (x.trajectoryFrames.take (Ld.rounds x.positionCount)).map (Option.map φ)
  targetFrames := o.targetFrames ++ (x.targetFrames.take (Ld.rounds x.targetCount)).map (Option.map φ)
  paused := if c.save && c.g2 then x.paused else o.paused
  started := if c.save && c.g2 then x.started else o.started
  gotoTimeMode := if c.save && c.g2 then x.gotoTimeMode else o.gotoTimeMode
  csTime := if c.save && c.g2 then x.csTime else o.csTime

/-- `SkyController`. -/
def SkyController.copy {P : Type} (c : Ctx) (_ : Env P) (_ : Nat → P) (x : SkyController) (o : SkyController) :
    SkyController where
  masterTime := x.masterTime
  rainWeight := x.rainWeight
  rainStart := x.rainStart
  rainStop := x.rainStop
  rainSctTimer := x.rainSctTimer
  rainSndVol := x.rainSndVol
  dayCtr := x.dayCtr
  fadeScale := if c.g2 then x.fadeScale else o.fadeScale
  renderLightning := if c.g2 then x.renderLightning else o.renderLightning
  isRaining := if c.g2 then x.isRaining else o.isRaining
  rainCtr := if c.g2 then x.rainCtr else o.rainCtr

/-- `SaveMetadata`. -/
def SaveMetadata.copy {P : Type} (c : Ctx) (_ : Env P) (_ : Nat → P) (x : SaveMetadata) (o : SaveMetadata) : SaveMetadata where
  title := x.title
  world := x.world
  timeDay := x.timeDay
  timeHour := x.timeHour
  timeMinute := x.timeMinute
  saveDate := x.saveDate
  versionMajor := x.versionMajor
  versionMinor := x.versionMinor
  playTimeSeconds := x.playTimeSeconds
  versionPoint := if c.g2 then x.versionPoint else o.versionPoint
  versionInt := if c.g2 then x.versionInt else o.versionInt
  versionAppName := if c.g2 then x.versionAppName else o.versionAppName

/-- `CutscenePoolItem`. -/
def CutscenePoolItem.copy {P : Type} (_ : Ctx) (_ : Env P) (_ : Nat → P) (x : CutscenePoolItem) (_ : CutscenePoolItem) :
    CutscenePoolItem where
  name := x.name
  runBehavior := x.runBehavior
  runBehaviorValue := x.runBehaviorValue
  timesPlayed := x.timesPlayed
  deactivated := x.deactivated
  flags := x.flags

/-- `ConversationMessageEvent`. -/
def ConversationMessage.copy {P : Type} (c : Ctx) (_ : Env P) (_ : Nat → P) (x : ConversationMessage) (o : ConversationMessage)
    : ConversationMessage where
  type := x.type
  highPriority := if c.save then x.highPriority else o.highPriority
  used := if c.save then x.used else o.used
  deleted := if c.save then x.deleted else o.deleted
  text := x.text
  name := x.name

/-- `CutsceneProps`. -/
def CutsceneProps.copy {P : Type} (_ : Ctx) (_ : Env P) (_ : Nat → P) (x : CutsceneProps) (_ : CutsceneProps) :
    CutsceneProps where
  name := x.name
  global := x.global
  loop := x.loop
  hasToBeTriggered := x.hasToBeTriggered
  distance := x.distance
  range := x.range
  lockedBlockCount := x.lockedBlockCount
  runBehaviour := x.runBehaviour
  runBehaviourValue := x.runBehaviourValue
  stageName := x.stageName
  scriptFunctionOnStop := x.scriptFunctionOnStop

/-- `EventManager`. -/
def EventManager.copy {P : Type} (φ : Nat → P) (x : EventManager Nat) : EventManager P where
  cleared := x.cleared
  active := x.active
  cutscene := x.cutscene.map φ

/-- `AiHuman`. -/
def AiHuman.copy {P : Type} (φ : Nat → P) (x : AiHuman Nat) : AiHuman P := { x with npc := x.npc.map φ }

/-- `AiMove`. -/
def AiMove.copy {P : Type} (φ : Nat → P) (x : AiMove Nat) : AiMove P where
  vob := x.vob.map φ
  owner := x.owner.map φ

/-- `VisualDecal`. The type of the visual is set by the object that has it. -/
def VDecal.copy (c : Ctx) (x o : VDecal) : VDecal :=
  { x with
    type := o.type
    alphaWeight := if c.g2 then x.alphaWeight else o.alphaWeight
    ignoreDaylight := if c.g2 then x.ignoreDaylight else o.ignoreDaylight }

/-- `CutsceneAtomicBlock`. -/
def AtomicBlock.copy {P : Type} (φ : Nat → P) (x : AtomicBlock Nat) (o : AtomicBlock P) : AtomicBlock P where
  message := x.message.map φ
  synchronized := o.synchronized

/-- The block has another block or an atomic block. -/
def Block.Readable {P : Type} (env : Env P) (φ : Nat → P) (x : Block Nat) : Prop :=
  ∃ a, x.block = some a ∧ (env.is .zCCSAtomicBlock (φ a) = true ∨ env.is .zCCSBlock (φ a) = true)

/-- `CutsceneBlock`. Which alternative the block has depends on the type of the object. -/
def Block.copy {P : Type} (env : Env P) (φ : Nat → P) (x : Block Nat) : Block P where
  name := x.name
  atomic := match x.block with
    | some a => env.is .zCCSAtomicBlock (φ a)
    | none => x.atomic
  block := x.block.map φ

/-- `CutsceneContext`. -/
def Context.copy {P : Type} (env : Env P) (φ : Nat → P) (x : Context Nat) : Context P where
  base := x.base.copy env φ
  props := x.props.map φ
  roleCount := x.roleCount
  roleVobCount := x.roleVobCount
  npc := x.npc.map φ
  mainRole := x.mainRole.map φ
  isCutscene := x.isCutscene
  reference := x.reference
  actualBlock := x.actualBlock
  altStage := x.altStage.map φ
  stage := x.stage.map φ
  wasTriggered := x.wasTriggered

/-- `CutscenePlayer`. -/
def CutscenePlayer.copy {P : Type} (φ : Nat → P) (x : CutscenePlayer Nat) (o : CutscenePlayer P) : CutscenePlayer P where
  lastProcessDay := x.lastProcessDay
  lastProcessHour := x.lastProcessHour
  playlists := o.playlists ++ x.playlists.map (Option.map φ)

/-- `CutsceneManager`. -/
def CutsceneManager.copy {P : Type} (φ : Nat → P) (x : CutsceneManager Nat) (o : CutsceneManager P) : CutsceneManager P where
  poolItems := o.poolItems ++ x.poolItems.map (Option.map φ)

/-- `CutsceneLibrary`. -/
def Library.copy {P : Type} (φ : Nat → P) (x : Library Nat) (o : Library P) : Library P where
  blocks := o.blocks ++ x.blocks.map (Option.map φ)

/-- `SaveState`. Gothic 1 stores the first value of a symbol only. -/
def SaveState.copy {P : Type} (c : Ctx) (φ : Nat → P) (x : SaveState Nat) : SaveState P where
  day := x.day
  hour := x.hour
  minute := x.minute
  missions := x.missions
  cutsceneManager := x.cutsceneManager.map φ
  infos := x.infos
  symbols := x.symbols.map fun s => if c.game = .g2 then s else { s with values := s.values.take 1 }
  log := x.log
  guildAttitudes := x.guildAttitudes

/-- The states whose saved form can be read. -/
structure SaveState.Readable {P : Type} (env : Env P) (φ : Nat → P) (x : SaveState Nat) : Prop where
  infos : Fits31 x.infos
  missions : Fits31 x.missions
  log : Fits31 x.log
  entries : ∀ t ∈ x.log, Fits31 t.entries
  symbols : Fits31 x.symbols
  values : ∀ s ∈ x.symbols, Fits31 s.values
  manager : Typed env φ .oCCSManager x.cutsceneManager
  guilds : x.guildAttitudes.length = 1764

/-- `VNpc::Slot`. -/
def Slot.copy {P : Type} (φ : Nat → P) (x : Slot Nat) : Slot P where
  used := x.used
  name := x.name
  item := if x.used then x.item.map φ else none
  inInventory := x.used && x.inInventory

/-- `VNpc`. Of the nine packed strings, Gothic 2 reads the first one and leaves the others empty. -/
def VNpc.copy {P : Type} (c : Ctx) (env : Env P) (φ : Nat → P) (b : VObj P) (x : VNpc Nat) (o : VNpc P) : VNpc P :=
  { x with
    base := b
    overlays := o.overlays ++ x.overlays
    talents := x.talents.map (Option.map φ)
    hitChance := if c.g2 then x.hitChance else o.hitChance
    aivar := if c.g2 then x.aivar else x.aivar.take 50 ++ o.aivar.drop 50
    packed := if c.g2 then x.packed.take 1 ++ List.replicate 8 [] else x.packed
    news := o.news ++ x.news
    items := x.items.map (Option.map φ)
    slots := x.slots.map (Slot.copy φ)
    bsInterruptableOverride := if c.g2 then x.bsInterruptableOverride else o.bsInterruptableOverride
    npcType := if c.g2 then x.npcType else o.npcType
    spellMana := if c.g2 then x.spellMana else o.spellMana
    carryVob := (x.carryVob.map φ).filter env.vob
    enemy := (x.enemy.map φ).filter env.vob }

/-- The sizes of the arrays in `VNpc`. -/
structure VNpc.Sized {P : Type} (x : VNpc P) : Prop where
  attributes : x.attributes.length = 8
  hitChance : x.hitChance.length = 4
  missions : x.missions.length = 5
  aivar : x.aivar.length = 100
  packed : x.packed.length = 9
  protection : x.protection.length = 8

/-- The characters whose saved form can be read: lists are not longer than numbers in the archive can say, pointers denote
objects of the right type, items are not null and have the same flag after loading as before, and in Gothic 2 the first packed
string has no semicolon. -/
structure VNpc.Readable {P : Type} (c : Ctx) (env : Env P) (φ : Nat → P) (flag : Nat → Bool) (x : VNpc Nat) : Prop where
  sized : x.Sized
  overlays : Fits31 x.overlays
  talents : Fits31 x.talents
  news : Fits31 x.news
  items : Fits31 x.items
  slots : x.slots.length < 2 ^ 32
  talentTypes : ∀ p ∈ x.talents, Typed env φ .oCNpcTalent p
  itemTypes : ∀ p ∈ x.items, ∃ a, p = some a ∧ env.is .oCItem (φ a) = true ∧ env.flag (φ a) = flag a
  slotTypes : ∀ s ∈ x.slots, s.used = true → Typed env φ .oCItem s.item
  semicolon : c.game = .g2 → ∀ s, x.packed.head? = some s → (0x3B : Byte) ∉ s

end Verif.Obj
