import Verif.Base.Bytes

/-! # The tables of object types and class names: `src/Archive.cc`, `include/zenkit/Object.hh` -/

namespace Verif

/-- `ObjectType` (`include/zenkit/Object.hh:12-87`), in the order of the source: the values are consecutive from 0. -/
inductive ObjectType where
  | zCVob | zCVobLevelCompo | oCItem | oCNpc | zCMoverController | zCVobScreenFX | zCVobStair | zCPFXController
  | zCVobAnimate | zCVobLensFlare | zCVobLight | zCVobSpot | zCVobStartpoint | zCMessageFilter | zCCodeMaster
  | zCTriggerWorldStart | zCCSCamera | zCCamTrj_KeyFrame | oCTouchDamage | zCTriggerUntouch | zCEarthquake | oCMOB
  | oCMobInter | oCMobBed | oCMobFire | oCMobLadder | oCMobSwitch | oCMobWheel | oCMobContainer | oCMobDoor | zCTrigger
  | zCTriggerList | oCTriggerScript | oCTriggerChangeLevel | oCCSTrigger | zCMover | zCVobSound | zCVobSoundDaytime
  | oCZoneMusic | oCZoneMusicDefault | zCZoneZFog | zCZoneZFogDefault | zCZoneVobFarPlane | zCZoneVobFarPlaneDefault
  | ignored | unknown | oCNpcTalent | zCEventManager | zCDecal | zCMesh | zCProgMeshProto | zCParticleFX | zCAICamera
  | zCModel | zCMorphMesh | oCAIHuman | oCAIVobMove | oCCSPlayer | zCSkyControler_Outdoor | oCWorld | zCWayNet
  | zCWaypoint | zCMaterial | oCSavegameInfo | oCCSManager | zCCSPoolItem | zCCSBlock | zCCutscene
  | zCCSCutsceneContext | oCMsgConversation | zCCSAtomicBlock | zCCSLib | zCCSProps
  deriving DecidableEq, Repr

/-- The numeric value of a type (`include/zenkit/Object.hh:13-86`). -/
def ObjectType.val (t : ObjectType) : Nat := t.ctorIdx

/-- All object types. -/
def ObjectType.all : List ObjectType :=
  [.zCVob, .zCVobLevelCompo, .oCItem, .oCNpc, .zCMoverController, .zCVobScreenFX, .zCVobStair, .zCPFXController,
   .zCVobAnimate, .zCVobLensFlare, .zCVobLight, .zCVobSpot, .zCVobStartpoint, .zCMessageFilter, .zCCodeMaster,
   .zCTriggerWorldStart, .zCCSCamera, .zCCamTrj_KeyFrame, .oCTouchDamage, .zCTriggerUntouch, .zCEarthquake, .oCMOB,
   .oCMobInter, .oCMobBed, .oCMobFire, .oCMobLadder, .oCMobSwitch, .oCMobWheel, .oCMobContainer, .oCMobDoor,
   .zCTrigger, .zCTriggerList, .oCTriggerScript, .oCTriggerChangeLevel, .oCCSTrigger, .zCMover, .zCVobSound,
   .zCVobSoundDaytime, .oCZoneMusic, .oCZoneMusicDefault, .zCZoneZFog, .zCZoneZFogDefault, .zCZoneVobFarPlane,
   .zCZoneVobFarPlaneDefault, .ignored, .unknown, .oCNpcTalent, .zCEventManager, .zCDecal, .zCMesh, .zCProgMeshProto,
   .zCParticleFX, .zCAICamera, .zCModel, .zCMorphMesh, .oCAIHuman, .oCAIVobMove, .oCCSPlayer, .zCSkyControler_Outdoor,
   .oCWorld, .zCWayNet, .zCWaypoint, .zCMaterial, .oCSavegameInfo, .oCCSManager, .zCCSPoolItem, .zCCSBlock,
   .zCCutscene, .zCCSCutsceneContext, .oCMsgConversation, .zCCSAtomicBlock, .zCCSLib, .zCCSProps]

theorem ObjectType.mem_all (t : ObjectType) : t ∈ ObjectType.all := by cases t <;> decide

/-- `is_vobject` (`include/zenkit/Object.hh:89-91`). -/
def ObjectType.isVobject (t : ObjectType) : Bool := t.val < ObjectType.ignored.val

/-- `OBJECTS` (`src/Archive.cc:29-101`). -/
def objectsTable : List (Bytes × ObjectType) :=
  [
    (b!"zCVob", .zCVob),
    (b!"zCVobLevelCompo:zCVob", .zCVobLevelCompo),
    (b!"oCItem:zCVob", .oCItem),
    (b!"oCNpc:zCVob", .oCNpc),
    (b!"oCMOB:zCVob", .oCMOB),
    (b!"oCMobInter:oCMOB:zCVob", .oCMobInter),
    (b!"oCMobBed:oCMobInter:oCMOB:zCVob", .oCMobBed),
    (b!"oCMobFire:oCMobInter:oCMOB:zCVob", .oCMobFire),
    (b!"oCMobLadder:oCMobInter:oCMOB:zCVob", .oCMobLadder),
    (b!"oCMobSwitch:oCMobInter:oCMOB:zCVob", .oCMobSwitch),
    (b!"oCMobWheel:oCMobInter:oCMOB:zCVob", .oCMobWheel),
    (b!"oCMobContainer:oCMobInter:oCMOB:zCVob", .oCMobContainer),
    (b!"oCMobDoor:oCMobInter:oCMOB:zCVob", .oCMobDoor),
    (b!"zCPFXControler:zCVob", .zCPFXController),
    (b!"zCVobAnimate:zCVob", .zCVobAnimate),
    (b!"zCVobLensFlare:zCVob", .zCVobLensFlare),
    (b!"zCVobLight:zCVob", .zCVobLight),
    (b!"zCVobSpot:zCVob", .zCVobSpot),
    (b!"zCVobStartpoint:zCVob", .zCVobStartpoint),
    (b!"zCVobSound:zCVob", .zCVobSound),
    (b!"zCVobSoundDaytime:zCVobSound:zCVob", .zCVobSoundDaytime),
    (b!"oCZoneMusic:zCVob", .oCZoneMusic),
    (b!"oCZoneMusicDefault:oCZoneMusic:zCVob", .oCZoneMusicDefault),
    (b!"zCZoneZFog:zCVob", .zCZoneZFog),
    (b!"zCZoneZFogDefault:zCZoneZFog:zCVob", .zCZoneZFogDefault),
    (b!"zCZoneVobFarPlane:zCVob", .zCZoneVobFarPlane),
    (b!"zCZoneVobFarPlaneDefault:zCZoneVobFarPlane:zCVob", .zCZoneVobFarPlaneDefault),
    (b!"zCMessageFilter:zCVob", .zCMessageFilter),
    (b!"zCCodeMaster:zCVob", .zCCodeMaster),
    (b!"zCTrigger:zCVob", .zCTrigger),
    (b!"zCTriggerList:zCTrigger:zCVob", .zCTriggerList),
    (b!"oCTriggerScript:zCTrigger:zCVob", .oCTriggerScript),
    (b!"zCMover:zCTrigger:zCVob", .zCMover),
    (b!"oCTriggerChangeLevel:zCTrigger:zCVob", .oCTriggerChangeLevel),
    (b!"zCTriggerWorldStart:zCVob", .zCTriggerWorldStart),
    (b!"zCTriggerUntouch:zCVob", .zCTriggerUntouch),
    (b!"zCCSCamera:zCVob", .zCCSCamera),
    (b!"zCCamTrj_KeyFrame:zCVob", .zCCamTrj_KeyFrame),
    (b!"oCTouchDamage:zCTouchDamage:zCVob", .oCTouchDamage),
    (b!"zCEarthquake:zCVob", .zCEarthquake),
    (b!"zCMoverControler:zCVob", .zCMoverController),
    (b!"zCVobScreenFX:zCVob", .zCVobScreenFX),
    (b!"zCVobStair:zCVob", .zCVobStair),
    (b!"oCCSTrigger:zCTrigger:zCVob", .oCCSTrigger),
    (b!"oCNpcTalent", .oCNpcTalent),
    (b!"zCEventManager", .zCEventManager),
    (b!"zCDecal", .zCDecal),
    (b!"zCMesh", .zCMesh),
    (b!"zCProgMeshProto", .zCProgMeshProto),
    (b!"zCParticleFX", .zCParticleFX),
    (b!"zCAICamera", .zCAICamera),
    (b!"zCModel", .zCModel),
    (b!"zCMorphMesh", .zCMorphMesh),
    (b!"oCAIHuman:oCAniCtrl_Human:zCAIPlayer", .oCAIHuman),
    (b!"oCAIVobMove", .oCAIVobMove),
    (b!"oCCSPlayer:zCCSPlayer", .oCCSPlayer),
    (b!"zCSkyControler_Outdoor", .zCSkyControler_Outdoor),
    (b!"zCWayNet", .zCWayNet),
    (b!"zCWaypoint", .zCWaypoint),
    (b!"oCWorld:zCWorld", .oCWorld),
    (b!"zCMaterial", .zCMaterial),
    (b!"oCSavegameInfo", .oCSavegameInfo),
    (b!"oCCSManager:zCCSManager", .oCCSManager),
    (b!"zCCSPoolItem", .zCCSPoolItem),
    (b!"zCCSBlock", .zCCSBlock),
    (b!"zCCutscene:zCCSBlock", .zCCutscene),
    (b!"zCCSCutsceneContext:zCCutscene:zCCSBlock", .zCCSCutsceneContext),
    (b!"oCMsgConversation:oCNpcMessage:zCEventMessage", .oCMsgConversation),
    (b!"zCCSAtomicBlock", .zCCSAtomicBlock),
    (b!"zCCSLib", .zCCSLib),
    (b!"zCCSProps", .zCCSProps)]

/-- `CLASS_NAMES` (`src/Archive.cc:103-175`). -/
def classNamesTable : List (ObjectType × Bytes) :=
  [
    (.zCVob, b!"zCVob"),
    (.zCVobLevelCompo, b!"zCVobLevelCompo:zCVob"),
    (.oCItem, b!"oCItem:zCVob"),
    (.oCNpc, b!"oCNpc:zCVob"),
    (.oCMOB, b!"oCMOB:zCVob"),
    (.oCMobInter, b!"oCMobInter:oCMOB:zCVob"),
    (.oCMobBed, b!"oCMobBed:oCMobInter:oCMOB:zCVob"),
    (.oCMobFire, b!"oCMobFire:oCMobInter:oCMOB:zCVob"),
    (.oCMobLadder, b!"oCMobLadder:oCMobInter:oCMOB:zCVob"),
    (.oCMobSwitch, b!"oCMobSwitch:oCMobInter:oCMOB:zCVob"),
    (.oCMobWheel, b!"oCMobWheel:oCMobInter:oCMOB:zCVob"),
    (.oCMobContainer, b!"oCMobContainer:oCMobInter:oCMOB:zCVob"),
    (.oCMobDoor, b!"oCMobDoor:oCMobInter:oCMOB:zCVob"),
    (.zCPFXController, b!"zCPFXControler:zCVob"),
    (.zCVobAnimate, b!"zCVobAnimate:zCVob"),
    (.zCVobLensFlare, b!"zCVobLensFlare:zCVob"),
    (.zCVobLight, b!"zCVobLight:zCVob"),
    (.zCVobSpot, b!"zCVobSpot:zCVob"),
    (.zCVobStartpoint, b!"zCVobStartpoint:zCVob"),
    (.zCVobSound, b!"zCVobSound:zCVob"),
    (.zCVobSoundDaytime, b!"zCVobSoundDaytime:zCVobSound:zCVob"),
    (.oCZoneMusic, b!"oCZoneMusic:zCVob"),
    (.oCZoneMusicDefault, b!"oCZoneMusicDefault:oCZoneMusic:zCVob"),
    (.zCZoneZFog, b!"zCZoneZFog:zCVob"),
    (.zCZoneZFogDefault, b!"zCZoneZFogDefault:zCZoneZFog:zCVob"),
    (.zCZoneVobFarPlane, b!"zCZoneVobFarPlane:zCVob"),
    (.zCZoneVobFarPlaneDefault, b!"zCZoneVobFarPlaneDefault:zCZoneVobFarPlane:zCVob"),
    (.zCMessageFilter, b!"zCMessageFilter:zCVob"),
    (.zCCodeMaster, b!"zCCodeMaster:zCVob"),
    (.zCTrigger, b!"zCTrigger:zCVob"),
    (.zCTriggerList, b!"zCTriggerList:zCTrigger:zCVob"),
    (.oCTriggerScript, b!"oCTriggerScript:zCTrigger:zCVob"),
    (.zCMover, b!"zCMover:zCTrigger:zCVob"),
    (.oCTriggerChangeLevel, b!"oCTriggerChangeLevel:zCTrigger:zCVob"),
    (.zCTriggerWorldStart, b!"zCTriggerWorldStart:zCVob"),
    (.zCTriggerUntouch, b!"zCTriggerUntouch:zCVob"),
    (.zCCSCamera, b!"zCCSCamera:zCVob"),
    (.zCCamTrj_KeyFrame, b!"zCCamTrj_KeyFrame:zCVob"),
    (.oCTouchDamage, b!"oCTouchDamage:zCTouchDamage:zCVob"),
    (.zCEarthquake, b!"zCEarthquake:zCVob"),
    (.zCMoverController, b!"zCMoverControler:zCVob"),
    (.zCVobScreenFX, b!"zCVobScreenFX:zCVob"),
    (.zCVobStair, b!"zCVobStair:zCVob"),
    (.oCCSTrigger, b!"oCCSTrigger:zCTrigger:zCVob"),
    (.oCNpcTalent, b!"oCNpcTalent"),
    (.zCEventManager, b!"zCEventManager"),
    (.zCDecal, b!"zCDecal"),
    (.zCMesh, b!"zCMesh"),
    (.zCProgMeshProto, b!"zCProgMeshProto"),
    (.zCParticleFX, b!"zCParticleFX"),
    (.zCAICamera, b!"zCAICamera"),
    (.zCModel, b!"zCModel"),
    (.zCMorphMesh, b!"zCMorphMesh"),
    (.oCAIHuman, b!"oCAIHuman:oCAniCtrl_Human:zCAIPlayer"),
    (.oCAIVobMove, b!"oCAIVobMove"),
    (.oCCSPlayer, b!"oCCSPlayer:zCCSPlayer"),
    (.zCSkyControler_Outdoor, b!"zCSkyControler_Outdoor"),
    (.zCWayNet, b!"zCWayNet"),
    (.zCWaypoint, b!"zCWaypoint"),
    (.oCWorld, b!"oCWorld:zCWorld"),
    (.zCMaterial, b!"zCMaterial"),
    (.oCSavegameInfo, b!"oCSavegameInfo"),
    (.oCCSManager, b!"oCCSManager:zCCSManager"),
    (.zCCSPoolItem, b!"zCCSPoolItem"),
    (.zCCSBlock, b!"zCCSBlock"),
    (.zCCutscene, b!"zCCutscene:zCCSBlock"),
    (.zCCSCutsceneContext, b!"zCCSCutsceneContext:zCCutscene:zCCSBlock"),
    (.oCMsgConversation, b!"oCMsgConversation:oCNpcMessage:zCEventMessage"),
    (.zCCSAtomicBlock, b!"zCCSAtomicBlock"),
    (.zCCSLib, b!"zCCSLib"),
    (.zCCSProps, b!"zCCSProps")]

/-- Building an `unordered_map` from a list: of several entries with one key the first is kept. -/
def tableFind {α β} [BEq α] (t : List (α × β)) (k : α) : Option β := t.lookup k

/-- The C++ classes whose objects `read_object` makes, and their bases. -/
inductive ObjClass where
  | Ai | AiHuman | AiMove | ConversationMessageEvent | Cutscene | CutsceneAtomicBlock | CutsceneBlock | CutsceneContext
  | CutsceneLibrary | CutsceneManager | CutscenePlayer | CutscenePoolItem | CutsceneProps | EventManager | Material
  | SaveMetadata | SkyController | Talent | VAnimate | VBed | VCameraTrajectoryFrame | VCodeMaster | VContainer
  | VCutsceneCamera | VCutsceneTrigger | VDoor | VEarthquake | VFire | VInteractiveObject | VItem | VLadder
  | VLensFlare | VLevel | VLight | VMessageFilter | VMovableObject | VMover | VMoverController | VNpc
  | VParticleEffectController | VScreenEffect | VSound | VSoundDaytime | VSpot | VStair | VStartPoint | VSwitch
  | VTouchDamage | VTrigger | VTriggerChangeLevel | VTriggerList | VTriggerScript | VTriggerUntouch
  | VTriggerWorldStart | VWheel | VZoneFarPlane | VZoneFarPlaneDefault | VZoneFog | VZoneFogDefault | VZoneMusic
  | VZoneMusicDefault | VirtualObject | Visual | VisualCamera | VisualDecal | VisualMesh | VisualModel
  | VisualMorphMesh | VisualMultiResolutionMesh | VisualParticleEffect | WayNet | WayPoint | World
  deriving DecidableEq, Repr

/-- The base class of each class; none if it is `Object` itself. -/
def ObjClass.base : ObjClass → Option ObjClass
  | .Ai => none -- include/zenkit/vobs/VirtualObject.hh:210
  | .AiHuman => some .Ai -- include/zenkit/vobs/VirtualObject.hh:212
  | .AiMove => some .Ai -- include/zenkit/vobs/VirtualObject.hh:235
  | .ConversationMessageEvent => none -- include/zenkit/CutsceneLibrary.hh:18
  | .Cutscene => some .CutsceneBlock -- include/zenkit/CutsceneLibrary.hh:111
  | .CutsceneAtomicBlock => none -- include/zenkit/CutsceneLibrary.hh:37
  | .CutsceneBlock => none -- include/zenkit/CutsceneLibrary.hh:48
  | .CutsceneContext => some .Cutscene -- include/zenkit/CutsceneLibrary.hh:120
  | .CutsceneLibrary => none -- include/zenkit/CutsceneLibrary.hh:76
  | .CutsceneManager => none -- include/zenkit/SaveGame.hh:103
  | .CutscenePlayer => none -- include/zenkit/World.hh:19
  | .CutscenePoolItem => none -- include/zenkit/SaveGame.hh:89
  | .CutsceneProps => none -- include/zenkit/CutsceneLibrary.hh:92
  | .EventManager => none -- include/zenkit/vobs/VirtualObject.hh:197
  | .Material => none -- include/zenkit/Material.hh:125
  | .SaveMetadata => none -- include/zenkit/SaveGame.hh:24
  | .SkyController => none -- include/zenkit/World.hh:34
  | .Talent => none -- include/zenkit/vobs/Misc.hh:451
  | .VAnimate => some .VirtualObject -- include/zenkit/vobs/Misc.hh:78
  | .VBed => some .VInteractiveObject -- include/zenkit/vobs/MovableObject.hh:300
  | .VCameraTrajectoryFrame => some .VirtualObject -- include/zenkit/vobs/Camera.hh:120
  | .VCodeMaster => some .VirtualObject -- include/zenkit/vobs/Misc.hh:242
  | .VContainer => some .VInteractiveObject -- include/zenkit/vobs/MovableObject.hh:194
  | .VCutsceneCamera => some .VirtualObject -- include/zenkit/vobs/Camera.hh:194
  | .VCutsceneTrigger => some .VTrigger -- include/zenkit/vobs/Trigger.hh:202
  | .VDoor => some .VInteractiveObject -- include/zenkit/vobs/MovableObject.hh:244
  | .VEarthquake => some .VirtualObject -- include/zenkit/vobs/Misc.hh:411
  | .VFire => some .VInteractiveObject -- include/zenkit/vobs/MovableObject.hh:166
  | .VInteractiveObject => some .VMovableObject -- include/zenkit/vobs/MovableObject.hh:109
  | .VItem => some .VirtualObject -- include/zenkit/vobs/Misc.hh:107
  | .VLadder => some .VInteractiveObject -- include/zenkit/vobs/MovableObject.hh:282
  | .VLensFlare => some .VirtualObject -- include/zenkit/vobs/Misc.hh:135
  | .VLevel => some .VirtualObject -- include/zenkit/vobs/VirtualObject.hh:527
  | .VLight => some .VirtualObject -- include/zenkit/vobs/Light.hh:161
  | .VMessageFilter => some .VirtualObject -- include/zenkit/vobs/Misc.hh:200
  | .VMovableObject => some .VirtualObject -- include/zenkit/vobs/MovableObject.hh:36
  | .VMover => some .VTrigger -- include/zenkit/vobs/Trigger.hh:230
  | .VMoverController => some .VirtualObject -- include/zenkit/vobs/Misc.hh:303
  | .VNpc => some .VirtualObject -- include/zenkit/vobs/Misc.hh:441
  | .VParticleEffectController => some .VirtualObject -- include/zenkit/vobs/Misc.hh:165
  | .VScreenEffect => some .VirtualObject -- include/zenkit/vobs/Misc.hh:607
  | .VSound => some .VirtualObject -- include/zenkit/vobs/Sound.hh:45
  | .VSoundDaytime => some .VSound -- include/zenkit/vobs/Sound.hh:126
  | .VSpot => some .VirtualObject -- include/zenkit/vobs/VirtualObject.hh:495
  | .VStair => some .VirtualObject -- include/zenkit/vobs/VirtualObject.hh:506
  | .VStartPoint => some .VirtualObject -- include/zenkit/vobs/VirtualObject.hh:516
  | .VSwitch => some .VInteractiveObject -- include/zenkit/vobs/MovableObject.hh:288
  | .VTouchDamage => some .VirtualObject -- include/zenkit/vobs/Misc.hh:336
  | .VTrigger => some .VirtualObject -- include/zenkit/vobs/Trigger.hh:95
  | .VTriggerChangeLevel => some .VTrigger -- include/zenkit/vobs/Trigger.hh:412
  | .VTriggerList => some .VTrigger -- include/zenkit/vobs/Trigger.hh:340
  | .VTriggerScript => some .VTrigger -- include/zenkit/vobs/Trigger.hh:387
  | .VTriggerUntouch => some .VirtualObject -- include/zenkit/vobs/Trigger.hh:473
  | .VTriggerWorldStart => some .VirtualObject -- include/zenkit/vobs/Trigger.hh:441
  | .VWheel => some .VInteractiveObject -- include/zenkit/vobs/MovableObject.hh:294
  | .VZoneFarPlane => some .VirtualObject -- include/zenkit/vobs/Zone.hh:78
  | .VZoneFarPlaneDefault => some .VZoneFarPlane -- include/zenkit/vobs/Zone.hh:95
  | .VZoneFog => some .VirtualObject -- include/zenkit/vobs/Zone.hh:100
  | .VZoneFogDefault => some .VZoneFog -- include/zenkit/vobs/Zone.hh:121
  | .VZoneMusic => some .VirtualObject -- include/zenkit/vobs/Zone.hh:20
  | .VZoneMusicDefault => some .VZoneMusic -- include/zenkit/vobs/Zone.hh:73
  | .VirtualObject => none -- include/zenkit/vobs/VirtualObject.hh:308
  | .Visual => none -- include/zenkit/vobs/VirtualObject.hh:88
  | .VisualCamera => some .Visual -- include/zenkit/vobs/VirtualObject.hh:113
  | .VisualDecal => some .Visual -- include/zenkit/vobs/VirtualObject.hh:127
  | .VisualMesh => some .Visual -- include/zenkit/vobs/VirtualObject.hh:101
  | .VisualModel => some .Visual -- include/zenkit/vobs/VirtualObject.hh:117
  | .VisualMorphMesh => some .Visual -- include/zenkit/vobs/VirtualObject.hh:121
  | .VisualMultiResolutionMesh => some .Visual -- include/zenkit/vobs/VirtualObject.hh:105
  | .VisualParticleEffect => some .Visual -- include/zenkit/vobs/VirtualObject.hh:109
  | .WayNet => none -- include/zenkit/world/WayNet.hh:33
  | .WayPoint => none -- include/zenkit/world/WayNet.hh:16
  | .World => none -- include/zenkit/World.hh:66

/-- `get_object_type` of an object of each class: the `ZK_OBJECT` line or the overriding function of the class, otherwise the one of
its base (`include/zenkit/Object.hh:93-98`, `src/Object.cc:4-6`). -/
def ObjClass.type : ObjClass → ObjectType
  | .Ai => .unknown
  | .AiHuman => .oCAIHuman
  | .AiMove => .oCAIVobMove
  | .ConversationMessageEvent => .oCMsgConversation
  | .Cutscene => .zCCutscene
  | .CutsceneAtomicBlock => .zCCSAtomicBlock
  | .CutsceneBlock => .zCCSBlock
  | .CutsceneContext => .zCCSCutsceneContext
  | .CutsceneLibrary => .zCCSLib
  | .CutsceneManager => .oCCSManager
  | .CutscenePlayer => .oCCSPlayer
  | .CutscenePoolItem => .zCCSPoolItem
  | .CutsceneProps => .zCCSProps
  | .EventManager => .zCEventManager
  | .Material => .zCMaterial
  | .SaveMetadata => .oCSavegameInfo
  | .SkyController => .zCSkyControler_Outdoor
  | .Talent => .oCNpcTalent
  | .VAnimate => .zCVobAnimate
  | .VBed => .oCMobBed
  | .VCameraTrajectoryFrame => .zCCamTrj_KeyFrame
  | .VCodeMaster => .zCCodeMaster
  | .VContainer => .oCMobContainer
  | .VCutsceneCamera => .zCCSCamera
  | .VCutsceneTrigger => .oCCSTrigger
  | .VDoor => .oCMobDoor
  | .VEarthquake => .zCEarthquake
  | .VFire => .oCMobFire
  | .VInteractiveObject => .oCMobInter
  | .VItem => .oCItem
  | .VLadder => .oCMobLadder
  | .VLensFlare => .zCVobLensFlare
  | .VLevel => .zCVobLevelCompo
  | .VLight => .zCVobLight
  | .VMessageFilter => .zCMessageFilter
  | .VMovableObject => .oCMOB
  | .VMover => .zCMover
  | .VMoverController => .zCMoverController
  | .VNpc => .oCNpc
  | .VParticleEffectController => .zCPFXController
  | .VScreenEffect => .zCVobScreenFX
  | .VSound => .zCVobSound
  | .VSoundDaytime => .zCVobSoundDaytime
  | .VSpot => .zCVobSpot
  | .VStair => .zCVobStair
  | .VStartPoint => .zCVobStartpoint
  | .VSwitch => .oCMobSwitch
  | .VTouchDamage => .oCTouchDamage
  | .VTrigger => .zCTrigger
  | .VTriggerChangeLevel => .oCTriggerChangeLevel
  | .VTriggerList => .zCTriggerList
  | .VTriggerScript => .oCTriggerScript
  | .VTriggerUntouch => .zCTriggerUntouch
  | .VTriggerWorldStart => .zCTriggerWorldStart
  | .VWheel => .oCMobWheel
  | .VZoneFarPlane => .zCZoneVobFarPlane
  | .VZoneFarPlaneDefault => .zCZoneVobFarPlaneDefault
  | .VZoneFog => .zCZoneZFog
  | .VZoneFogDefault => .zCZoneZFogDefault
  | .VZoneMusic => .oCZoneMusic
  | .VZoneMusicDefault => .oCZoneMusicDefault
  | .VirtualObject => .zCVob
  | .Visual => .unknown
  | .VisualCamera => .zCAICamera
  | .VisualDecal => .zCDecal
  | .VisualMesh => .zCMesh
  | .VisualModel => .zCModel
  | .VisualMorphMesh => .zCMorphMesh
  | .VisualMultiResolutionMesh => .zCProgMeshProto
  | .VisualParticleEffect => .zCParticleFX
  | .WayNet => .zCWayNet
  | .WayPoint => .zCWaypoint
  | .World => .oCWorld

/-- The object made for each type (`src/Archive.cc:290-507`); none for the default branch. -/
def ObjectType.make : ObjectType → Option ObjClass
  | .oCNpcTalent => some .Talent
  | .zCEventManager => some .EventManager
  | .zCDecal => some .VisualDecal
  | .zCMesh => some .VisualMesh
  | .zCProgMeshProto => some .VisualMultiResolutionMesh
  | .zCParticleFX => some .VisualParticleEffect
  | .zCAICamera => some .VisualCamera
  | .zCModel => some .VisualModel
  | .zCMorphMesh => some .VisualMorphMesh
  | .oCAIHuman => some .AiHuman
  | .oCAIVobMove => some .AiMove
  | .zCSkyControler_Outdoor => some .SkyController
  | .oCCSPlayer => some .CutscenePlayer
  | .zCVobLevelCompo => some .VLevel
  | .zCVobStartpoint => some .VStartPoint
  | .zCVobStair => some .VStair
  | .zCVobSpot => some .VSpot
  | .zCVob => some .VirtualObject
  | .zCVobScreenFX => some .VScreenEffect
  | .zCCSCamera => some .VCutsceneCamera
  | .zCCamTrj_KeyFrame => some .VCameraTrajectoryFrame
  | .zCVobAnimate => some .VAnimate
  | .zCZoneVobFarPlane => some .VZoneFarPlane
  | .zCZoneVobFarPlaneDefault => some .VZoneFarPlaneDefault
  | .zCZoneZFogDefault => some .VZoneFogDefault
  | .zCZoneZFog => some .VZoneFog
  | .zCVobLensFlare => some .VLensFlare
  | .oCItem => some .VItem
  | .zCTrigger => some .VTrigger
  | .oCCSTrigger => some .VCutsceneTrigger
  | .oCMOB => some .VMovableObject
  | .oCMobInter => some .VInteractiveObject
  | .oCMobLadder => some .VLadder
  | .oCMobSwitch => some .VSwitch
  | .oCMobWheel => some .VWheel
  | .oCMobBed => some .VBed
  | .oCMobFire => some .VFire
  | .oCMobContainer => some .VContainer
  | .oCMobDoor => some .VDoor
  | .zCPFXController => some .VParticleEffectController
  | .zCVobLight => some .VLight
  | .zCVobSound => some .VSound
  | .zCVobSoundDaytime => some .VSoundDaytime
  | .oCZoneMusic => some .VZoneMusic
  | .oCZoneMusicDefault => some .VZoneMusicDefault
  | .zCMessageFilter => some .VMessageFilter
  | .zCCodeMaster => some .VCodeMaster
  | .zCTriggerList => some .VTriggerList
  | .oCTriggerScript => some .VTriggerScript
  | .zCMover => some .VMover
  | .oCTriggerChangeLevel => some .VTriggerChangeLevel
  | .zCTriggerWorldStart => some .VTriggerWorldStart
  | .oCTouchDamage => some .VTouchDamage
  | .zCTriggerUntouch => some .VTriggerUntouch
  | .zCEarthquake => some .VEarthquake
  | .zCMoverController => some .VMoverController
  | .oCNpc => some .VNpc
  | .oCWorld => some .World
  | .zCMaterial => some .Material
  | .oCSavegameInfo => some .SaveMetadata
  | .oCCSManager => some .CutsceneManager
  | .zCCSPoolItem => some .CutscenePoolItem
  | .zCCutscene => some .Cutscene
  | .zCCSCutsceneContext => some .CutsceneContext
  | .zCCSBlock => some .CutsceneBlock
  | .zCCSAtomicBlock => some .CutsceneAtomicBlock
  | .zCCSLib => some .CutsceneLibrary
  | .oCMsgConversation => some .ConversationMessageEvent
  | .zCCSProps => some .CutsceneProps
  | .zCWayNet => some .WayNet
  | .zCWaypoint => some .WayPoint
  | _ => none

/-- The class of the object made for a class name (`src/Archive.cc:283-507`). -/
def classFor (name : Bytes) : Option ObjClass :=
  match tableFind objectsTable name with
  | some t => t.make
  | none => ObjectType.unknown.make

/-- `c` is `b` or derived from it. The chain of bases is at most four long. -/
def ObjClass.isBaseOf (b : ObjClass) : Nat → ObjClass → Bool
  | 0, _ => false
  | fuel + 1, c => c == b || (match c.base with | some p => b.isBaseOf fuel p | none => false)

end Verif
