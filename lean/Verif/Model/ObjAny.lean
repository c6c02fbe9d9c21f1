import Verif.Model.ObjNpc
import Verif.Model.ObjCamera
import Verif.Model.ObjGame
import Verif.Model.ObjMisc
import Verif.Model.ObjTrigger
import Verif.Model.ObjLight

/-!
# Objects of any class

The virtual functions `load` and `save` of `Object`, for the classes of `Verif.Model.ObjVob` to `Verif.Model.ObjLight`. Not here:
`WayNet` and `World`.
-/

namespace Verif.Obj

open Verif.Ar

/-- The classes, up to those that add no members and no `load`: `VBed`, `VLadder`, `VSwitch` and `VWheel` are like
`VInteractiveObject`; `VLevel`, `VSpot`, `VStair` and `VStartPoint` like `VirtualObject`; `VCutsceneTrigger` like `VTrigger`; the
default zones like the zones; `Cutscene` like `CutsceneBlock`. `Visual` is all visuals except for decals. -/
inductive Cls where
  | VObj | VAnimate | VItem | VLensFlare | VPfxController | VMessageFilter | VMoverController | VTouchDamage | VEarthquake
  | Talent | VMovable | VInteractive | VDoor | VFire | VZoneMusic | VZoneFarPlane | VZoneFog | VSound | VSoundDaytime
  | VCodeMaster | VContainer | VScreenEffect | VNpc | VTrigger | VTriggerScript | VTriggerChangeLevel | VTriggerWorldStart
  | VTriggerUntouch | VTriggerList | VMover | VFrame | VCamera | Visual | VDecal | EventManager | AiHuman | AiMove
  | SkyController | SaveMetadata | CutscenePoolItem | ConversationMessage | CutsceneProps | AtomicBlock | Block | Context
  | CutscenePlayer | CutsceneManager | Library | VLight | Material
  deriving DecidableEq, Repr

/-- Which class the objects have that are made for an object type in `ReadArchive::read_object` (`src/Archive.cc:284-517`). -/
def clsOf : ObjectType → Option Cls
  | .zCVob | .zCVobLevelCompo | .zCVobStartpoint | .zCVobStair | .zCVobSpot => some .VObj
  | .zCVobAnimate => some .VAnimate
  | .oCItem => some .VItem
  | .zCVobLensFlare => some .VLensFlare
  | .zCPFXController => some .VPfxController
  | .zCMessageFilter => some .VMessageFilter
  | .zCMoverController => some .VMoverController
  | .oCTouchDamage => some .VTouchDamage
  | .zCEarthquake => some .VEarthquake
  | .oCNpcTalent => some .Talent
  | .oCMOB => some .VMovable
  | .oCMobInter | .oCMobLadder | .oCMobSwitch | .oCMobWheel | .oCMobBed => some .VInteractive
  | .oCMobDoor => some .VDoor
  | .oCMobFire => some .VFire
  | .oCZoneMusic | .oCZoneMusicDefault => some .VZoneMusic
  | .zCZoneVobFarPlane | .zCZoneVobFarPlaneDefault => some .VZoneFarPlane
  | .zCZoneZFog | .zCZoneZFogDefault => some .VZoneFog
  | .zCVobSound => some .VSound
  | .zCVobSoundDaytime => some .VSoundDaytime
  | .zCCodeMaster => some .VCodeMaster
  | .oCMobContainer => some .VContainer
  | .zCVobScreenFX => some .VScreenEffect
  | .oCNpc => some .VNpc
  | .zCTrigger | .oCCSTrigger => some .VTrigger
  | .oCTriggerScript => some .VTriggerScript
  | .oCTriggerChangeLevel => some .VTriggerChangeLevel
  | .zCTriggerWorldStart => some .VTriggerWorldStart
  | .zCTriggerUntouch => some .VTriggerUntouch
  | .zCTriggerList => some .VTriggerList
  | .zCMover => some .VMover
  | .zCCamTrj_KeyFrame => some .VFrame
  | .zCCSCamera => some .VCamera
  | .zCMesh | .zCProgMeshProto | .zCParticleFX | .zCAICamera | .zCModel | .zCMorphMesh => some .Visual
  | .zCDecal => some .VDecal
  | .zCEventManager => some .EventManager
  | .oCAIHuman => some .AiHuman
  | .oCAIVobMove => some .AiMove
  | .zCSkyControler_Outdoor => some .SkyController
  | .oCSavegameInfo => some .SaveMetadata
  | .zCCSPoolItem => some .CutscenePoolItem
  | .oCMsgConversation => some .ConversationMessage
  | .zCCSProps => some .CutsceneProps
  | .zCCSAtomicBlock => some .AtomicBlock
  | .zCCSBlock | .zCCutscene => some .Block
  | .zCCSCutsceneContext => some .Context
  | .oCCSPlayer => some .CutscenePlayer
  | .oCCSManager => some .CutsceneManager
  | .zCCSLib => some .Library
  | .zCVobLight => some .VLight
  | .zCMaterial => some .Material
  | _ => none

/-- An object. -/
inductive Any (P : Type) where
  | VObj (x : Obj.VObj P)
  | VAnimate (x : Obj.VAnimate P)
  | VItem (x : Obj.VItem P)
  | VLensFlare (x : Obj.VLensFlare P)
  | VPfxController (x : Obj.VPfxController P)
  | VMessageFilter (x : Obj.VMessageFilter P)
  | VMoverController (x : Obj.VMoverController P)
  | VTouchDamage (x : Obj.VTouchDamage P)
  | VEarthquake (x : Obj.VEarthquake P)
  | Talent (x : Obj.Talent)
  | VMovable (x : Obj.VMovable P)
  | VInteractive (x : Obj.VInteractive P)
  | VDoor (x : Obj.VDoor P)
  | VFire (x : Obj.VFire P)
  | VZoneMusic (x : Obj.VZoneMusic P)
  | VZoneFarPlane (x : Obj.VZoneFarPlane P)
  | VZoneFog (x : Obj.VZoneFog P)
  | VSound (x : Obj.VSound P)
  | VSoundDaytime (x : Obj.VSoundDaytime P)
  | VCodeMaster (x : Obj.VCodeMaster P)
  | VContainer (x : Obj.VContainer P)
  | VScreenEffect (x : Obj.VScreenEffect P)
  | VNpc (x : Obj.VNpc P)
  | VTrigger (x : Obj.VTrigger P)
  | VTriggerScript (x : Obj.VTriggerScript P)
  | VTriggerChangeLevel (x : Obj.VTriggerChangeLevel P)
  | VTriggerWorldStart (x : Obj.VTriggerWorldStart P)
  | VTriggerUntouch (x : Obj.VTriggerUntouch P)
  | VTriggerList (x : Obj.VTriggerList P)
  | VMover (x : Obj.VMover P)
  | VFrame (x : Obj.VFrame P)
  | VCamera (x : Obj.VCamera P)
  | Visual
  | VDecal (x : Obj.VDecal)
  | EventManager (x : Obj.EventManager P)
  | AiHuman (x : Obj.AiHuman P)
  | AiMove (x : Obj.AiMove P)
  | SkyController (x : Obj.SkyController)
  | SaveMetadata (x : Obj.SaveMetadata)
  | CutscenePoolItem (x : Obj.CutscenePoolItem)
  | ConversationMessage (x : Obj.ConversationMessage)
  | CutsceneProps (x : Obj.CutsceneProps)
  | AtomicBlock (x : Obj.AtomicBlock P)
  | Block (x : Obj.Block P)
  | Context (x : Obj.Context P)
  | CutscenePlayer (x : Obj.CutscenePlayer P)
  | CutsceneManager (x : Obj.CutsceneManager P)
  | Library (x : Obj.Library P)
  | VLight (x : Obj.VLight P)
  | Material (x : Obj.Material)
  deriving DecidableEq, Repr

/-- The class of an object. -/
def Any.cls {P} : Any P → Cls
  | .VObj _ => .VObj
  | .VAnimate _ => .VAnimate
  | .VItem _ => .VItem
  | .VLensFlare _ => .VLensFlare
  | .VPfxController _ => .VPfxController
  | .VMessageFilter _ => .VMessageFilter
  | .VMoverController _ => .VMoverController
  | .VTouchDamage _ => .VTouchDamage
  | .VEarthquake _ => .VEarthquake
  | .Talent _ => .Talent
  | .VMovable _ => .VMovable
  | .VInteractive _ => .VInteractive
  | .VDoor _ => .VDoor
  | .VFire _ => .VFire
  | .VZoneMusic _ => .VZoneMusic
  | .VZoneFarPlane _ => .VZoneFarPlane
  | .VZoneFog _ => .VZoneFog
  | .VSound _ => .VSound
  | .VSoundDaytime _ => .VSoundDaytime
  | .VCodeMaster _ => .VCodeMaster
  | .VContainer _ => .VContainer
  | .VScreenEffect _ => .VScreenEffect
  | .VNpc _ => .VNpc
  | .VTrigger _ => .VTrigger
  | .VTriggerScript _ => .VTriggerScript
  | .VTriggerChangeLevel _ => .VTriggerChangeLevel
  | .VTriggerWorldStart _ => .VTriggerWorldStart
  | .VTriggerUntouch _ => .VTriggerUntouch
  | .VTriggerList _ => .VTriggerList
  | .VMover _ => .VMover
  | .VFrame _ => .VFrame
  | .VCamera _ => .VCamera
  | .Visual => .Visual
  | .VDecal _ => .VDecal
  | .EventManager _ => .EventManager
  | .AiHuman _ => .AiHuman
  | .AiMove _ => .AiMove
  | .SkyController _ => .SkyController
  | .SaveMetadata _ => .SaveMetadata
  | .CutscenePoolItem _ => .CutscenePoolItem
  | .ConversationMessage _ => .ConversationMessage
  | .CutsceneProps _ => .CutsceneProps
  | .AtomicBlock _ => .AtomicBlock
  | .Block _ => .Block
  | .Context _ => .Context
  | .CutscenePlayer _ => .CutscenePlayer
  | .CutsceneManager _ => .CutsceneManager
  | .Library _ => .Library
  | .VLight _ => .VLight
  | .Material _ => .Material

/-- The object that `std::make_shared` makes. The default of `Cutscene` is not described: `load` sets all its members. -/
def Cls.blank {P} : Cls → Any P
  | .VObj => .VObj {}
  | .VAnimate => .VAnimate {}
  | .VItem => .VItem {}
  | .VLensFlare => .VLensFlare {}
  | .VPfxController => .VPfxController {}
  | .VMessageFilter => .VMessageFilter {}
  | .VMoverController => .VMoverController {}
  | .VTouchDamage => .VTouchDamage {}
  | .VEarthquake => .VEarthquake {}
  | .Talent => .Talent {}
  | .VMovable => .VMovable {}
  | .VInteractive => .VInteractive {}
  | .VDoor => .VDoor {}
  | .VFire => .VFire {}
  | .VZoneMusic => .VZoneMusic {}
  | .VZoneFarPlane => .VZoneFarPlane {}
  | .VZoneFog => .VZoneFog {}
  | .VSound => .VSound {}
  | .VSoundDaytime => .VSoundDaytime {}
  | .VCodeMaster => .VCodeMaster {}
  | .VContainer => .VContainer {}
  | .VScreenEffect => .VScreenEffect {}
  | .VNpc => .VNpc {}
  | .VTrigger => .VTrigger {}
  | .VTriggerScript => .VTriggerScript {}
  | .VTriggerChangeLevel => .VTriggerChangeLevel {}
  | .VTriggerWorldStart => .VTriggerWorldStart {}
  | .VTriggerUntouch => .VTriggerUntouch {}
  | .VTriggerList => .VTriggerList {}
  | .VMover => .VMover {}
  | .VFrame => .VFrame {}
  | .VCamera => .VCamera {}
  | .Visual => .Visual
  | .VDecal => .VDecal {}
  | .EventManager => .EventManager {}
  | .AiHuman => .AiHuman {}
  | .AiMove => .AiMove {}
  | .SkyController => .SkyController {}
  | .SaveMetadata => .SaveMetadata {}
  | .CutscenePoolItem => .CutscenePoolItem {}
  | .ConversationMessage => .ConversationMessage {}
  | .CutsceneProps => .CutsceneProps {}
  | .AtomicBlock => .AtomicBlock {}
  | .Block => .Block {}
  | .Context => .Context {}
  | .CutscenePlayer => .CutscenePlayer {}
  | .CutsceneManager => .CutsceneManager {}
  | .Library => .Library {}
  | .VLight => .VLight {}
  | .Material => .Material {}

/-- `load`, a virtual function. -/
def Any.load {P} (c : Ctx) (env : Env P) : Any P → Ld P (Any P)
  | .VObj o => (Obj.VObj.load c env o).bind fun x => .ret (.VObj x)
  | .VAnimate o => (Obj.VAnimate.load c env o).bind fun x => .ret (.VAnimate x)
  | .VItem o => (Obj.VItem.load c env o).bind fun x => .ret (.VItem x)
  | .VLensFlare o => (Obj.VLensFlare.load c env o).bind fun x => .ret (.VLensFlare x)
  | .VPfxController o => (Obj.VPfxController.load c env o).bind fun x => .ret (.VPfxController x)
  | .VMessageFilter o => (Obj.VMessageFilter.load c env o).bind fun x => .ret (.VMessageFilter x)
  | .VMoverController o => (Obj.VMoverController.load c env o).bind fun x => .ret (.VMoverController x)
  | .VTouchDamage o => (Obj.VTouchDamage.load c env o).bind fun x => .ret (.VTouchDamage x)
  | .VEarthquake o => (Obj.VEarthquake.load c env o).bind fun x => .ret (.VEarthquake x)
  | .Talent o => (Obj.Talent.load c env o).bind fun x => .ret (.Talent x)
  | .VMovable o => (Obj.VMovable.load c env o).bind fun x => .ret (.VMovable x)
  | .VInteractive o => (Obj.VInteractive.load c env o).bind fun x => .ret (.VInteractive x)
  | .VDoor o => (Obj.VDoor.load c env o).bind fun x => .ret (.VDoor x)
  | .VFire o => (Obj.VFire.load c env o).bind fun x => .ret (.VFire x)
  | .VZoneMusic o => (Obj.VZoneMusic.load c env o).bind fun x => .ret (.VZoneMusic x)
  | .VZoneFarPlane o => (Obj.VZoneFarPlane.load c env o).bind fun x => .ret (.VZoneFarPlane x)
  | .VZoneFog o => (Obj.VZoneFog.load c env o).bind fun x => .ret (.VZoneFog x)
  | .VSound o => (Obj.VSound.load c env o).bind fun x => .ret (.VSound x)
  | .VSoundDaytime o => (Obj.VSoundDaytime.load c env o).bind fun x => .ret (.VSoundDaytime x)
  | .VCodeMaster o => (Obj.VCodeMaster.load c env o).bind fun x => .ret (.VCodeMaster x)
  | .VContainer o => (Obj.VContainer.load c env o).bind fun x => .ret (.VContainer x)
  | .VScreenEffect o => (Obj.VScreenEffect.load c env o).bind fun x => .ret (.VScreenEffect x)
  | .VNpc o => (Obj.VNpc.load c env o).bind fun x => .ret (.VNpc x)
  | .VTrigger o => (Obj.VTrigger.load c env o).bind fun x => .ret (.VTrigger x)
  | .VTriggerScript o => (Obj.VTriggerScript.load c env o).bind fun x => .ret (.VTriggerScript x)
  | .VTriggerChangeLevel o => (Obj.VTriggerChangeLevel.load c env o).bind fun x => .ret (.VTriggerChangeLevel x)
  | .VTriggerWorldStart o => (Obj.VTriggerWorldStart.load c env o).bind fun x => .ret (.VTriggerWorldStart x)
  | .VTriggerUntouch o => (Obj.VTriggerUntouch.load c env o).bind fun x => .ret (.VTriggerUntouch x)
  | .VTriggerList o => (Obj.VTriggerList.load c env o).bind fun x => .ret (.VTriggerList x)
  | .VMover o => (Obj.VMover.load c env o).bind fun x => .ret (.VMover x)
  | .VFrame o => (Obj.VFrame.load c env o).bind fun x => .ret (.VFrame x)
  | .VCamera o => (Obj.VCamera.load c env o).bind fun x => .ret (.VCamera x)
  | .Visual => .ret .Visual
  | .VDecal o => (Obj.VDecal.load c o).bind fun x => .ret (.VDecal x)
  | .EventManager o => (Obj.EventManager.load o).bind fun x => .ret (.EventManager x)
  | .AiHuman o => (Obj.AiHuman.load o).bind fun x => .ret (.AiHuman x)
  | .AiMove o => (Obj.AiMove.load o).bind fun x => .ret (.AiMove x)
  | .SkyController o => (Obj.SkyController.load c env o).bind fun x => .ret (.SkyController x)
  | .SaveMetadata o => (Obj.SaveMetadata.load c env o).bind fun x => .ret (.SaveMetadata x)
  | .CutscenePoolItem o => (Obj.CutscenePoolItem.load c env o).bind fun x => .ret (.CutscenePoolItem x)
  | .ConversationMessage o => (Obj.ConversationMessage.load c env o).bind fun x => .ret (.ConversationMessage x)
  | .CutsceneProps o => (Obj.CutsceneProps.load c env o).bind fun x => .ret (.CutsceneProps x)
  | .AtomicBlock o => (Obj.AtomicBlock.load o).bind fun x => .ret (.AtomicBlock x)
  | .Block o => (Obj.Block.load env o).bind fun x => .ret (.Block x)
  | .Context o => (Obj.Context.load env o).bind fun x => .ret (.Context x)
  | .CutscenePlayer o => (Obj.CutscenePlayer.load o).bind fun x => .ret (.CutscenePlayer x)
  | .CutsceneManager o => (Obj.CutsceneManager.load o).bind fun x => .ret (.CutsceneManager x)
  | .Library o => (Obj.Library.load o).bind fun x => .ret (.Library x)
  | .VLight o => (Obj.VLight.load c env o).bind fun x => .ret (.VLight x)
  | .Material o => (Obj.Material.load c o).bind fun x => .ret (.Material x)

/-- `save`, a virtual function. -/
def Any.save (flag : Nat → Bool) (c : Ctx) : Any Nat → Except Fail (List Field)
  | .VObj x => .ok (x.save c)
  | .VAnimate x => .ok (x.save c)
  | .VItem x => .ok (x.save c)
  | .VLensFlare x => .ok (x.save c)
  | .VPfxController x => .ok (x.save c)
  | .VMessageFilter x => .ok (x.save c)
  | .VMoverController x => .ok (x.save c)
  | .VTouchDamage x => .ok (x.save c)
  | .VEarthquake x => .ok (x.save c)
  | .Talent x => .ok (x.save c)
  | .VMovable x => .ok (x.save c)
  | .VInteractive x => .ok (x.save c)
  | .VDoor x => .ok (x.save c)
  | .VFire x => .ok (x.save c)
  | .VZoneMusic x => .ok (x.save c)
  | .VZoneFarPlane x => .ok (x.save c)
  | .VZoneFog x => .ok (x.save c)
  | .VSound x => .ok (x.save c)
  | .VSoundDaytime x => .ok (x.save c)
  | .VCodeMaster x => .ok (x.save c)
  | .VContainer x => .ok (x.save c)
  | .VScreenEffect x => .ok (x.save c)
  | .VNpc x => x.save flag c
  | .VTrigger x => .ok (x.save c)
  | .VTriggerScript x => .ok (x.save c)
  | .VTriggerChangeLevel x => .ok (x.save c)
  | .VTriggerWorldStart x => .ok (x.save c)
  | .VTriggerUntouch x => .ok (x.save c)
  | .VTriggerList x => .ok (x.save c)
  | .VMover x => .ok (x.save c)
  | .VFrame x => .ok (x.save c)
  | .VCamera x => x.save c
  | .Visual => .ok []
  | .VDecal x => .ok (x.save c)
  | .EventManager x => .ok x.save
  | .AiHuman x => .ok x.save
  | .AiMove x => .ok x.save
  | .SkyController x => .ok (x.save c)
  | .SaveMetadata x => .ok (x.save c)
  | .CutscenePoolItem x => .ok (x.save c)
  | .ConversationMessage x => .ok (x.save c)
  | .CutsceneProps x => .ok (x.save c)
  | .AtomicBlock x => .ok x.save
  | .Block x => .ok x.save
  | .Context x => .ok x.save
  | .CutscenePlayer x => .ok x.save
  | .CutsceneManager x => .ok x.save
  | .Library x => .ok x.save
  | .VLight x => .ok (x.save c)
  | .Material x => .ok (x.save c)

/-- An object in memory: what its `get_object_type` and `get_version_identifier` return, and its members. -/
structure Node where
  type : ObjectType
  version : BitVec 16
  obj : Any Nat
  deriving DecidableEq, Repr

/-- The calls of `load` of an object that is made for a type, depending on what it reads: what `Verif.Ar.readPtr` needs. The answers
about types do not matter for it, except that there is no exception. -/
def schema (c : Ctx) : Schema := fun t =>
  match clsOf t with
  | some k => (k.blank.load c ⟨fun _ _ => true, fun _ => true, fun _ => none, fun _ => false, ()⟩).want
  | none => fun _ => none

end Verif.Obj
