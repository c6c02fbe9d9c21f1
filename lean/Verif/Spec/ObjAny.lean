import Verif.Spec.ObjCopy
import Verif.Spec.ObjLight
import Verif.Model.ObjAny
import Verif.Spec.ArchiveGraph

/-! # Copies of objects of any class -/

namespace Verif.Obj

open Verif.Ar

/-- The object that is made and loaded from what was saved for `x`. -/
def Any.copy {P} (c : Ctx) (env : Env P) (φ : Nat → P) : Any Nat → Any P
  | .VObj x => .VObj (VObj.stored c env φ {} x)
  | .VAnimate x => .VAnimate (x.copy c env φ (VObj.stored c env φ {} x.base) {})
  | .VItem x => .VItem (x.copy c env φ (VObj.stored c env φ {} x.base) {})
  | .VLensFlare x => .VLensFlare (x.copy c env φ (VObj.stored c env φ {} x.base) {})
  | .VPfxController x => .VPfxController (x.copy c env φ (VObj.stored c env φ {} x.base) {})
  | .VMessageFilter x => .VMessageFilter (x.copy c env φ (VObj.stored c env φ {} x.base) {})
  | .VMoverController x => .VMoverController (x.copy c env φ (VObj.stored c env φ {} x.base) {})
  | .VTouchDamage x => .VTouchDamage (x.copy c env φ (VObj.stored c env φ {} x.base) {})
  | .VEarthquake x => .VEarthquake (x.copy c env φ (VObj.stored c env φ {} x.base) {})
  | .Talent x => .Talent (x.copy c env φ {})
  | .VMovable x => .VMovable (x.copy c env φ (VObj.stored c env φ {} x.base) {})
  | .VInteractive x => .VInteractive (x.copy c env φ (VObj.stored c env φ {} x.base.base) {})
  | .VDoor x => .VDoor (x.copy c env φ (VObj.stored c env φ {} x.base.base.base) {})
  | .VFire x => .VFire (x.copy c env φ (VObj.stored c env φ {} x.base.base.base) {})
  | .VZoneMusic x => .VZoneMusic (x.copy c env φ (VObj.stored c env φ {} x.base) {})
  | .VZoneFarPlane x => .VZoneFarPlane (x.copy c env φ (VObj.stored c env φ {} x.base) {})
  | .VZoneFog x => .VZoneFog (x.copy c env φ (VObj.stored c env φ {} x.base) {})
  | .VSound x => .VSound (x.copy c env φ (VObj.stored c env φ {} x.base) {})
  | .VSoundDaytime x => .VSoundDaytime (x.copy c env φ (VObj.stored c env φ {} x.base.base) {})
  | .VCodeMaster x => .VCodeMaster (x.copy (VObj.stored c env φ {} x.base) {})
  | .VContainer x => .VContainer (x.copy c env φ (VObj.stored c env φ {} x.base.base.base) {})
  | .VScreenEffect x => .VScreenEffect ⟨(VObj.stored c env φ {} x.base)⟩
  | .VNpc x => .VNpc (x.copy c env φ (VObj.stored c env φ {} x.base) {})
  | .VTrigger x => .VTrigger (x.copy c env φ (VObj.stored c env φ {} x.base) {})
  | .VTriggerScript x => .VTriggerScript (x.copy c env φ (VObj.stored c env φ {} x.base.base) {})
  | .VTriggerChangeLevel x => .VTriggerChangeLevel (x.copy c env φ (VObj.stored c env φ {} x.base.base) {})
  | .VTriggerWorldStart x => .VTriggerWorldStart (x.copy c env φ (VObj.stored c env φ {} x.base) {})
  | .VTriggerUntouch x => .VTriggerUntouch (x.copy c env φ (VObj.stored c env φ {} x.base) {})
  | .VTriggerList x => .VTriggerList (x.copy c env φ (VObj.stored c env φ {} x.base.base) {})
  | .VMover x => .VMover (x.copy c env φ (VObj.stored c env φ {} x.base.base) {})
  | .VFrame x => .VFrame (x.copy (VObj.stored c env φ {} x.base))
  | .VCamera x => .VCamera (x.copy c φ (VObj.stored c env φ {} x.base) {})
  | .Visual => .Visual
  | .VDecal x => .VDecal (x.copy c {})
  | .EventManager x => .EventManager (x.copy φ)
  | .AiHuman x => .AiHuman (x.copy φ)
  | .AiMove x => .AiMove (x.copy φ)
  | .SkyController x => .SkyController (x.copy c env φ {})
  | .SaveMetadata x => .SaveMetadata (x.copy c env φ {})
  | .CutscenePoolItem x => .CutscenePoolItem (x.copy c env φ {})
  | .ConversationMessage x => .ConversationMessage (x.copy c env φ {})
  | .CutsceneProps x => .CutsceneProps (x.copy c env φ {})
  | .AtomicBlock x => .AtomicBlock (x.copy φ {})
  | .Block x => .Block (x.copy env φ)
  | .Context x => .Context (x.copy env φ)
  | .CutscenePlayer x => .CutscenePlayer (x.copy φ {})
  | .CutsceneManager x => .CutsceneManager (x.copy φ {})
  | .Library x => .Library (x.copy φ {})
  | .VLight x =>
    .VLight ⟨VObj.stored c env φ {} x.base, x.light.copy c (x.light.rangeScale.map fun v => grey (whole v))⟩
  | .Material x => .Material (x.copy c x.alphaFunc)

/-- The objects whose saved form can be read. -/
def Any.Readable {P} (c : Ctx) (env : Env P) (φ : Nat → P) (flag : Nat → Bool) : Any Nat → Prop
  | .VObj x => VObj.Readable c env φ x
  | .VAnimate x => VObj.Readable c env φ x.base
  | .VItem x => VObj.Readable c env φ x.base
  | .VLensFlare x => VObj.Readable c env φ x.base
  | .VPfxController x => VObj.Readable c env φ x.base
  | .VMessageFilter x => VObj.Readable c env φ x.base
  | .VMoverController x => VObj.Readable c env φ x.base
  | .VTouchDamage x => VObj.Readable c env φ x.base
  | .VEarthquake x => VObj.Readable c env φ x.base
  | .Talent _ => True
  | .VMovable x => VObj.Readable c env φ x.base
  | .VInteractive x => VObj.Readable c env φ x.base.base
  | .VDoor x => VObj.Readable c env φ x.base.base.base
  | .VFire x => VObj.Readable c env φ x.base.base.base
  | .VZoneMusic x => VObj.Readable c env φ x.base
  | .VZoneFarPlane x => VObj.Readable c env φ x.base
  | .VZoneFog x => VObj.Readable c env φ x.base
  | .VSound x => VObj.Readable c env φ x.base
  | .VSoundDaytime x => VObj.Readable c env φ x.base.base
  | .VCodeMaster x => VObj.Readable c env φ x.base ∧ x.slaves.length < 256 ∧ (c.save && c.g2) = false
  | .VContainer x =>
    VObj.Readable c env φ x.base.base.base ∧ Fits31 x.items ∧ (c.save = true → ∀ p ∈ x.items, Typed env φ .oCItem p)
  | .VScreenEffect x => VObj.Readable c env φ x.base
  | .VNpc x => VObj.Readable c env φ x.base ∧ x.Readable c env φ flag
  | .VTrigger x => VObj.Readable c env φ x.base
  | .VTriggerScript x => VObj.Readable c env φ x.base.base
  | .VTriggerChangeLevel x => VObj.Readable c env φ x.base.base
  | .VTriggerWorldStart x => VObj.Readable c env φ x.base
  | .VTriggerUntouch x => VObj.Readable c env φ x.base
  | .VTriggerList x => VObj.Readable c env φ x.base.base ∧ x.targets.length < 256
  | .VMover x => VObj.Readable c env φ x.base.base ∧ x.keyframes.length < 65536
  | .VFrame x => VObj.Readable c env φ x.base
  | .VCamera x => VObj.Readable c env φ x.base ∧ (∀ p ∈ x.trajectoryFrames, Typed env φ .zCCamTrj_KeyFrame p) ∧
      ∀ p ∈ x.targetFrames, Typed env φ .zCCamTrj_KeyFrame p
  | .Visual => True
  | .VDecal _ => True
  | .EventManager x => Typed env φ .zCCSCutsceneContext x.cutscene
  | .AiHuman x => Typed env φ .oCNpc x.npc
  | .AiMove x => Typed env φ .oCNpc x.owner
  | .SkyController _ => True
  | .SaveMetadata _ => True
  | .CutscenePoolItem _ => True
  | .ConversationMessage _ => True
  | .CutsceneProps _ => True
  | .AtomicBlock x => Typed env φ .oCMsgConversation x.message
  | .Block x => x.Readable env φ
  | .Context x =>
    x.base.Readable env φ ∧ Typed env φ .zCCSProps x.props ∧ Typed env φ .oCNpc x.npc ∧ Typed env φ .oCNpc x.mainRole
  | .CutscenePlayer x => Fits31 x.playlists ∧ ∀ p ∈ x.playlists, Typed env φ .zCCSCutsceneContext p
  | .CutsceneManager x => Fits31 x.poolItems ∧ ∀ p ∈ x.poolItems, Typed env φ .zCCSPoolItem p
  | .Library x => Fits31 x.blocks ∧ ∀ p ∈ x.blocks, Typed env φ .zCCSBlock p
  | .VLight x => VObj.Readable c env φ x.base ∧ x.light.Readable
  | .Material x => c.game = .g1 ∧ x.Finite

/-! ### Graphs of objects -/

/-- The objects in memory, by address. -/
abbrev Heap := Nat → Option Node

/-- Which objects are items with `s_flags & 0x200` (`src/vobs/Misc.cc:541`). -/
def Heap.flag (T : Heap) (a : Nat) : Bool :=
  match T a with
  | some ⟨_, _, .VItem x⟩ => x.flags.getLsbD 9
  | _ => false

/-- What can be asked about the objects in memory. -/
def Heap.env (T : Heap) : Env Nat where
  is t a := match T a with
    | some n => n.type = t
    | none => false
  vob a := match T a with
    | some n => n.type.isVobject
    | none => false
  visual a := match T a with
    | some n => visualType n.type
    | none => none
  flag := T.flag
  dflt := 0

/-- What `save` writes for the objects. -/
def Heap.Saves (c : Ctx) (T : Heap) (H : GHeap) : Prop :=
  ∀ a, (T a = none ∧ H a = none) ∨
    ∃ n fs, T a = some n ∧ n.obj.save T.flag c = .ok fs ∧ H a = some ⟨n.type, n.version, fs⟩

/-- What can be asked about the objects that the reader has made; a number that is none of them is `DEFAULT_VISUAL`. -/
def readEnv (heap : List (ObjectType × List Got)) : Env Nat :=
  Env.of (fun n => match heap[n]? with
    | some (t, _) => t
    | none => .unknown) (fun _ => false) heap.length

/-- What a call has given to `load`. -/
def Got.item : Got → Item Nat
  | .val v => .val v
  | .ptr p => .ptr p

/-- Every object has been loaded: its copy was made with the same type, and `load`, which got what is in `heap`, has left in its
members the copy of the object. -/
def Restored (c : Ctx) (T : Heap) (heap : List (ObjectType × List Got)) (φ : Nat → Nat) : Prop :=
  ∀ a n, T a = some n → ∃ k gs, heap[φ a]? = some (n.type, gs) ∧ clsOf n.type = some k ∧
    (k.blank.load c (readEnv heap)).run (readEnv heap) (gs.map Got.item) = .ok (n.obj.copy c (readEnv heap) φ, [])

/-- A finite graph of readable objects that are all saved, and names and strings that suit the format. No item has the flag 0x200. -/
structure Heap.Ok (c : Ctx) (T : Heap) (H : GHeap) (roots : List Field) (dom : List Nat) (pv : Bytes → Val → Prop)
    (po : Bytes → Bytes → BitVec 16 → BitVec 32 → Prop) : Prop where
  saves : T.Saves c H
  finite : ∀ a n, T a = some n → a ∈ dom
  small : dom.length ≤ 2 ^ 32
  all : ∀ a n, T a = some n → Reach H roots a
  rootsIn : ∀ n a, Field.ptr n (some a) ∈ roots → (T a).isSome
  closed : ∀ a o, H a = some o → ∀ n b, Field.ptr n (some b) ∈ o.fields → (T b).isSome
  types : ∀ a n, T a = some n → clsOf n.type = some n.obj.cls
  readable : ∀ a n, T a = some n → n.obj.Readable c T.env id T.flag
  flags : ∀ a, T.flag a = false
  rootsOk : ∀ f ∈ roots, f.Ok pv po
  fieldsOk : ∀ a o, H a = some o → ∀ f ∈ o.fields, f.Ok pv po

end Verif.Obj
