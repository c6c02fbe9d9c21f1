import Verif.Model.ObjRead
import Verif.Lemmas.Safe

/-!
# Programs that do nothing undefined

A program is mild when, whatever it reads, it returns or throws.
-/

namespace Verif.Obj

open Verif.Ar

/-- A value that a call for a kind may give: a block of raw bytes may be longer than asked for. -/
def Fits : Kind → Val → Prop
  | .raw n, .raw v => n ≤ v.length ∧ v.length < 2 ^ 32
  | k, v => v.kind = k

/-- A call that asks for less than 4 GiB. -/
def Small : Kind → Prop
  | .raw n => n < 2 ^ 32
  | _ => True

/-- Whatever the calls give, the program returns or throws. -/
inductive Ld.Mild {α} : Ld Nat α → Prop where
  | ret (a : α) : Mild (.ret a)
  | throw (e : Exc) : Mild (.fail (.throw e))
  | val {k f} (hk : Small k) (h : ∀ v, Fits k v → Mild (f v)) : Mild (.val k f)
  | ptr {f} (h : ∀ p, Mild (f p)) : Mild (.ptr f)
  | ptrAs {t f} (h : ∀ p, Mild (f p)) : Mild (.ptrAs t f)
  | skip {p} (h : Mild p) : Mild (.skip p)

namespace Ld.Mild

theorem bind' {α β} {p : Ld Nat α} {g : α → Ld Nat β} (hp : p.Mild) (hg : ∀ a, (g a).Mild) : (p.bind g).Mild := by
  induction hp with
  | ret a => exact hg a
  | throw e => exact .throw e
  | val hk _ ih => exact .val hk fun v hv => ih v hv
  | ptr _ ih => exact .ptr ih
  | ptrAs _ ih => exact .ptrAs ih
  | skip _ ih => exact .skip ih

theorem bind {α β} {p : Ld Nat α} {g : α → Ld Nat β} (hp : p.Mild) (hg : ∀ a, (g a).Mild) : (p >>= g).Mild := bind' hp hg

theorem pure {α} (a : α) : (Pure.pure a : Ld Nat α).Mild := .ret a

theorem str : Ld.Mild Ld.str := .val trivial fun v h => by cases v <;> first | exact .ret _ | cases h
theorem int : Ld.Mild Ld.int := .val trivial fun v h => by cases v <;> first | exact .ret _ | cases h
theorem float : Ld.Mild Ld.float := .val trivial fun v h => by cases v <;> first | exact .ret _ | cases h
theorem byte : Ld.Mild Ld.byte := .val trivial fun v h => by cases v <;> first | exact .ret _ | cases h
theorem word : Ld.Mild Ld.word := .val trivial fun v h => by cases v <;> first | exact .ret _ | cases h
theorem enum : Ld.Mild Ld.enum := .val trivial fun v h => by cases v <;> first | exact .ret _ | cases h
theorem bool : Ld.Mild Ld.bool := .val trivial fun v h => by cases v <;> first | exact .ret _ | cases h
theorem color : Ld.Mild Ld.color := .val trivial fun v h => by cases v <;> first | exact .ret _ | cases h
theorem vec3 : Ld.Mild Ld.vec3 := .val trivial fun v h => by cases v <;> first | exact .ret _ | cases h
theorem vec2 : Ld.Mild Ld.vec2 := .val trivial fun v h => by cases v <;> first | exact .ret _ | cases h
theorem bbox : Ld.Mild Ld.bbox := .val trivial fun v h => by cases v <;> first | exact .ret _ | cases h
theorem mat3 : Ld.Mild Ld.mat3 := .val trivial fun v h => by cases v <;> first | exact .ret _ | cases h
theorem obj : Ld.Mild Ld.obj := .ptr fun _ => .ret _
theorem objAs (t : ObjectType) : Ld.Mild (Ld.objAs t) := .ptrAs fun _ => .ret _
theorem skipNext : Ld.Mild Ld.skipNext := .skip (.ret _)
theorem objVob (env : Env Nat) : Ld.Mild (Ld.objVob env) := .ptr fun _ => .ret _

theorem raw {α} {n : Nat} {p : Rd α} (hn : n < 2 ^ 32) (h : Safe (.all True) p) : Ld.Mild (Ld.raw n p) := .val hn fun v hv => by
  cases v with
  | raw v =>
    dsimp only
    rcases h v 0 ⟨hv.2, trivial⟩ (Nat.zero_le _) with ⟨a, pos, e, _⟩ | ⟨_, e, he⟩
    · rw [e]; exact .ret _
    · rw [he]; exact .throw _
  | _ => cases hv

theorem opt {α} (b : Bool) (old : α) {p : Ld Nat α} (h : p.Mild) : (Ld.opt b old p).Mild := by
  unfold Ld.opt
  split
  · exact h
  · exact .ret _

theorem times {α} (n : Nat) {p : Ld Nat α} (h : p.Mild) : (Ld.times n p).Mild := by
  induction n with
  | zero => exact .ret _
  | succ n ih => exact h.bind' fun _ => ih.bind' fun _ => .ret _

theorem sized {α} (n : BitVec 32) {p : Ld Nat α} (h : p.Mild) : (Ld.sized n p).Mild := by
  unfold Ld.sized
  split
  · exact .throw _
  · exact times _ h

end Ld.Mild

/-- Goes through a program call by call. -/
macro "mild" : tactic => `(tactic| repeat' (first
    | exact Ld.Mild.str | exact Ld.Mild.int | exact Ld.Mild.float | exact Ld.Mild.byte | exact Ld.Mild.word | exact Ld.Mild.enum
    | exact Ld.Mild.bool | exact Ld.Mild.color | exact Ld.Mild.vec3 | exact Ld.Mild.vec2 | exact Ld.Mild.bbox | exact Ld.Mild.mat3
    | exact Ld.Mild.obj | exact Ld.Mild.objAs _ | exact Ld.Mild.objVob _ | exact Ld.Mild.pure _ | exact Ld.Mild.ret _
    | exact Ld.Mild.throw _ | exact Ld.Mild.skipNext
    | exact Safe.pure _ | exact Fwd.u8.safe | exact Fwd.mat4.safe
    | (show _ < 2 ^ 32; decide) | (show ite _ _ _ < 2 ^ 32; split <;> decide) | apply_assumption
    | refine Ld.Mild.raw ?_ ?_
    | refine Ld.Mild.opt _ _ ?_ | refine Ld.Mild.times _ ?_ | refine Ld.Mild.sized _ ?_
    | refine Ld.Mild.bind ?_ (fun _ => ?_) | refine Ld.Mild.bind' ?_ (fun _ => ?_) | split))

variable {c : Ctx} {env : Env Nat}

theorem RigidBody.mild : Ld.Mild (RigidBody.load (P := Nat)) := by unfold RigidBody.load; mild

theorem fwd_mat3 {T} : Fwd T Rd.mat3 := (Fwd.padded _).bind fun _ => .pure _

theorem VObj.readRaw_safe (c : Ctx) (o : VObj Nat) : Safe (.all True) (VObj.readRaw c o) := by
  refine (Fwd.aabb.bind fun _ => Fwd.vec3.bind fun _ => fwd_mat3.bind fun _ => Fwd.u8.bind fun _ => Fwd.bind ?_ fun _ =>
    Fwd.bind ?_ fun _ => Fwd.bind ?_ fun _ => .pure _ : Fwd (.all True) _).safe
  · split
    · exact Fwd.u16
    · exact Fwd.u8.bind fun _ => .pure _
  · split
    · exact Fwd.f32
    · exact .pure _
  · split
    · exact Fwd.f32
    · exact .pure _

theorem Sample.fwd : Fwd (.all True) Sample.load :=
  Fwd.vec3.bind fun _ => Fwd.f32.bind fun _ => Fwd.f32.bind fun _ => Fwd.f32.bind fun _ => Fwd.f32.bind fun _ => .pure _

theorem VObj.mild_packed (o : VObj Nat) : (VObj.loadPacked c o).Mild := by
  have h := VObj.readRaw_safe c o
  unfold VObj.loadPacked; mild

theorem VObj.mild_unpacked (o : VObj Nat) : (VObj.loadUnpacked c o).Mild := by
  unfold VObj.loadUnpacked; mild

theorem VObj.mild (o : VObj Nat) : (VObj.load c env o).Mild := by
  have h1 := VObj.mild_packed (c := c) o
  have h2 := VObj.mild_unpacked (c := c) o
  have h3 := RigidBody.mild
  unfold VObj.load; mild

theorem VAnimate.mild (o : VAnimate Nat) : (VAnimate.load c env o).Mild := by
  have hb := VObj.mild (c := c) (env := env) o.base
  unfold VAnimate.load; mild

theorem VItem.mild (o : VItem Nat) : (VItem.load c env o).Mild := by
  have hb := VObj.mild (c := c) (env := env) o.base
  unfold VItem.load; mild

theorem VLensFlare.mild (o : VLensFlare Nat) : (VLensFlare.load c env o).Mild := by
  have hb := VObj.mild (c := c) (env := env) o.base
  unfold VLensFlare.load; mild

theorem VPfxController.mild (o : VPfxController Nat) : (VPfxController.load c env o).Mild := by
  have hb := VObj.mild (c := c) (env := env) o.base
  unfold VPfxController.load; mild

theorem VMessageFilter.mild (o : VMessageFilter Nat) : (VMessageFilter.load c env o).Mild := by
  have hb := VObj.mild (c := c) (env := env) o.base
  unfold VMessageFilter.load; mild

theorem VMoverController.mild (o : VMoverController Nat) : (VMoverController.load c env o).Mild := by
  have hb := VObj.mild (c := c) (env := env) o.base
  unfold VMoverController.load; mild

theorem VTouchDamage.mild (o : VTouchDamage Nat) : (VTouchDamage.load c env o).Mild := by
  have hb := VObj.mild (c := c) (env := env) o.base
  unfold VTouchDamage.load; mild

theorem VEarthquake.mild (o : VEarthquake Nat) : (VEarthquake.load c env o).Mild := by
  have hb := VObj.mild (c := c) (env := env) o.base
  unfold VEarthquake.load; mild

theorem VMovable.mild (o : VMovable Nat) : (VMovable.load c env o).Mild := by
  have hb := VObj.mild (c := c) (env := env) o.base
  unfold VMovable.load; mild

theorem VInteractive.mild (o : VInteractive Nat) : (VInteractive.load c env o).Mild := by
  have hb := VMovable.mild (c := c) (env := env) o.base
  unfold VInteractive.load; mild

theorem VDoor.mild (o : VDoor Nat) : (VDoor.load c env o).Mild := by
  have hb := VInteractive.mild (c := c) (env := env) o.base
  unfold VDoor.load; mild

theorem VFire.mild (o : VFire Nat) : (VFire.load c env o).Mild := by
  have hb := VInteractive.mild (c := c) (env := env) o.base
  unfold VFire.load; mild

theorem VZoneMusic.mild (o : VZoneMusic Nat) : (VZoneMusic.load c env o).Mild := by
  have hb := VObj.mild (c := c) (env := env) o.base
  unfold VZoneMusic.load; mild

theorem VZoneFarPlane.mild (o : VZoneFarPlane Nat) : (VZoneFarPlane.load c env o).Mild := by
  have hb := VObj.mild (c := c) (env := env) o.base
  unfold VZoneFarPlane.load; mild

theorem VZoneFog.mild (o : VZoneFog Nat) : (VZoneFog.load c env o).Mild := by
  have hb := VObj.mild (c := c) (env := env) o.base
  unfold VZoneFog.load; mild

theorem VSound.mild (o : VSound Nat) : (VSound.load c env o).Mild := by
  have hb := VObj.mild (c := c) (env := env) o.base
  unfold VSound.load; mild

theorem VSoundDaytime.mild (o : VSoundDaytime Nat) : (VSoundDaytime.load c env o).Mild := by
  have hb := VSound.mild (c := c) (env := env) o.base
  unfold VSoundDaytime.load; mild

theorem VContainer.mild (o : VContainer Nat) : (VContainer.load c env o).Mild := by
  have hb := VInteractive.mild (c := c) (env := env) o.base
  unfold VContainer.load; mild

theorem VScreenEffect.mild (o : VScreenEffect Nat) : (VScreenEffect.load c env o).Mild := by
  have hb := VObj.mild (c := c) (env := env) o.base
  unfold VScreenEffect.load; mild

theorem VTrigger.mild (o : VTrigger Nat) : (VTrigger.load c env o).Mild := by
  have hb := VObj.mild (c := c) (env := env) o.base
  unfold VTrigger.load; mild

theorem VTriggerScript.mild (o : VTriggerScript Nat) : (VTriggerScript.load c env o).Mild := by
  have hb := VTrigger.mild (c := c) (env := env) o.base
  unfold VTriggerScript.load; mild

theorem VTriggerChangeLevel.mild (o : VTriggerChangeLevel Nat) : (VTriggerChangeLevel.load c env o).Mild := by
  have hb := VTrigger.mild (c := c) (env := env) o.base
  unfold VTriggerChangeLevel.load; mild

theorem VTriggerWorldStart.mild (o : VTriggerWorldStart Nat) : (VTriggerWorldStart.load c env o).Mild := by
  have hb := VObj.mild (c := c) (env := env) o.base
  unfold VTriggerWorldStart.load; mild

theorem VTriggerUntouch.mild (o : VTriggerUntouch Nat) : (VTriggerUntouch.load c env o).Mild := by
  have hb := VObj.mild (c := c) (env := env) o.base
  unfold VTriggerUntouch.load; mild

theorem VCodeMaster.mild (o : VCodeMaster Nat) : (VCodeMaster.load c env o).Mild := by
  have hb := VObj.mild (c := c) (env := env) o.base
  unfold VCodeMaster.load; mild

theorem VTriggerList.mild (o : VTriggerList Nat) : (VTriggerList.load c env o).Mild := by
  have hb := VTrigger.mild (c := c) (env := env) o.base
  unfold VTriggerList.load; mild

theorem VMover.mild (o : VMover Nat) : (VMover.load c env o).Mild := by
  have hb := VTrigger.mild (c := c) (env := env) o.base
  have hk : ∀ x : BitVec 16, x.toNat * 28 < 2 ^ 32 := fun x => by have := x.isLt; omega
  have hs : ∀ n, Safe (.all True) (Rd.times Sample.load n) := fun n => (Sample.fwd.times n).safe
  unfold VMover.load; mild

theorem VFrame.mild (o : VFrame Nat) : (VFrame.load c env o).Mild := by
  have hb := VObj.mild (c := c) (env := env) o.base
  unfold VFrame.load; mild

theorem VCamera.mild (o : VCamera Nat) : (VCamera.load c env o).Mild := by
  have hb := VObj.mild (c := c) (env := env) o.base
  unfold VCamera.load; mild

theorem Talent.mild (o : Talent) : (Talent.load c env o).Mild := by
  unfold Talent.load; mild

theorem VDecal.mild (o : VDecal) : (VDecal.load (P := Nat) c o).Mild := by
  unfold VDecal.load; mild

theorem EventManager.mild (o : EventManager Nat) : (EventManager.load o).Mild := by
  unfold EventManager.load; mild

theorem AiHuman.mild (o : AiHuman Nat) : (AiHuman.load o).Mild := by
  unfold AiHuman.load; mild

theorem AiMove.mild (o : AiMove Nat) : (AiMove.load o).Mild := by
  unfold AiMove.load; mild

theorem AtomicBlock.mild (o : AtomicBlock Nat) : (AtomicBlock.load o).Mild := by
  unfold AtomicBlock.load; mild

theorem CutscenePlayer.mild (o : CutscenePlayer Nat) : (CutscenePlayer.load o).Mild := by
  unfold CutscenePlayer.load; mild

theorem CutsceneManager.mild (o : CutsceneManager Nat) : (CutsceneManager.load o).Mild := by
  unfold CutsceneManager.load; mild

theorem SkyController.mild (o : SkyController) : (SkyController.load c env o).Mild := by
  unfold SkyController.load; mild

theorem SaveMetadata.mild (o : SaveMetadata) : (SaveMetadata.load c env o).Mild := by
  unfold SaveMetadata.load; mild

theorem CutscenePoolItem.mild (o : CutscenePoolItem) : (CutscenePoolItem.load c env o).Mild := by
  unfold CutscenePoolItem.load; mild

theorem ConversationMessage.mild (o : ConversationMessage) : (ConversationMessage.load c env o).Mild := by
  unfold ConversationMessage.load; mild

theorem CutsceneProps.mild (o : CutsceneProps) : (CutsceneProps.load c env o).Mild := by
  unfold CutsceneProps.load; mild

theorem Material.mild (o : Material) : (Material.load (P := Nat) c o).Mild := by
  unfold Material.load; mild

theorem wayPoint_mild : wayPointLoad.Mild := by unfold wayPointLoad; mild

/-- The types whose `load` may do something undefined, or is not described by `loadFor`. -/
def touchy (t : ObjectType) : Bool :=
  match clsOf t with
  | some k => k ∈ [Cls.Block, .Context, .Library, .VNpc, .VLight]
  | none => t ≠ .zCWaypoint

theorem loadFor_mild (t : ObjectType) (h : touchy t = false) : (loadFor c env t).Mild := by
  unfold loadFor
  unfold touchy at h
  split
  · rename_i k hk
    rw [hk] at h
    refine Ld.Mild.bind' ?_ fun _ => .ret _
    cases k with
    | Block | Context | Library | VNpc | VLight => simp at h
    | Visual => exact .ret _
    | VObj => exact (VObj.mild _).bind' fun _ => .ret _
    | VAnimate => exact (VAnimate.mild _).bind' fun _ => .ret _
    | VItem => exact (VItem.mild _).bind' fun _ => .ret _
    | VLensFlare => exact (VLensFlare.mild _).bind' fun _ => .ret _
    | VPfxController => exact (VPfxController.mild _).bind' fun _ => .ret _
    | VMessageFilter => exact (VMessageFilter.mild _).bind' fun _ => .ret _
    | VMoverController => exact (VMoverController.mild _).bind' fun _ => .ret _
    | VTouchDamage => exact (VTouchDamage.mild _).bind' fun _ => .ret _
    | VEarthquake => exact (VEarthquake.mild _).bind' fun _ => .ret _
    | Talent => exact (Talent.mild (c := c) (env := env) {}).bind' fun _ => .ret _
    | VMovable => exact (VMovable.mild _).bind' fun _ => .ret _
    | VInteractive => exact (VInteractive.mild _).bind' fun _ => .ret _
    | VDoor => exact (VDoor.mild _).bind' fun _ => .ret _
    | VFire => exact (VFire.mild _).bind' fun _ => .ret _
    | VZoneMusic => exact (VZoneMusic.mild _).bind' fun _ => .ret _
    | VZoneFarPlane => exact (VZoneFarPlane.mild _).bind' fun _ => .ret _
    | VZoneFog => exact (VZoneFog.mild _).bind' fun _ => .ret _
    | VSound => exact (VSound.mild _).bind' fun _ => .ret _
    | VSoundDaytime => exact (VSoundDaytime.mild _).bind' fun _ => .ret _
    | VContainer => exact (VContainer.mild _).bind' fun _ => .ret _
    | VScreenEffect => exact (VScreenEffect.mild _).bind' fun _ => .ret _
    | VTrigger => exact (VTrigger.mild _).bind' fun _ => .ret _
    | VTriggerScript => exact (VTriggerScript.mild _).bind' fun _ => .ret _
    | VTriggerChangeLevel => exact (VTriggerChangeLevel.mild _).bind' fun _ => .ret _
    | VTriggerWorldStart => exact (VTriggerWorldStart.mild _).bind' fun _ => .ret _
    | VTriggerUntouch => exact (VTriggerUntouch.mild _).bind' fun _ => .ret _
    | VTriggerList => exact (VTriggerList.mild _).bind' fun _ => .ret _
    | VCodeMaster => exact (VCodeMaster.mild _).bind' fun _ => .ret _
    | VMover => exact (VMover.mild _).bind' fun _ => .ret _
    | VFrame => exact (VFrame.mild _).bind' fun _ => .ret _
    | VCamera => exact (VCamera.mild _).bind' fun _ => .ret _
    | VDecal => exact (VDecal.mild _).bind' fun _ => .ret _
    | EventManager => exact (EventManager.mild {}).bind' fun _ => .ret _
    | AiHuman => exact (AiHuman.mild {}).bind' fun _ => .ret _
    | AiMove => exact (AiMove.mild {}).bind' fun _ => .ret _
    | SkyController => exact (SkyController.mild (c := c) (env := env) _).bind' fun _ => .ret _
    | SaveMetadata => exact (SaveMetadata.mild (c := c) (env := env) _).bind' fun _ => .ret _
    | CutscenePoolItem => exact (CutscenePoolItem.mild (c := c) (env := env) {}).bind' fun _ => .ret _
    | ConversationMessage => exact (ConversationMessage.mild (c := c) (env := env) _).bind' fun _ => .ret _
    | CutsceneProps => exact (CutsceneProps.mild (c := c) (env := env) {}).bind' fun _ => .ret _
    | AtomicBlock => exact (AtomicBlock.mild {}).bind' fun _ => .ret _
    | CutscenePlayer => exact (CutscenePlayer.mild {}).bind' fun _ => .ret _
    | CutsceneManager => exact (CutsceneManager.mild {}).bind' fun _ => .ret _
    | Material => exact (Material.mild _).bind' fun _ => .ret _
  · rename_i hk
    rw [hk] at h
    rw [if_pos (by simpa using h)]
    exact wayPoint_mild.bind' fun _ => .ret _

end Verif.Obj
