import Verif.Lemmas.ObjClasses
import Verif.Lemmas.ObjGame
import Verif.Lemmas.ObjLight
import Verif.Lemmas.ArchiveGraphFmt
import Verif.Spec.ObjAny

/-! # Lemmas: objects of any class, and graphs of them -/

namespace Verif.Obj

open Verif.Ar

theorem Any.loads {P} {c : Ctx} {env : Env P} {φ : Nat → P} {flag : Nat → Bool} {x : Any Nat} {fs : List Field}
    (h : x.Readable c env φ flag) (hs : x.save flag c = .ok fs) :
    Loads env φ (x.cls.blank.load c env) fs (x.copy c env φ) := by
  cases x with
  | VObj x => cases hs; exact Loads.map (VObj.loads h)
  | VAnimate x => cases hs; exact Loads.map (VAnimate.loads (VObj.loads h))
  | VItem x => cases hs; exact Loads.map (VItem.loads (VObj.loads h))
  | VLensFlare x => cases hs; exact Loads.map (VLensFlare.loads (VObj.loads h))
  | VPfxController x => cases hs; exact Loads.map (VPfxController.loads (VObj.loads h))
  | VMessageFilter x => cases hs; exact Loads.map (VMessageFilter.loads (VObj.loads h))
  | VMoverController x => cases hs; exact Loads.map (VMoverController.loads (VObj.loads h))
  | VTouchDamage x => cases hs; exact Loads.map (VTouchDamage.loads (VObj.loads h))
  | VEarthquake x => cases hs; exact Loads.map (VEarthquake.loads (VObj.loads h))
  | Talent x => cases hs; exact Loads.map Talent.loads
  | VMovable x => cases hs; exact Loads.map (VMovable.loads (VObj.loads h))
  | VInteractive x => cases hs; exact Loads.map (VInteractive.loads (VObj.loads h))
  | VDoor x => cases hs; exact Loads.map (VDoor.loads (VObj.loads h))
  | VFire x => cases hs; exact Loads.map (VFire.loads (VObj.loads h))
  | VZoneMusic x => cases hs; exact Loads.map (VZoneMusic.loads (VObj.loads h))
  | VZoneFarPlane x => cases hs; exact Loads.map (VZoneFarPlane.loads (VObj.loads h))
  | VZoneFog x => cases hs; exact Loads.map (VZoneFog.loads (VObj.loads h))
  | VSound x => cases hs; exact Loads.map (VSound.loads (VObj.loads h))
  | VSoundDaytime x => cases hs; exact Loads.map (VSoundDaytime.loads (VObj.loads h))
  | VCodeMaster x => cases hs; exact Loads.map (VCodeMaster.loads (VObj.loads h.1) h.2.1 h.2.2)
  | VContainer x => cases hs; exact Loads.map (VContainer.loads (VObj.loads h.1) h.2.1 h.2.2)
  | VScreenEffect x => cases hs; exact Loads.map (VScreenEffect.loads (VObj.loads h))
  | VNpc x => exact Loads.map (VNpc.loads (VObj.loads h.1) ⟨rfl, rfl, rfl, rfl, rfl, rfl⟩ hs h.2)
  | VTrigger x => cases hs; exact Loads.map (VTrigger.loads (VObj.loads h))
  | VTriggerScript x => cases hs; exact Loads.map (VTriggerScript.loads (VObj.loads h))
  | VTriggerChangeLevel x => cases hs; exact Loads.map (VTriggerChangeLevel.loads (VObj.loads h))
  | VTriggerWorldStart x => cases hs; exact Loads.map (VTriggerWorldStart.loads (VObj.loads h))
  | VTriggerUntouch x => cases hs; exact Loads.map (VTriggerUntouch.loads (VObj.loads h))
  | VTriggerList x => cases hs; exact Loads.map (VTriggerList.loads (VObj.loads h.1) h.2)
  | VMover x => cases hs; exact Loads.map (VMover.loads (VObj.loads h.1) h.2)
  | VFrame x => cases hs; exact Loads.map (VFrame.loads (VObj.loads h))
  | VCamera x => exact Loads.map (VCamera.loads (VObj.loads h.1) hs h.2.1 h.2.2)
  | Visual => cases hs; exact Loads.ret _
  | VDecal x => cases hs; exact Loads.map VDecal.loads
  | EventManager x => cases hs; exact Loads.map (EventManager.loads h)
  | AiHuman x => cases hs; exact Loads.map (AiHuman.loads h)
  | AiMove x => cases hs; exact Loads.map (AiMove.loads h)
  | SkyController x => cases hs; exact Loads.map SkyController.loads
  | SaveMetadata x => cases hs; exact Loads.map SaveMetadata.loads
  | CutscenePoolItem x => cases hs; exact Loads.map CutscenePoolItem.loads
  | ConversationMessage x => cases hs; exact Loads.map ConversationMessage.loads
  | CutsceneProps x => cases hs; exact Loads.map CutsceneProps.loads
  | AtomicBlock x => cases hs; exact Loads.map (AtomicBlock.loads h)
  | Block x => cases hs; exact Loads.map (Block.loads h)
  | Context x => cases hs; exact Loads.map (Context.loads h.1 h.2.1 h.2.2.1 h.2.2.2)
  | CutscenePlayer x => cases hs; exact Loads.map (CutscenePlayer.loads h.1 h.2)
  | CutsceneManager x => cases hs; exact Loads.map (CutsceneManager.loads h.1 h.2)
  | Library x => cases hs; exact Loads.map (Library.loads h.1 h.2)
  | VLight x => cases hs; exact Loads.map (VLight.loads_whole (VObj.loads h.1) h.2)
  | Material x => cases hs; exact Loads.map (Material.loads h.1 h.2)

/-- What a program reads when pointers are not looked at tells which calls it makes. -/
theorem Loads.follows {α} {env : Env Unit} (henv : ∀ t a, env.is t a = true) {p : Ld Unit α} {fs : List Field} {y : α}
    (h : Loads env (fun _ => ()) p fs y) : Follows p.want fs := by
  have h0 := h []
  clear h
  rw [List.append_nil] at h0
  unfold Follows
  induction fs generalizing p with
  | nil =>
    intro k hk
    have : k = 0 := by simpa using hk
    subst this
    cases p with
    | ret a => rfl
    | fail e => cases h0
    | val k f => cases h0
    | ptr f => cases h0
    | ptrAs t f => cases h0
    | skip p => cases h0
  | cons f fs ih =>
    intro k hk
    cases p with
    | ret a => cases h0
    | fail e => cases h0
    | val kd g =>
      cases f with
      | ptr n p => cases h0
      | val n v =>
        simp only [List.map_cons, Field.item, Ld.run] at h0
        by_cases hkd : v.kind = kd
        · rw [if_pos hkd] at h0
          cases k with
          | zero => subst hkd; rfl
          | succ k => exact ih h0 k (by simpa using hk)
        · rw [if_neg hkd] at h0; cases h0
    | ptr g =>
      cases f with
      | val n v => cases h0
      | ptr n p =>
        cases k with
        | zero => rfl
        | succ k =>
          cases p with
          | none => exact ih (p := g none) h0 k (by simpa using hk)
          | some a => exact ih (p := g (some ())) h0 k (by simpa using hk)
    | ptrAs t g =>
      cases f with
      | val n v => cases h0
      | ptr n p =>
        cases k with
        | zero => rfl
        | succ k =>
          cases p with
          | none => exact ih (p := g none) h0 k (by simpa using hk)
          | some a =>
            simp only [List.map_cons, Field.item, Option.map_some, Ld.run, henv, if_true] at h0
            exact ih (p := g (some ())) h0 k (by simpa using hk)
    | skip p => cases f <;> cases h0

/-- Types that are known under one numbering are known under another. -/
structure Agree {P Q} (env : Env P) (φ : Nat → P) (env' : Env Q) (ψ : Nat → Q) (flag : Nat → Bool) : Prop where
  is : ∀ t a, env.is t (φ a) = true → env'.is t (ψ a) = true
  flag : ∀ a, env'.flag (ψ a) = flag a

section
variable {P Q : Type} {c : Ctx} {env : Env P} {φ : Nat → P} {env' : Env Q} {ψ : Nat → Q} {flag : Nat → Bool}

theorem Typed.mono {t : ObjectType} {p : Option Nat} (m : Agree env φ env' ψ flag) (h : Typed env φ t p) : Typed env' ψ t p :=
  fun a ha => m.is _ _ (h a ha)

theorem VObj.Readable.mono {x : VObj Nat} (m : Agree env φ env' ψ flag) (h : x.Readable c env φ) : x.Readable c env' ψ :=
  ⟨h.pack, h.event, h.type.mono m, h.body⟩

theorem Block.Readable.mono {x : Block Nat} (m : Agree env φ env' ψ flag) (h : x.Readable env φ) : x.Readable env' ψ := by
  obtain ⟨a, ha, h⟩ := h
  exact ⟨a, ha, h.imp (m.is _ _) (m.is _ _)⟩

theorem Any.Readable.mono {x : Any Nat} (m : Agree env φ env' ψ flag) (h : x.Readable c env φ flag) :
    x.Readable c env' ψ flag := by
  cases x with
  | Visual | VDecal x | Talent x | SkyController x | SaveMetadata x | CutscenePoolItem x | ConversationMessage x
  | CutsceneProps x => trivial
  | EventManager x | AiHuman x | AiMove x | AtomicBlock x => exact Typed.mono m h
  | Block x => exact Block.Readable.mono m h
  | Context x => exact ⟨h.1.mono m, h.2.1.mono m, h.2.2.1.mono m, h.2.2.2.mono m⟩
  | CutscenePlayer x | CutsceneManager x | Library x => exact ⟨h.1, fun p hp => (h.2 p hp).mono m⟩
  | VCamera x => exact ⟨h.1.mono m, fun p hp => (h.2.1 p hp).mono m, fun p hp => (h.2.2 p hp).mono m⟩
  | VCodeMaster x | VLight x => exact ⟨h.1.mono m, h.2⟩
  | Material x => exact h
  | VTriggerList x | VMover x => exact ⟨h.1.mono m, h.2⟩
  | VContainer x => exact ⟨h.1.mono m, h.2.1, fun hc p hp => (h.2.2 hc p hp).mono m⟩
  | VNpc x =>
    refine ⟨h.1.mono m, ?_⟩
    obtain ⟨_, h⟩ := h
    exact { h with
      talentTypes := fun p hp => (h.talentTypes p hp).mono m
      itemTypes := fun p hp => by
        obtain ⟨a, h1, h2, _⟩ := h.itemTypes p hp
        exact ⟨a, h1, m.is _ _ h2, m.flag a⟩
      slotTypes := fun s hs hu => (h.slotTypes s hs hu).mono m }
  | _ => exact VObj.Readable.mono m h

end

theorem clsOf_known {t : ObjectType} {k : Cls} (h : clsOf t = some k) : t ≠ .ignored ∧ t ≠ .unknown := by
  constructor <;> (rintro rfl; cases h)

section
variable {c : Ctx} {T : Heap} {H : GHeap} {roots : List Field} {dom : List Nat} {pv : Bytes → Val → Prop}
  {po : Bytes → Bytes → BitVec 16 → BitVec 32 → Prop}

theorem Heap.Ok.node (h : T.Ok c H roots dom pv po) {a : Nat} {o : GObj} (ho : H a = some o) :
    ∃ n fs, T a = some n ∧ n.obj.save T.flag c = .ok fs ∧ o = ⟨n.type, n.version, fs⟩ := by
  rcases h.saves a with ⟨_, h2⟩ | ⟨n, fs, h1, h2, h3⟩
  · rw [h2] at ho; cases ho
  · exact ⟨n, fs, h1, h2, by rw [h3] at ho; cases ho; rfl⟩

theorem Heap.Ok.some (h : T.Ok c H roots dom pv po) {a : Nat} (ha : (T a).isSome) : (H a).isSome := by
  rcases h.saves a with ⟨h1, _⟩ | ⟨n, fs, _, _, h3⟩
  · rw [h1] at ha; cases ha
  · rw [h3]; rfl

theorem Heap.Ok.graph (h : T.Ok c H roots dom pv po) : GraphOk H roots dom (schema c) pv po where
  finite := by
    intro a o ho
    obtain ⟨n, _, h1, _⟩ := h.node ho
    exact h.finite a n h1
  small := h.small
  rootsIn := fun n a hm => h.some (h.rootsIn n a hm)
  closed := fun a o ho n b hm => h.some (h.closed a o ho n b hm)
  types := by
    intro a o ho
    obtain ⟨n, fs, h1, _, rfl⟩ := h.node ho
    exact clsOf_known (h.types a n h1)
  loads := by
    intro a o ho
    obtain ⟨n, fs, h1, h2, rfl⟩ := h.node ho
    simp only [schema, h.types a n h1]
    refine Loads.follows (fun _ _ => rfl) (Any.loads (flag := T.flag) ((h.readable a n h1).mono ⟨fun _ _ _ => rfl, ?_⟩) h2)
    exact fun b => (h.flags b).symm
  rootsOk := h.rootsOk
  fieldsOk := h.fieldsOk

theorem Heap.Ok.restored (h : T.Ok c H roots dom pv po) {heap : List (ObjectType × List Got)} {φ : Nat → Nat}
    (hc : IsCopy H roots heap φ) : Restored c T heap φ := by
  intro a n ha
  obtain ⟨o, ho, hh⟩ := hc.copy a (h.all a n ha)
  obtain ⟨n', fs, h1, h2, rfl⟩ := h.node ho
  rw [ha] at h1
  cases h1
  refine ⟨_, _, hh, h.types a n ha, ?_⟩
  have hm : Agree T.env id (readEnv heap) φ T.flag := by
    refine ⟨?_, fun b => (h.flags b).symm⟩
    intro t b hb
    simp only [Heap.env, id] at hb
    cases hT : T b with
    | none => rw [hT] at hb; cases hb
    | some m =>
      rw [hT] at hb
      obtain ⟨o', ho', hh'⟩ := hc.copy b (h.all b m hT)
      obtain ⟨m', fs', e1, e2, rfl⟩ := h.node ho'
      rw [hT] at e1
      cases e1
      simp only [readEnv, Env.of, hh']
      exact hb
  have := Any.loads ((h.readable a n ha).mono hm) h2 []
  rw [List.append_nil] at this
  rw [List.map_map]
  have e : Got.item ∘ Field.got φ = Field.item φ := by
    funext f
    cases f <;> rfl
  rw [e]
  exact this

end

end Verif.Obj
