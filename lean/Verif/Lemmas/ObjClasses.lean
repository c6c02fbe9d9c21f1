import Verif.Spec.ObjCopy
import Verif.Lemmas.ObjVob

/-! # Loading objects, class by class -/

namespace Verif.Obj

open Verif.Ar

theorem VAnimate.loads {P} {c : Ctx} {env : Env P} {φ : Nat → P} {o : VAnimate P} {x : VAnimate Nat} {b : VObj P} (hb : Loads
    env φ (VObj.load c env o.base) (x.base.save c) b) : Loads env φ (VAnimate.load c env o) (x.save c) (x.copy c env φ b o)
    := by
  obtain ⟨game, save, pack⟩ := c
  simp only [VAnimate.save, List.append_assoc]
  refine Loads.bind hb fun rest => ?_
  cases game <;> cases save <;> rfl

theorem VItem.loads {P} {c : Ctx} {env : Env P} {φ : Nat → P} {o : VItem P} {x : VItem Nat} {b : VObj P} (hb : Loads env φ
    (VObj.load c env o.base) (x.base.save c) b) : Loads env φ (VItem.load c env o) (x.save c) (x.copy c env φ b o) := by
  obtain ⟨game, save, pack⟩ := c
  simp only [VItem.save, List.append_assoc]
  refine Loads.bind hb fun rest => ?_
  cases game <;> cases save <;> rfl

theorem VLensFlare.loads {P} {c : Ctx} {env : Env P} {φ : Nat → P} {o : VLensFlare P} {x : VLensFlare Nat} {b : VObj P} (hb
    : Loads env φ (VObj.load c env o.base) (x.base.save c) b) : Loads env φ (VLensFlare.load c env o) (x.save c) (x.copy c env φ
    b o) := by
  obtain ⟨game, save, pack⟩ := c
  unfold VLensFlare.save
  refine Loads.bind hb fun rest => ?_
  cases game <;> cases save <;> rfl

theorem VPfxController.loads {P} {c : Ctx} {env : Env P} {φ : Nat → P} {o : VPfxController P} {x : VPfxController Nat} {b : VObj
    P} (hb : Loads env φ (VObj.load c env o.base) (x.base.save c) b) : Loads env φ (VPfxController.load c env o) (x.save c)
    (x.copy c env φ b o) := by
  obtain ⟨game, save, pack⟩ := c
  unfold VPfxController.save
  refine Loads.bind hb fun rest => ?_
  cases game <;> cases save <;> rfl

theorem VMessageFilter.loads {P} {c : Ctx} {env : Env P} {φ : Nat → P} {o : VMessageFilter P} {x : VMessageFilter Nat} {b : VObj
    P} (hb : Loads env φ (VObj.load c env o.base) (x.base.save c) b) : Loads env φ (VMessageFilter.load c env o) (x.save c)
    (x.copy c env φ b o) := by
  obtain ⟨game, save, pack⟩ := c
  unfold VMessageFilter.save
  refine Loads.bind hb fun rest => ?_
  cases game <;> cases save <;> rfl

theorem VMoverController.loads {P} {c : Ctx} {env : Env P} {φ : Nat → P} {o : VMoverController P} {x : VMoverController Nat} {b
    : VObj P} (hb : Loads env φ (VObj.load c env o.base) (x.base.save c) b) : Loads env φ (VMoverController.load c env o)
    (x.save c) (x.copy c env φ b o) := by
  obtain ⟨game, save, pack⟩ := c
  unfold VMoverController.save
  refine Loads.bind hb fun rest => ?_
  cases game <;> cases save <;> rfl

theorem VTouchDamage.loads {P} {c : Ctx} {env : Env P} {φ : Nat → P} {o : VTouchDamage P} {x : VTouchDamage Nat} {b : VObj P}
    (hb : Loads env φ (VObj.load c env o.base) (x.base.save c) b) : Loads env φ (VTouchDamage.load c env o) (x.save c) (x.copy c
    env φ b o) := by
  obtain ⟨game, save, pack⟩ := c
  unfold VTouchDamage.save
  refine Loads.bind hb fun rest => ?_
  cases game <;> cases save <;> rfl

theorem VEarthquake.loads {P} {c : Ctx} {env : Env P} {φ : Nat → P} {o : VEarthquake P} {x : VEarthquake Nat} {b : VObj P} (hb
    : Loads env φ (VObj.load c env o.base) (x.base.save c) b) : Loads env φ (VEarthquake.load c env o) (x.save c) (x.copy c env
    φ b o) := by
  obtain ⟨game, save, pack⟩ := c
  unfold VEarthquake.save
  refine Loads.bind hb fun rest => ?_
  cases game <;> cases save <;> rfl

theorem Talent.loads {P} {c : Ctx} {env : Env P} {φ : Nat → P} {o : Talent} {x : Talent} : Loads env φ (Talent.load c env o)
    (x.save c) (x.copy c env φ o) := by
  obtain ⟨game, save, pack⟩ := c
  intro rest
  cases game <;> cases save <;> rfl

theorem VMovable.loads {P} {c : Ctx} {env : Env P} {φ : Nat → P} {o : VMovable P} {x : VMovable Nat} {b : VObj P} (hb : Loads
    env φ (VObj.load c env o.base) (x.base.save c) b) : Loads env φ (VMovable.load c env o) (x.save c) (x.copy c env φ b o)
    := by
  obtain ⟨game, save, pack⟩ := c
  unfold VMovable.save
  refine Loads.bind hb fun rest => ?_
  cases game <;> cases save <;> rfl

theorem VInteractive.loads {P} {c : Ctx} {env : Env P} {φ : Nat → P} {o : VInteractive P} {x : VInteractive Nat} {b : VObj P}
    (hb : Loads env φ (VObj.load c env o.base.base) (x.base.base.save c) b) : Loads env φ (VInteractive.load c env o) (x.save c)
    (x.copy c env φ b o) := by
  obtain ⟨game, save, pack⟩ := c
  unfold VInteractive.save
  refine Loads.bind (VMovable.loads hb) fun rest => ?_
  cases game <;> cases save <;> rfl

theorem VDoor.loads {P} {c : Ctx} {env : Env P} {φ : Nat → P} {o : VDoor P} {x : VDoor Nat} {b : VObj P} (hb : Loads env φ
    (VObj.load c env o.base.base.base) (x.base.base.base.save c) b) : Loads env φ (VDoor.load c env o) (x.save c) (x.copy c env
    φ b o) := by
  obtain ⟨game, save, pack⟩ := c
  unfold VDoor.save
  refine Loads.bind (VInteractive.loads hb) fun rest => ?_
  cases game <;> cases save <;> rfl

theorem VFire.loads {P} {c : Ctx} {env : Env P} {φ : Nat → P} {o : VFire P} {x : VFire Nat} {b : VObj P} (hb : Loads env φ
    (VObj.load c env o.base.base.base) (x.base.base.base.save c) b) : Loads env φ (VFire.load c env o) (x.save c) (x.copy c env
    φ b o) := by
  obtain ⟨game, save, pack⟩ := c
  unfold VFire.save
  refine Loads.bind (VInteractive.loads hb) fun rest => ?_
  cases game <;> cases save <;> rfl

theorem VZoneMusic.loads {P} {c : Ctx} {env : Env P} {φ : Nat → P} {o : VZoneMusic P} {x : VZoneMusic Nat} {b : VObj P} (hb
    : Loads env φ (VObj.load c env o.base) (x.base.save c) b) : Loads env φ (VZoneMusic.load c env o) (x.save c) (x.copy c env φ
    b o) := by
  obtain ⟨game, save, pack⟩ := c
  simp only [VZoneMusic.save, List.append_assoc]
  refine Loads.bind hb fun rest => ?_
  cases game <;> cases save <;> rfl

theorem VZoneFarPlane.loads {P} {c : Ctx} {env : Env P} {φ : Nat → P} {o : VZoneFarPlane P} {x : VZoneFarPlane Nat} {b : VObj P}
    (hb : Loads env φ (VObj.load c env o.base) (x.base.save c) b) : Loads env φ (VZoneFarPlane.load c env o) (x.save c) (x.copy
    c env φ b o) := by
  obtain ⟨game, save, pack⟩ := c
  unfold VZoneFarPlane.save
  refine Loads.bind hb fun rest => ?_
  cases game <;> cases save <;> rfl

theorem VZoneFog.loads {P} {c : Ctx} {env : Env P} {φ : Nat → P} {o : VZoneFog P} {x : VZoneFog Nat} {b : VObj P} (hb : Loads
    env φ (VObj.load c env o.base) (x.base.save c) b) : Loads env φ (VZoneFog.load c env o) (x.save c) (x.copy c env φ b o)
    := by
  obtain ⟨game, save, pack⟩ := c
  simp only [VZoneFog.save, List.append_assoc]
  refine Loads.bind hb fun rest => ?_
  cases game <;> cases save <;> rfl

theorem VSound.loads {P} {c : Ctx} {env : Env P} {φ : Nat → P} {o : VSound P} {x : VSound Nat} {b : VObj P} (hb : Loads env φ
    (VObj.load c env o.base) (x.base.save c) b) : Loads env φ (VSound.load c env o) (x.save c) (x.copy c env φ b o) := by
  obtain ⟨game, save, pack⟩ := c
  simp only [VSound.save, List.append_assoc]
  refine Loads.bind hb fun rest => ?_
  cases game <;> cases save <;> rfl

theorem VSoundDaytime.loads {P} {c : Ctx} {env : Env P} {φ : Nat → P} {o : VSoundDaytime P} {x : VSoundDaytime Nat} {b : VObj P}
    (hb : Loads env φ (VObj.load c env o.base.base) (x.base.base.save c) b) : Loads env φ (VSoundDaytime.load c env o) (x.save
    c) (x.copy c env φ b o) := by
  obtain ⟨game, save, pack⟩ := c
  unfold VSoundDaytime.save
  refine Loads.bind (VSound.loads hb) fun rest => ?_
  cases game <;> cases save <;> rfl

theorem raw_u8 {P} {env : Env P} {φ : Nat → P} (n : Bytes) (v : BitVec 8) :
    Loads env φ (Ld.raw 1 Rd.u8) [fRaw n (encW 1 v)] v := Loads.raw' n (by simp) (Reads.u8 v)

theorem flag_bits : ∀ v : BitVec 8, (v &&& 1 != 0) = v.getLsbD 0 ∧ ((v &&& 2) >>> 1 != 0) = v.getLsbD 1 ∧
    ((v &&& 4) >>> 2 != 0) = v.getLsbD 2 ∧ ((v &&& 8) >>> 3 != 0) = v.getLsbD 3 ∧ ((v &&& 16) >>> 4 != 0) = v.getLsbD 4 ∧
    ((v &&& 32) >>> 5 != 0) = v.getLsbD 5 := by decide +kernel

theorem VTrigger.loads {P} {c : Ctx} {env : Env P} {φ : Nat → P} {o : VTrigger P} {x : VTrigger Nat} {b : VObj P}
    (hb : Loads env φ (VObj.load c env o.base) (x.base.save c) b) :
    Loads env φ (VTrigger.load c env o) (x.save c) (x.copy c env φ b o) := by
  obtain ⟨game, save, pack⟩ := c
  simp only [VTrigger.save, List.append_assoc, List.cons_append, List.nil_append]
  refine Loads.bind hb (Loads.cons (Loads.str _ _) (Loads.cons (raw_u8 _ _) (Loads.cons (raw_u8 _ _) ?_)))
  obtain ⟨h1, -, h3, -, -, -⟩ := flag_bits x.flags
  obtain ⟨k1, k2, k3, k4, k5, k6⟩ := flag_bits x.filterFlags
  simp only [h1, h3, k1, k2, k3, k4, k5, k6]
  intro rest
  cases game <;> cases save <;> rfl

theorem VTriggerScript.loads {P} {c : Ctx} {env : Env P} {φ : Nat → P} {o : VTriggerScript P} {x : VTriggerScript Nat} {b : VObj
    P} (hb : Loads env φ (VObj.load c env o.base.base) (x.base.base.save c) b) : Loads env φ (VTriggerScript.load c env o)
    (x.save c) (x.copy c env φ b o) := by
  obtain ⟨game, save, pack⟩ := c
  unfold VTriggerScript.save
  refine Loads.bind (VTrigger.loads hb) fun rest => ?_
  cases game <;> cases save <;> rfl

theorem VTriggerChangeLevel.loads {P} {c : Ctx} {env : Env P} {φ : Nat → P} {o : VTriggerChangeLevel P} {x : VTriggerChangeLevel
    Nat} {b : VObj P} (hb : Loads env φ (VObj.load c env o.base.base) (x.base.base.save c) b) : Loads env φ
    (VTriggerChangeLevel.load c env o) (x.save c) (x.copy c env φ b o) := by
  obtain ⟨game, save, pack⟩ := c
  unfold VTriggerChangeLevel.save
  refine Loads.bind (VTrigger.loads hb) fun rest => ?_
  cases game <;> cases save <;> rfl

theorem VTriggerWorldStart.loads {P} {c : Ctx} {env : Env P} {φ : Nat → P} {o : VTriggerWorldStart P} {x : VTriggerWorldStart
    Nat} {b : VObj P} (hb : Loads env φ (VObj.load c env o.base) (x.base.save c) b) : Loads env φ (VTriggerWorldStart.load c env
    o) (x.save c) (x.copy c env φ b o) := by
  obtain ⟨game, save, pack⟩ := c
  simp only [VTriggerWorldStart.save, List.append_assoc]
  refine Loads.bind hb fun rest => ?_
  cases game <;> cases save <;> rfl

theorem VTriggerUntouch.loads {P} {c : Ctx} {env : Env P} {φ : Nat → P} {o : VTriggerUntouch P} {x : VTriggerUntouch Nat} {b :
    VObj P} (hb : Loads env φ (VObj.load c env o.base) (x.base.save c) b) : Loads env φ (VTriggerUntouch.load c env o) (x.save
    c) (x.copy c env φ b o) := by
  obtain ⟨game, save, pack⟩ := c
  unfold VTriggerUntouch.save
  refine Loads.bind hb fun rest => ?_
  cases game <;> cases save <;> rfl

variable {P : Type} {c : Ctx} {env : Env P} {φ : Nat → P}

theorem VTriggerList.loads {o : VTriggerList P} {x : VTriggerList Nat} {b : VObj P}
    (hb : Loads env φ (VObj.load c env o.base.base) (x.base.base.save c) b) (hn : x.targets.length < 256) :
    Loads env φ (VTriggerList.load c env o) (x.save c) (x.copy c env φ b o) := by
  simp only [VTriggerList.save, List.append_assoc, List.cons_append, List.nil_append]
  refine Loads.bind (VTrigger.loads hb) (Loads.cons (Loads.enum _ _) (Loads.cons (Loads.byte _ _) ?_))
  rw [show (BitVec.ofNat 8 x.targets.length).toNat = x.targets.length by simp; omega]
  refine Loads.bind (a := x.targets) ?_ ?_
  · have := Loads.timesIdx (env := env) (φ := φ) (p := VTriggerList.target) (l := x.targets) (h := id)
      (g := fun p => [fStr (b!"triggerTarget" ++ dec p.2) p.1.1, fFloat (b!"fireDelay" ++ dec p.2) p.1.2]) (fun _ _ _ _ => rfl)
    rwa [List.map_id] at this
  · obtain ⟨game, save, pack⟩ := c
    intro rest
    cases game <;> cases save <;> rfl

theorem Sample.reads (s : Sample) : Reads Sample.load (s.pos.mem ++ (encW 4 s.x ++ (encW 4 s.y ++ (encW 4 s.z ++ encW 4 s.w)))) s := by
  refine Reads.bind (Reads.vec3 _) (Reads.bind (Reads.f32 _) (Reads.bind (Reads.f32 _) (Reads.bind (Reads.f32 _) ?_)))
  exact Reads.bind_pure (Reads.f32 _)

theorem Sample.emits (s : Sample) : Emits s.save (s.pos.mem ++ (encW 4 s.x ++ (encW 4 s.y ++ (encW 4 s.z ++ encW 4 s.w)))) := by
  have := ((((Emits.vec3 s.pos).comp (Emits.f32 s.x)).comp (Emits.f32 s.y)).comp (Emits.f32 s.z)).comp (Emits.f32 s.w)
  simp only [List.append_assoc] at this
  exact this

theorem Ws.data_of_emits {f : Ws → Ws} {bs : Bytes} (h : Emits f bs) : (f Ws.empty).data = bs := by
  have := h.appends []
  simp only [List.length_nil] at this
  rw [show Ws.empty = ⟨[], 0⟩ from rfl, this]
  simp

theorem flatten_length (l : List α) (enc : α → Bytes) (k : Nat) (h : ∀ a, (enc a).length = k) :
    (l.map enc).flatten.length = l.length * k := by
  induction l with
  | nil => simp
  | cons a l ih => simp only [List.map_cons, List.flatten_cons, List.length_append, ih, h, List.length_cons]; rw [Nat.add_mul]; omega

theorem VMover.loads {o : VMover P} {x : VMover Nat} {b : VObj P}
    (hb : Loads env φ (VObj.load c env o.base.base) (x.base.base.save c) b) (hn : x.keyframes.length < 65536) :
    Loads env φ (VMover.load c env o) (x.save c) (x.copy c env φ b o) := by
  simp only [VMover.save, List.append_assoc, List.cons_append, List.nil_append]
  refine Loads.bind (VTrigger.loads hb) (Loads.cons (Loads.enum _ _) (Loads.cons (Loads.float _ _)
    (Loads.cons (Loads.float _ _) (Loads.cons (Loads.bool _ _) (Loads.cons (Loads.bool _ _)
    (Loads.opt1 (fun _ => Loads.bool _ _) (Loads.cons (Loads.word _ _) ?_)))))))
  have hcount : (BitVec.ofNat 16 x.keyframes.length).toNat = x.keyframes.length := by simp; omega
  by_cases hk : x.keyframes = []
  · have e : (BitVec.ofNat 16 x.keyframes.length != 0) = false := by rw [hk]; rfl
    rw [e]
    have e2 : (!x.keyframes.isEmpty) = false := by rw [hk]; rfl
    rw [e2]
    have : x.copy c env φ b o = { x.copy c env φ b o with
      speed := o.speed, lerpMode := o.lerpMode, speedMode := o.speedMode, keyframes := o.keyframes ++ [] } := by
      simp [VMover.copy, hk]
    rw [this]
    obtain ⟨game, save, pack⟩ := c
    intro rest
    cases game <;> cases save <;> rfl
  · have e : (BitVec.ofNat 16 x.keyframes.length != 0) = true := by
      rw [bne_iff_ne]
      intro h0
      have := congrArg BitVec.toNat h0
      rw [hcount] at this
      exact hk (List.length_eq_zero_iff.mp this)
    rw [e, hcount]
    have e2 : (!x.keyframes.isEmpty) = true := by simp [hk]
    rw [e2]
    refine Loads.cons (Loads.float _ _) (Loads.cons (Loads.enum _ _) (Loads.cons (Loads.enum _ _) (Loads.cons (a := x.keyframes) ?_ ?_)))
    · have hd := Ws.data_of_emits (Emits.foldl Sample.save _ Sample.emits x.keyframes)
      rw [hd]
      refine Loads.raw' _ ?_ (Reads.times _ fun s _ => Sample.reads s)
      rw [flatten_length _ _ 28]
      intro s
      simp [Vec3.mem_length]
    · have : x.copy c env φ b o = { x.copy c env φ b o with
        speed := x.speed, lerpMode := x.lerpMode, speedMode := x.speedMode } := by
        simp [VMover.copy, hk]
      rw [this]
      obtain ⟨game, save, pack⟩ := c
      intro rest
      cases game <;> cases save <;> rfl

theorem VCodeMaster.loads {o : VCodeMaster P} {x : VCodeMaster Nat} {b : VObj P}
    (hb : Loads env φ (VObj.load c env o.base) (x.base.save c) b) (hn : x.slaves.length < 256)
    (hc : (c.save && c.g2) = false) : Loads env φ (VCodeMaster.load c env o) (x.save c) (x.copy b o) := by
  simp only [VCodeMaster.save, List.append_assoc, List.cons_append, List.nil_append]
  refine Loads.bind hb (Loads.cons (Loads.str _ _) (Loads.cons (Loads.bool _ _) (Loads.cons (Loads.bool _ _)
    (Loads.cons (Loads.str _ _) (Loads.cons (Loads.bool _ _) (Loads.cons (Loads.byte _ _) ?_))))))
  rw [show (BitVec.ofNat 8 x.slaves.length).toNat = x.slaves.length by simp; omega, Nat.mod_eq_of_lt hn, List.take_length]
  have := Loads.numbered (env := env) (φ := φ) (p := Ld.str) (l := x.slaves) (f := fStr) (pre := b!"slaveVobName") (h := id)
    (fun v _ n => Loads.str n v)
  rw [List.map_id] at this
  simp only [hc]
  exact Loads.map this

theorem VContainer.loads {o : VContainer P} {x : VContainer Nat} {b : VObj P}
    (hb : Loads env φ (VObj.load c env o.base.base.base) (x.base.base.base.save c) b) (hn : Fits31 x.items)
    (ht : c.save = true → ∀ p ∈ x.items, Typed env φ .oCItem p) :
    Loads env φ (VContainer.load c env o) (x.save c) (x.copy c env φ b o) := by
  simp only [VContainer.save, List.append_assoc, List.cons_append, List.nil_append]
  refine Loads.bind (VInteractive.loads hb) (Loads.cons (Loads.bool _ _) (Loads.cons (Loads.str _ _) (Loads.cons (Loads.str _ _)
    (Loads.cons (Loads.str _ _) ?_))))
  cases hs : c.save with
  | false =>
    intro rest
    simp only [VContainer.copy, hs]
    rfl
  | true =>
    refine Loads.cons (Loads.int _ _) ?_
    rw [Ld.sized_size32 hn]
    simp only [VContainer.copy, hs, if_true]
    exact Loads.map (Loads.each fun p hp => Loads.objAs _ (ht hs p hp))

theorem VScreenEffect.loads {o : VScreenEffect P} {x : VScreenEffect Nat} {b : VObj P}
    (hb : Loads env φ (VObj.load c env o.base) (x.base.save c) b) : Loads env φ (VScreenEffect.load c env o) (x.save c) ⟨b⟩ := by
  unfold VScreenEffect.save
  refine Loads.bind hb ?_
  obtain ⟨game, save, pack⟩ := c
  intro rest
  cases game <;> cases save <;> rfl

theorem VFrame.loads {o : VFrame P} {x : VFrame Nat} {b : VObj P}
    (hb : Loads env φ (VObj.load c env o.base) (x.base.save c) b) : Loads env φ (VFrame.load c env o) (x.save c) (x.copy b) := by
  unfold VFrame.save
  refine Loads.bind hb (Loads.cons (Loads.float _ _) (Loads.cons (Loads.float _ _) (Loads.cons (Loads.float _ _)
    (Loads.cons (Loads.enum _ _) (Loads.cons (Loads.enum _ _) (Loads.cons (Loads.enum _ _) (Loads.cons (Loads.enum _ _)
    (Loads.cons (Loads.float _ _) (Loads.cons (Loads.float _ _) (Loads.cons (Loads.float _ _) (Loads.cons (Loads.float _ _)
    (Loads.cons (Loads.bool _ _) ?_))))))))))))
  have h : Reads Rd.mat4 x.originalPose.mem x.originalPose.transpose := by
    have := Reads.mat4 x.originalPose.transpose
    rwa [show x.originalPose.transpose.transpose = x.originalPose from rfl] at this
  exact Loads.map (Loads.raw' _ (Mat4.mem_length _) h)

theorem VCamera.loads {o : VCamera P} {x : VCamera Nat} {b : VObj P} {fs : List Field}
    (hb : Loads env φ (VObj.load c env o.base) (x.base.save c) b) (hs : x.save c = .ok fs)
    (h1 : ∀ p ∈ x.trajectoryFrames, Typed env φ .zCCamTrj_KeyFrame p)
    (h2 : ∀ p ∈ x.targetFrames, Typed env φ .zCCamTrj_KeyFrame p) :
    Loads env φ (VCamera.load c env o) fs (x.copy c φ b o) := by
  have key : ∀ (n : BitVec 32) (l : List (Option Nat)) (r : List Field), VCamera.frames n l = .ok r →
      (∀ p ∈ l, Typed env φ .zCCamTrj_KeyFrame p) →
      Loads env φ (Ld.times (Ld.rounds n) (Ld.objAs .zCCamTrj_KeyFrame)) r ((l.take (Ld.rounds n)).map (Option.map φ)) := by
    intro n l r h ht
    unfold VCamera.frames at h
    split at h
    · rename_i hle
      cases h
      have := Loads.each (env := env) (φ := φ) (p := Ld.objAs .zCCamTrj_KeyFrame) (l := l.take (Ld.rounds n)) (g := fObj b!"%")
        (h := Option.map φ) (fun p hp => Loads.objAs _ (ht p (List.mem_of_mem_take hp)))
      rwa [List.length_take, Nat.min_eq_left hle] at this
    · cases h
  unfold VCamera.save at hs
  cases ha : VCamera.frames x.positionCount x.trajectoryFrames with
  | error e => rw [ha] at hs; cases hs
  | ok fa =>
    cases hbb : VCamera.frames x.targetCount x.targetFrames with
    | error e => rw [ha, hbb] at hs; cases hs
    | ok fb =>
      rw [ha, hbb] at hs
      cases hs
      simp only [List.append_assoc, List.cons_append, List.nil_append]
      refine Loads.bind hb (Loads.cons (Loads.enum _ _) (Loads.cons (Loads.enum _ _) (Loads.cons (Loads.enum _ _)
        (Loads.cons (Loads.enum _ _) (Loads.cons (Loads.bool _ _) (Loads.cons (Loads.bool _ _) (Loads.cons (Loads.bool _ _)
        (Loads.cons (Loads.bool _ _) (Loads.cons (Loads.bool _ _) (Loads.cons (Loads.float _ _) (Loads.cons (Loads.str _ _)
        (Loads.cons (Loads.bool _ _) (Loads.cons (Loads.bool _ _) (Loads.cons (Loads.float _ _) (Loads.cons (Loads.int _ _)
        (Loads.cons (Loads.int _ _) (Loads.bind (key _ _ _ ha h1) (Loads.bind (key _ _ _ hbb h2) ?_))))))))))))))))))
      obtain ⟨game, save, pack⟩ := c
      intro rest
      cases game <;> cases save <;> rfl

end Verif.Obj
