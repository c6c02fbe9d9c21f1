import Verif.Spec.ObjVob
import Verif.Lemmas.ObjLoad

/-! # Loading a `VirtualObject` -/

namespace Verif.Obj

open Verif.Ar

variable {P α : Type} {env : Env P} {φ : Nat → P} {c : Ctx}

theorem and3 (v : BitVec 8) : v &&& 3 = (v.setWidth 2).setWidth 8 := by revert v; decide +kernel

/-- `bit0` as a function of finitely many values. -/
def mk0 (a b d e : Bool) (m s : BitVec 2) : BitVec 8 :=
  bit 8 a ||| ((m.setWidth 8) <<< 1) ||| (bit 8 b <<< 3) ||| (bit 8 d <<< 4) ||| (bit 8 e <<< 5) ||| ((s.setWidth 8) <<< 6)

theorem mk0_get : ∀ (a b d e : Bool) (m s : BitVec 2),
    (mk0 a b d e m s &&& 1 != 0) = a ∧ (mk0 a b d e m s &&& 6) >>> 1 = m.setWidth 8 ∧ (mk0 a b d e m s &&& 8 != 0) = b ∧
    (mk0 a b d e m s &&& 16 != 0) = d ∧ (mk0 a b d e m s &&& 32 != 0) = e ∧ (mk0 a b d e m s &&& 192) >>> 6 = s.setWidth 8 := by
  decide +kernel

theorem VObj.bit0_eq (x : VObj P) :
    x.bit0 = mk0 x.showVisual x.cdStatic x.cdDynamic x.vobStatic (x.camAlign.setWidth 2) (x.shadows.setWidth 2) := by
  simp only [VObj.bit0, mk0, and3]

/-- `bit1` of Gothic 1. -/
def mk1 (p n v o a e y : Bool) : BitVec 16 :=
  bit 16 p ||| (bit 16 n <<< 1) ||| (bit 16 v <<< 2) ||| (bit 16 o <<< 3) ||| (bit 16 a <<< 4) ||| (bit 16 e <<< 5) |||
    (bit 16 y <<< 6)

/-- What Gothic 2 adds. -/
def mk2 (m b0 b1 b2 t : Bool) : BitVec 16 :=
  (bit 16 m <<< 8) ||| (bit 16 b0 <<< 13) ||| (bit 16 b1 <<< 14) ||| (bit 16 b2 <<< 15) ||| (bit 16 t <<< 14)

theorem bias_bits (v : BitVec 8) : ((v &&& 31).setWidth 16) <<< 13 =
    ((bit 16 (v.getLsbD 0)) <<< 13 ||| (bit 16 (v.getLsbD 1)) <<< 14 ||| (bit 16 (v.getLsbD 2)) <<< 15 : BitVec 16) := by
  revert v; decide +kernel

theorem mode_bits (v : BitVec 8) : ((v &&& 2).setWidth 16) <<< 7 = (bit 16 (v.getLsbD 1) <<< 8 : BitVec 16) := by
  revert v; decide +kernel

theorem mk1_get : ∀ p n v o a e y : Bool, let w := (mk1 p n v o a e y).setWidth 8 |>.setWidth 16
    (w &&& 1 != 0) = p ∧ (w &&& 2 != 0) = n ∧ (w &&& 4 != 0) = v ∧ (w &&& 8 != 0) = o ∧ (w &&& 16 != 0) = a ∧
    (w &&& 32 != 0) = e ∧ (w &&& 64 != 0) = y := by
  decide +kernel

theorem mk2_get : ∀ p n v o a e y m b0 b1 b2 t : Bool, let w := mk1 p n v o a e y ||| mk2 m b0 b1 b2 t
    (w &&& 1 != 0) = p ∧ (w &&& 2 != 0) = n ∧ (w &&& 4 != 0) = v ∧ (w &&& 8 != 0) = o ∧ (w &&& 16 != 0) = a ∧
    (w &&& 32 != 0) = e ∧ (w &&& 64 != 0) = y ∧ (w &&& 3).setWidth 8 = bit 8 p + (bit 8 n + bit 8 n) ∧
    ((w &&& 0x3E00) >>> 9).setWidth 32 = (if b0 then 16 else 0 : BitVec 32) ∧ (w &&& 0x4000 != 0) = (t || b1) := by
  decide +kernel

theorem VObj.bit1g2_eq (x : VObj P) : x.bit1g2 =
    mk2 (x.animMode.getLsbD 1) (x.bias.getLsbD 0) (x.bias.getLsbD 1) (x.bias.getLsbD 2) x.ambient := by
  simp only [VObj.bit1g2, mk2, bias_bits, mode_bits, BitVec.getLsbD_setWidth]
  simp only [BitVec.or_assoc]
  rfl

/-- `bit1` as it is written and read. -/
def VObj.word (c : Ctx) (x : VObj P) : BitVec 16 :=
  if c.g2 then x.bit1 c ||| x.bit1g2 else ((x.bit1 c).setWidth 8).setWidth 16

theorem VObj.word_get (c : Ctx) (x : VObj P) :
    (x.word c &&& 1 != 0) = !x.presetName.isEmpty ∧ (x.word c &&& 2 != 0) = !x.vobName.isEmpty ∧
    (x.word c &&& 4 != 0) = x.hasVisualName ∧ (x.word c &&& 8 != 0) = x.hasVisualObj ∧ (x.word c &&& 16 != 0) = x.ai.isSome ∧
    (x.word c &&& 32 != 0) = x.eventManager.isSome ∧
    (x.word c &&& 64 != 0) = (if c.g2 then x.physics && x.rigidBody.isSome else x.physics) ∧
    (c.g2 = true → (x.word c &&& 3).setWidth 8 =
        bit 8 (!x.presetName.isEmpty) + (bit 8 (!x.vobName.isEmpty) + bit 8 (!x.vobName.isEmpty)) ∧
      ((x.word c &&& 0x3E00) >>> 9).setWidth 32 = (if x.bias.getLsbD 0 then 16 else 0 : BitVec 32) ∧
      (x.word c &&& 0x4000 != 0) = (x.ambient || x.bias.getLsbD 1)) := by
  unfold VObj.word
  cases hc : c.g2 with
  | false =>
    simp only [if_neg Bool.false_ne_true]
    have := mk1_get (!x.presetName.isEmpty) (!x.vobName.isEmpty) x.hasVisualName x.hasVisualObj x.ai.isSome
      x.eventManager.isSome x.physics
    have e : x.bit1 c = mk1 (!x.presetName.isEmpty) (!x.vobName.isEmpty) x.hasVisualName x.hasVisualObj x.ai.isSome
      x.eventManager.isSome x.physics := by simp only [VObj.bit1, mk1, hc, if_neg Bool.false_ne_true]
    rw [e]
    obtain ⟨h1, h2, h3, h4, h5, h6, h7⟩ := this
    exact ⟨h1, h2, h3, h4, h5, h6, h7, fun h => by simp at h⟩
  | true =>
    simp only [if_true]
    have := mk2_get (!x.presetName.isEmpty) (!x.vobName.isEmpty) x.hasVisualName x.hasVisualObj x.ai.isSome
      x.eventManager.isSome (x.physics && x.rigidBody.isSome) (x.animMode.getLsbD 1) (x.bias.getLsbD 0) (x.bias.getLsbD 1)
      (x.bias.getLsbD 2) x.ambient
    have e : x.bit1 c = mk1 (!x.presetName.isEmpty) (!x.vobName.isEmpty) x.hasVisualName x.hasVisualObj x.ai.isSome
      x.eventManager.isSome (x.physics && x.rigidBody.isSome) := by simp only [VObj.bit1, mk1, hc, if_true]
    rw [e, VObj.bit1g2_eq]
    obtain ⟨h1, h2, h3, h4, h5, h6, h7, h8, h9, h10⟩ := this
    exact ⟨h1, h2, h3, h4, h5, h6, h7, fun _ => ⟨h8, h9, h10⟩⟩

/-- The bytes of `dataRaw`. -/
def VObj.enc (c : Ctx) (x : VObj P) : Bytes :=
  x.bbox.enc ++ (x.position.mem ++ (x.rotation.transpose.mem ++ (encW 1 x.bit0 ++
    (if c.g2 then encW 2 (x.bit1 c ||| x.bit1g2) ++ (encW 4 x.animStrength ++ encW 4 x.farClip)
     else encW 1 ((x.bit1 c).setWidth 8)))))

theorem VObj.packed_emits (c : Ctx) (x : VObj P) : Emits (x.packed c) (x.enc c) := by
  intro w hw
  cases h : c.g2 with
  | false =>
    have := ((((Emits.aabb x.bbox).comp (Emits.vec3 x.position)).comp (Emits.mat3 x.rotation)).comp (Emits.u8 x.bit0)).comp
      (Emits.u8 ((x.bit1 c).setWidth 8)) w hw
    simp only [VObj.packed, VObj.enc, h, if_neg Bool.false_ne_true]
    simp only [List.append_assoc] at this
    exact this
  | true =>
    have := ((((((Emits.aabb x.bbox).comp (Emits.vec3 x.position)).comp (Emits.mat3 x.rotation)).comp (Emits.u8 x.bit0)).comp
      (Emits.u16 (x.bit1 c ||| x.bit1g2))).comp (Emits.f32 x.animStrength)).comp (Emits.f32 x.farClip) w hw
    simp only [VObj.packed, VObj.enc, h, if_true]
    simp only [List.append_assoc] at this
    exact this

theorem VObj.packed_data (c : Ctx) (x : VObj P) : (x.packed c ⟨[], 0⟩).data = x.enc c := by
  have := (VObj.packed_emits c x).appends []
  simp only [List.length_nil] at this
  rw [this]
  simp

theorem VObj.enc_length (c : Ctx) (x : VObj P) : (x.enc c).length = if c.g2 then 83 else 74 := by
  cases h : c.g2 <;> simp [VObj.enc, h, Vec3.mem_length, Mat3.mem_length, Aabb.enc]

/-- What is read. -/
def VObj.rawOf (c : Ctx) (o : VObj P) (x : VObj Nat) : VObj.Raw where
  bbox := x.bbox
  position := x.position
  rotation := x.rotation
  bit0 := x.bit0
  bit1 := x.word c
  animStrength := if c.g2 then x.animStrength else o.animStrength
  farClip := if c.g2 then x.farClip else o.farClip

theorem VObj.readRaw_reads (c : Ctx) (o : VObj P) (x : VObj Nat) : Reads (VObj.readRaw c o) (x.enc c) (VObj.rawOf c o x) := by
  unfold VObj.readRaw VObj.enc VObj.rawOf VObj.word
  refine Reads.bind (Reads.aabb _) ?_
  refine Reads.bind (Reads.vec3 _) ?_
  refine Reads.bind (Reads.mat3 _) ?_
  refine Reads.bind (Reads.u8 _) ?_
  cases c.g2 with
  | false =>
    simp only [if_neg Bool.false_ne_true, Rd.bind_assoc, Rd.pure_bind']
    exact Reads.bind_pure (Reads.u8 _)
  | true =>
    simp only [if_true]
    refine Reads.bind (Reads.u16 _) ?_
    refine Reads.bind (Reads.f32 _) ?_
    exact Reads.bind_pure (Reads.f32 _)

theorem isEmpty_iff' (l : Bytes) (a b : α) : (if (!l.isEmpty) = true then a else b) = (if l = [] then b else a) := by
  cases l <;> rfl

theorem VObj.hasVisualName_eq (x : VObj P) : x.hasVisualName = !(VObj.nameOfVisual x.visual).isEmpty := by
  unfold VObj.hasVisualName VObj.nameOfVisual
  cases x.visual <;> rfl

/-- The packed part. -/
theorem VObj.loadPacked_loads (o : VObj P) (x : VObj Nat) : Loads env φ (VObj.loadPacked c o)
    ([fRaw b!"dataRaw" (x.packed c ⟨[], 0⟩).data] ++ (fIf (!x.presetName.isEmpty) [fStr b!"presetName" x.presetName] ++
      (fIf (!x.vobName.isEmpty) [fStr b!"vobName" x.vobName] ++
      fIf x.hasVisualName [fStr b!"visual" ((x.visual.map (·.name)).getD [])])))
    ({ VObj.stored c env φ o x with
        visual := o.visual
        ai := o.ai
        eventManager := o.eventManager
        sleepMode := o.sleepMode
        nextOnTimer := o.nextOnTimer
        rigidBody := o.rigidBody },
      ⟨x.hasVisualObj, x.ai.isSome, x.eventManager.isSome && c.save⟩) := by
  unfold VObj.loadPacked
  refine Loads.bind (a := VObj.rawOf c o x) (Loads.raw' _ ?_ ?_) ?_
  · rw [VObj.packed_data, VObj.enc_length]
  · rw [VObj.packed_data]
    exact VObj.readRaw_reads c o x
  obtain ⟨h1, h2, h3, h4, h5, h6, h7, h8⟩ := VObj.word_get c x
  simp only [VObj.rawOf, h1, h2, h3, h4, h5, h6, h7]
  refine Loads.opt1 (fun _ => Loads.str _ _) ?_
  refine Loads.opt1 (fun _ => Loads.str _ _) ?_
  have hm := mk0_get x.showVisual x.cdStatic x.cdDynamic x.vobStatic (x.camAlign.setWidth 2) (x.shadows.setWidth 2)
  rw [← VObj.bit0_eq] at hm
  obtain ⟨k1, k2, k3, k4, k5, k6⟩ := hm
  have key := Loads.map (env := env) (φ := φ) (Loads.opt (b := x.hasVisualName) (old := o.visualName)
    (fun _ => Loads.str (env := env) (φ := φ) b!"visual" ((x.visual.map (·.name)).getD [])))
    (g := fun visualName => (({ o with
      bbox := x.bbox
      position := x.position
      rotation := x.rotation
      showVisual := x.bit0 &&& 1 != 0
      camAlign := (x.bit0 &&& 6) >>> 1
      cdStatic := x.bit0 &&& 8 != 0
      cdDynamic := x.bit0 &&& 16 != 0
      vobStatic := x.bit0 &&& 32 != 0
      shadows := (x.bit0 &&& 192) >>> 6
      physics := if c.g2 then x.physics && x.rigidBody.isSome else x.physics
      animMode := if c.g2 then (x.word c &&& 3).setWidth 8 else o.animMode
      bias := if c.g2 then ((x.word c &&& 0x3E00) >>> 9).setWidth 32 else o.bias
      ambient := if c.g2 then x.word c &&& 0x4000 != 0 else o.ambient
      animStrength := if c.g2 then x.animStrength else o.animStrength
      farClip := if c.g2 then x.farClip else o.farClip
      presetName := if (!x.presetName.isEmpty) = true then x.presetName else o.presetName
      vobName := if (!x.vobName.isEmpty) = true then x.vobName else o.vobName
      visualName } : VObj P), (⟨x.hasVisualObj, x.ai.isSome, x.eventManager.isSome && c.save⟩ : VObj.Has)))
  have e : ((if x.hasVisualName = true then (x.visual.map (·.name)).getD [] else o.visualName) : Bytes) =
      if VObj.nameOfVisual x.visual = [] then o.visualName else VObj.nameOfVisual x.visual := by
    rw [VObj.hasVisualName_eq, isEmpty_iff']
    unfold VObj.nameOfVisual
    cases x.visual <;> rfl
  simp only [e] at key
  have g2 : ∀ {γ : Type} (a b : γ), (if c.g2 = true then a else b) = if c.game = .g2 then a else b := by
    intro γ a b
    unfold Ctx.g2
    simp
  have ea : (if c.g2 = true then (x.word c &&& 3).setWidth 8 else o.animMode) = (VObj.stored c env φ o x).animMode := by
    simp only [VObj.stored, ← g2]
    cases hc : c.g2 with
    | false => rfl
    | true =>
      simp only [if_true, (h8 hc).1]
      cases x.presetName <;> cases x.vobName <;> rfl
  have eb : (if c.g2 = true then ((x.word c &&& 0x3E00) >>> 9).setWidth 32 else o.bias) = (VObj.stored c env φ o x).bias := by
    simp only [VObj.stored, ← g2]
    cases hc : c.g2 with
    | false => rfl
    | true => simp only [if_true, (h8 hc).2.1]
  have ec : (if c.g2 = true then x.word c &&& 0x4000 != 0 else o.ambient) = (VObj.stored c env φ o x).ambient := by
    simp only [VObj.stored, ← g2]
    cases hc : c.g2 with
    | false => rfl
    | true => simp only [if_true, (h8 hc).2.2]
  refine Eq.mp ?_ key
  congr 1
  simp only [isEmpty_iff', k1, k2, k3, k4, k5, k6, ← and3, ea, eb, ec]
  simp only [VObj.stored, g2]

theorem VObj.visualOf_stored (env : Env P) (φ : Nat → P) (name : Bytes) (x : VObj Nat) :
    VObj.visualOf env name (if x.hasVisualObj = true then (x.visual.map (·.obj)).map φ else none) =
      VObj.storedVisual env φ name x.visual := by
  unfold VObj.hasVisualObj VObj.storedVisual
  cases x.visual with
  | none => rfl
  | some r =>
    by_cases h : r.type = visUnknown
    · simp only [h, bne_self_eq_false, if_neg Bool.false_ne_true, if_true]
      rfl
    · simp only [bne_iff_ne.mpr h, if_true, if_neg h]
      rfl

theorem RigidBody.loads (b : RigidBody) : Loads env φ RigidBody.load b.save b := fun _ => rfl

/-- A saved object is read back as `VObj.stored`. -/
theorem VObj.loads {o : VObj P} {x : VObj Nat} (h : x.Readable c env φ) :
    Loads env φ (VObj.load c env o) (x.save c) (VObj.stored c env φ o x) := by
  unfold VObj.load VObj.save
  rw [h.pack]
  simp only [if_true, List.append_assoc, List.cons_append, List.nil_append]
  refine Loads.cons (Loads.int _ 1) ?_
  rw [if_pos (by decide)]
  rw [show ∀ t : List Field, (fRaw b!"dataRaw" (x.packed c ⟨[], 0⟩).data ::
      (fIf (!x.presetName.isEmpty) [fStr b!"presetName" x.presetName] ++
      (fIf (!x.vobName.isEmpty) [fStr b!"vobName" x.vobName] ++
      (fIf x.hasVisualName [fStr b!"visual" ((x.visual.map (·.name)).getD [])] ++ t)))) =
      ([fRaw b!"dataRaw" (x.packed c ⟨[], 0⟩).data] ++ (fIf (!x.presetName.isEmpty) [fStr b!"presetName" x.presetName] ++
      (fIf (!x.vobName.isEmpty) [fStr b!"vobName" x.vobName] ++
      fIf x.hasVisualName [fStr b!"visual" ((x.visual.map (·.name)).getD [])]))) ++ t by intro t; simp]
  refine Loads.bind (VObj.loadPacked_loads o x) ?_
  refine Loads.opt1 (fun _ => Loads.obj _ _) ?_
  refine Loads.opt1 (fun _ => Loads.obj _ _) ?_
  have he : (x.eventManager.isSome && c.save) = x.eventManager.isSome := by
    cases hx : x.eventManager.isSome with
    | false => rfl
    | true => rw [h.event hx]; rfl
  rw [he]
  refine Loads.opt1 (fun _ => Loads.objAs _ h.type) ?_
  have e1 : (if x.ai.isSome = true then x.ai.map φ else o.ai) = (VObj.stored c env φ o x).ai := by
    simp only [VObj.stored]
    cases x.ai <;> rfl
  have e2 : (if x.eventManager.isSome = true then x.eventManager.map φ else o.eventManager) =
      (VObj.stored c env φ o x).eventManager := by
    simp only [VObj.stored]
    cases x.eventManager <;> rfl
  have e3 := VObj.visualOf_stored env φ (VObj.stored c env φ o x).visualName x
  have hp : (if c.game = .g2 then x.physics && x.rigidBody.isSome else x.physics) = true → c.save = true →
      x.physics = true ∧ x.rigidBody.isSome = true := by
    intro hp hs
    split at hp
    · simpa using hp
    · rename_i hg
      exact ⟨hp, h.body (by cases hc : c.game with | g1 => rfl | g2 => exact absurd hc hg) hs hp⟩
  have hn : ¬(if c.game = .g2 then x.physics && x.rigidBody.isSome else x.physics) = true →
      ¬(x.physics = true ∧ x.rigidBody.isSome = true) := by
    rintro hp ⟨h1, h2⟩
    simp [h1, h2] at hp
  simp only [e1, e2, e3]
  cases hs : c.save with
  | false =>
    intro rest
    simp only [VObj.stored, hs]
    rfl
  | true =>
    simp only [fIf, if_true]
    refine Loads.cons (Loads.byte _ _) ?_
    refine Loads.cons (Loads.float _ _) ?_
    have hb : Loads env φ (Ld.opt (true && (VObj.stored c env φ o x).physics) o.rigidBody (do return some (← RigidBody.load)))
        x.saveBody (VObj.stored c env φ o x).rigidBody := by
      by_cases hq : (if c.game = .g2 then x.physics && x.rigidBody.isSome else x.physics) = true
      · obtain ⟨q1, q2⟩ := hp hq hs
        obtain ⟨b, hb⟩ := Option.isSome_iff_exists.mp q2
        have k1 : (VObj.stored c env φ o x).physics = true := hq
        have k2 : (VObj.stored c env φ o x).rigidBody = some b := by simp [VObj.stored, hs, q1, hb]
        have k3 : x.saveBody = b.save := by simp [VObj.saveBody, hb, q1, fIf]
        rw [k1, k2, k3]
        exact Loads.map (RigidBody.loads b)
      · have hq' := hn hq
        have k1 : (VObj.stored c env φ o x).physics = false := Bool.eq_false_iff.mpr hq
        have k2 : (VObj.stored c env φ o x).rigidBody = o.rigidBody := by
          simp only [VObj.stored]
          rw [if_neg]
          rintro ⟨_, h1, h2⟩
          exact hq' ⟨h1, h2⟩
        have k3 : x.saveBody = [] := by
          unfold VObj.saveBody
          cases hb : x.rigidBody with
          | none => rfl
          | some b =>
            have : x.physics = false := by
              cases hx : x.physics with
              | false => rfl
              | true => exact absurd ⟨hx, by rw [hb]; rfl⟩ hq'
            simp [this, fIf]
        rw [k1, k2, k3]
        exact Loads.pure _
    have := Loads.map (g := fun b => ({ VObj.stored c env φ o x with rigidBody := b } : VObj P)) hb
    have e4 : (VObj.stored c env φ o x).sleepMode = x.sleepMode := by simp [VObj.stored, hs]
    have e5 : (VObj.stored c env φ o x).nextOnTimer = x.nextOnTimer := by simp [VObj.stored, hs]
    simp only [e4, e5] at this
    have e6 : (VObj.stored c env φ o x) = { VObj.stored c env φ o x with sleepMode := x.sleepMode, nextOnTimer := x.nextOnTimer } := by
      rw [← e4, ← e5]
    rw [e6]
    exact this

end Verif.Obj
