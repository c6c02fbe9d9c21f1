import Verif.Lemmas.ObjAny
import Verif.Spec.ObjSame
import Verif.Props.ArchiveGraph

/-! # C76: objects of the game classes in archives -/

namespace Verif.Props

open Verif.Ar Verif.Obj

/-! ### Graphs of objects in the three formats -/

/-- C76 for BINARY archives: any finite graph of objects of the classes in `Cls` is written, and reading it makes for each object one
of the same type, whose members are, after `load`, those of the saved object as `Any.copy` says, and whose pointers denote the copies.
Missing: what `Any.copy` loses, what `Any.Readable` excludes, items with the flag 0x200. -/
theorem c76_binary_partial (c : Ctx) (T : Heap) (H : GHeap) (roots : List Field) (dom : List Nat) (top : List Seen → Option Want)
    (hg : T.Ok c H roots dom (fun _ v => Bin.OkVal v) (fun n c _ _ => NoEol n ∧ NoEol c)) (htop : Follows top roots)
    (w : Bin.Wr) (hw : w.ws.pos ≤ w.ws.data.length) (post : Bytes) (tail : List Nat) :
    ∃ cs g w', writeFields (writePtr H (dom.length + 1)) roots ⟨w.index, []⟩ = .ok (cs, g) ∧ Bin.calls w cs = some w' ∧
      (w'.ws.pos - w.ws.pos < 2 ^ 32 →
        ∃ N s' heap cache φ, (∀ f1 ≥ N, ∀ f2 ≥ N,
            readFields Bin.reader (readPtr Bin.reader (schema c) f1) top f2 [] ⟨⟨w'.ws.data ++ post, w.ws.pos⟩, tail⟩ ⟨[], []⟩ =
              .ok (roots.map (Field.got φ), s', ⟨heap, cache⟩)) ∧ IsCopy H roots heap φ ∧ Restored c T heap φ) := by
  obtain ⟨cs, g, w', h1, h2, h3⟩ := c19_binary H roots dom (schema c) top hg.graph htop w hw post tail
  refine ⟨cs, g, w', h1, h2, fun hs => ?_⟩
  obtain ⟨N, s', heap, cache, φ, hN, hc⟩ := h3 hs
  exact ⟨N, s', heap, cache, φ, hN, hc, hg.restored hc⟩

/-- C76 for BINSAFE archives. -/
theorem c76_binsafe_partial (c : Ctx) (T : Heap) (H : GHeap) (roots : List Field) (dom : List Nat) (top : List Seen → Option Want)
    (hg : T.Ok c H roots dom (fun _ v => Bs.OkVal v) (fun n c _ _ => Bs.OkName n ∧ Bs.OkName c)) (htop : Follows top roots)
    (w : Bs.Wr) (hw : w.ws.pos ≤ w.ws.data.length) (post : Bytes) :
    ∃ cs g, writeFields (writePtr H (dom.length + 1)) roots ⟨w.index, []⟩ = .ok (cs, g) ∧
      ∃ N s' heap cache φ, (∀ f1 ≥ N, ∀ f2 ≥ N,
          readFields Bs.reader (readPtr Bs.reader (schema c) f1) top f2 [] ⟨(Bs.calls w cs).ws.data ++ post, w.ws.pos⟩ ⟨[], []⟩ =
            .ok (roots.map (Field.got φ), s', ⟨heap, cache⟩)) ∧ IsCopy H roots heap φ ∧ Restored c T heap φ := by
  obtain ⟨cs, g, h1, N, s', heap, cache, φ, hN, hc⟩ := c19_binsafe H roots dom (schema c) top hg.graph htop w hw post
  exact ⟨cs, g, h1, N, s', heap, cache, φ, hN, hc, hg.restored hc⟩

/-- C76 for ASCII archives: names and values as in C17. -/
theorem c76_ascii_partial (c : Ctx) (T : Heap) (H : GHeap) (roots : List Field) (dom : List Nat) (top : List Seen → Option Want)
    (hg : T.Ok c H roots dom (fun n v => Asc.OkKey n ∧ Asc.OkVal v) (fun n c _ _ => Asc.OkName n ∧ Asc.OkName c))
    (htop : Follows top roots) (w : Asc.Wr) (hw : w.ws.pos = w.ws.data.length) (hi : w.indent = 0) (post : Bytes)
    (hpost : Solid post) :
    ∃ cs g, writeFields (writePtr H (dom.length + 1)) roots ⟨w.index, []⟩ = .ok (cs, g) ∧
      ∃ N s' heap cache φ, (∀ f1 ≥ N, ∀ f2 ≥ N,
          readFields Asc.reader (readPtr Asc.reader (schema c) f1) top f2 [] ⟨(Asc.calls w cs).ws.data ++ post, w.ws.pos⟩ ⟨[], []⟩ =
            .ok (roots.map (Field.got φ), s', ⟨heap, cache⟩)) ∧ IsCopy H roots heap φ ∧ Restored c T heap φ := by
  obtain ⟨cs, g, h1, N, s', heap, cache, φ, hN, hc⟩ := c19_ascii_partial H roots dom (schema c) top hg.graph htop w hw hi post hpost
  exact ⟨cs, g, h1, N, s', heap, cache, φ, hN, hc, hg.restored hc⟩

/-! ### `VirtualObject` -/

section
variable {P : Type} {c : Ctx} {env : Env P} {φ : Nat → P}

/-- A `VirtualObject` that is saved in the packed form and loaded into a new object keeps its members: the program `load`, given what
the calls of `save` have written, reads exactly that. Gothic 2 keeps physics only together with a rigid body. -/
theorem c76_vobject (x : VObj Nat) (h : x.Readable c env φ) (h1 : x.camAlign.toNat < 4) (h2 : x.shadows.toNat < 4)
    (h3 : c.game = .g2 → x.physics = true → x.rigidBody.isSome = true)
    (h4 : ∀ r, x.visual = some r → r.type ≠ visUnknown ∧ env.visual (φ r.obj) = some r.type) (rest : List (Item P)) :
    ∃ y, (VObj.load c env {}).run env ((x.save c).map (Field.item φ) ++ rest) = .ok (y, rest) ∧ VObj.Kept φ x y ∧
      (c.save = true → VObj.KeptSave x y) := by
  have small : ∀ v : BitVec 8, v.toNat < 4 → v &&& 3 = v := by
    intro v hv
    have hk : ∀ n : Fin 4, (BitVec.ofNat 8 n.val) &&& 3 = BitVec.ofNat 8 n.val := by decide
    have := hk ⟨v.toNat, hv⟩
    simpa using this
  refine ⟨_, VObj.loads h rest, ⟨rfl, rfl, rfl, rfl, small _ h1, rfl, rfl, rfl, small _ h2, ?_, ?_, ?_, ?_, ?_, ?_⟩, ?_⟩
  · unfold VObj.stored
    dsimp only
    split
    · rename_i hg
      cases hp : x.physics with
      | false => rfl
      | true => simp [h3 hg hp]
    · rfl
  · unfold VObj.stored
    dsimp only
    split <;> simp_all
  · unfold VObj.stored
    dsimp only
    split <;> simp_all
  · unfold VObj.stored
    cases x.ai <;> rfl
  · unfold VObj.stored
    cases x.eventManager <;> rfl
  · intro r hr
    obtain ⟨hu, hv⟩ := h4 r hr
    unfold VObj.stored VObj.storedVisual VObj.nameOfVisual
    simp only [hr, if_neg hu, hv]
    by_cases hn : r.name = [] <;> simp [hn]
  · intro hs
    refine ⟨by simp [VObj.stored, hs], by simp [VObj.stored, hs], fun hp => ?_⟩
    unfold VObj.stored
    simp only [hs, hp, true_and]
    cases x.rigidBody <;> rfl

/-- The classes of visuals in the order of the enumerators of `VisualType`. -/
def visualKinds : List ObjectType := [.zCDecal, .zCMesh, .zCProgMeshProto, .zCParticleFX, .zCAICamera, .zCModel, .zCMorphMesh]

/-- The type of a visual after `load` says which class the object of the visual has. -/
theorem c76_visual_kind (type : P → ObjectType) (flag : P → Bool) (d : P) (x : VObj Nat) (h : x.Readable c (Env.of type flag d) φ)
    (r : VisualRef Nat) (hr : x.visual = some r) (hu : r.type.toNat ≠ 7) (ht : type (φ r.obj) ∈ visualKinds) (rest : List (Item P)) :
    ∃ y v, (VObj.load c (Env.of type flag d) {}).run (Env.of type flag d) ((x.save c).map (Field.item φ) ++ rest) = .ok (y, rest) ∧
      y.visual = some v ∧ v.obj = φ r.obj ∧ visualKinds[v.type.toNat]? = some (type (φ r.obj)) := by
  have hu' : r.type ≠ visUnknown := fun e => hu (by rw [e]; rfl)
  have key : ∀ t ∈ visualKinds, ∃ v, visualType t = some v ∧ visualKinds[v.toNat]? = some t := by
    intro t h
    simp only [visualKinds, List.mem_cons, List.not_mem_nil, or_false] at h
    rcases h with rfl | rfl | rfl | rfl | rfl | rfl | rfl <;> exact ⟨_, rfl, rfl⟩
  obtain ⟨v, hv, hk⟩ := key _ ht
  have he : (Env.of type flag d).visual (φ r.obj) = some v := hv
  have : ∃ n, (VObj.stored c (Env.of type flag d) φ {} x).visual = some ⟨φ r.obj, n, v⟩ := by
    unfold VObj.stored VObj.storedVisual
    simp only [hr, if_neg hu', he]
    exact ⟨_, rfl⟩
  obtain ⟨n, hn⟩ := this
  exact ⟨_, _, VObj.loads h rest, hn, rfl, hk⟩

/-- Gothic 2, part: of the members it has in addition, the strength of the animation and the clipping distance are kept. Missing:
`anim_mode`, `bias` and `ambient`, see the violations. -/
theorem c76_vobject_g2_partial (x : VObj Nat) (h : x.Readable c env φ) (hg : c.game = .g2) (rest : List (Item P)) :
    ∃ y, (VObj.load c env {}).run env ((x.save c).map (Field.item φ) ++ rest) = .ok (y, rest) ∧
      y.animStrength = x.animStrength ∧ y.farClip = x.farClip ∧ (x.bias.getLsbD 1 = false → y.ambient = x.ambient) :=
  ⟨_, VObj.loads h rest, by simp [VObj.stored, hg], by simp [VObj.stored, hg], fun hb => by
    simp only [VObj.stored, hg, if_true, hb, Bool.or_false]⟩

/-- Violation: in Gothic 2, an object with a name and without a preset gets the animation mode 2, whatever it had. -/
theorem c76_anim_mode_violation (x : VObj Nat) (h : x.Readable c env φ) (hg : c.game = .g2) (hn : x.vobName ≠ [])
    (hp : x.presetName = []) (rest : List (Item P)) :
    ∃ y, (VObj.load c env {}).run env ((x.save c).map (Field.item φ) ++ rest) = .ok (y, rest) ∧ y.animMode = 2 :=
  ⟨_, VObj.loads h rest, by simp [VObj.stored, hg, hn, hp]⟩

/-- Violation: in Gothic 2, the animation mode of an object without name and preset is forgotten. -/
theorem c76_anim_mode_lost_violation (x : VObj Nat) (h : x.Readable c env φ) (hg : c.game = .g2) (hn : x.vobName = [])
    (hp : x.presetName = []) (rest : List (Item P)) :
    ∃ y, (VObj.load c env {}).run env ((x.save c).map (Field.item φ) ++ rest) = .ok (y, rest) ∧ y.animMode = 0 :=
  ⟨_, VObj.loads h rest, by simp [VObj.stored, hg, hn, hp]⟩

/-- Violation: in Gothic 2, the bias of a loaded object is 16 if it was odd, and 0 if not. -/
theorem c76_bias_violation (x : VObj Nat) (h : x.Readable c env φ) (hg : c.game = .g2) (rest : List (Item P)) :
    ∃ y, (VObj.load c env {}).run env ((x.save c).map (Field.item φ) ++ rest) = .ok (y, rest) ∧
      y.bias = if x.bias.getLsbD 0 then 16 else 0 :=
  ⟨_, VObj.loads h rest, by simp [VObj.stored, hg]⟩

/-- Violation: in Gothic 2, an object whose bias has bit 1 becomes ambient. -/
theorem c76_ambient_violation (x : VObj Nat) (h : x.Readable c env φ) (hg : c.game = .g2) (hb : x.bias.getLsbD 1 = true)
    (rest : List (Item P)) :
    ∃ y, (VObj.load c env {}).run env ((x.save c).map (Field.item φ) ++ rest) = .ok (y, rest) ∧ y.ambient = true :=
  ⟨_, VObj.loads h rest, by simp [VObj.stored, hg, hb]⟩

end

/-- A program run on what was saved; pointers keep their addresses and all answers about types are positive. -/
def reload {α} (p : Env Nat → Ld Nat α) (fs : List Field) : Except Fail (α × List (Item Nat)) :=
  (p ⟨fun _ _ => true, fun _ => true, fun _ => some 0, fun _ => false, 0⟩).run
    ⟨fun _ _ => true, fun _ => true, fun _ => some 0, fun _ => false, 0⟩ (fs.map (Field.item id))

/-- Violation: the object that `VirtualObject()` makes cannot be read again from a saved game of Gothic 1: it has physics but
no rigid body, so that `load` reads what `save` has not written. -/
theorem c76_g1_physics_violation :
    reload (fun env => VObj.load ⟨.g1, true, true⟩ env {}) (VObj.save ⟨.g1, true, true⟩ {}) = .error .ub := by
  decide +kernel

/-- Violation: an event manager that is saved outside a saved game is not read, and what follows is read in its place. -/
theorem c76_event_manager_violation :
    (do
      let (y, rest) ← reload (fun env => VObj.load ⟨.g2, false, true⟩ env {})
        (VObj.save ⟨.g2, false, true⟩ { eventManager := some 7 })
      return (y.eventManager, rest)) = Except.ok (none, [.ptr (some 7)]) := by
  decide +kernel

/-- Violation: an object that is saved with `enable_packed_save(false)` cannot be read: `load` always reads two objects, and
`save` writes the names again. -/
theorem c76_unpacked_violation (g : Game) (s : Bool) :
    reload (fun env => VObj.load ⟨g, s, false⟩ env {}) (VObj.save ⟨g, s, false⟩ { vobName := b!"A" }) = .error .ub := by
  revert s
  cases g <;> decide +kernel

/-- Violation: the name of a visual that is not of a known type is read into `visual_name`, but the next `save` takes the name from the
default visual: it is lost. -/
theorem c76_visual_name_violation (s : Bool) :
    (do
      let (y, _) ← reload (fun env => VObj.load ⟨.g2, s, true⟩ env {})
        (VObj.save ⟨.g2, s, true⟩ { visual := some ⟨5, b!"A.3DS", visUnknown⟩ })
      let (z, _) ← reload (fun env => VObj.load ⟨.g2, s, true⟩ env {}) (VObj.save ⟨.g2, s, true⟩ y)
      return (y.visualName, z.visualName)) = Except.ok (b!"A.3DS", []) := by
  revert s
  decide +kernel

/-! ### Other classes -/

section
variable {P : Type} {c : Ctx} {env : Env P} {φ : Nat → P}

/-- Every class of `Cls`, part: a readable object is read back, into an object that was just made, as `Any.copy` says. -/
theorem c76_class_partial (flag : Nat → Bool) (x : Any Nat) (fs : List Field) (h : x.Readable c env φ flag)
    (hs : x.save flag c = .ok fs) (rest : List (Item P)) :
    (x.cls.blank.load c env).run env (fs.map (Field.item φ) ++ rest) = .ok (x.copy c env φ, rest) := Any.loads h hs rest

/-- The state of the scripts, part: Gothic 1 keeps the first value of each symbol only. -/
theorem c76_save_state_partial (x : SaveState Nat) (fs : List Field) (hs : x.save c = .ok fs) (h : x.Readable env φ)
    (rest : List (Item P)) :
    ∃ y : SaveState P, (SaveState.load c).run env (fs.map (Field.item φ) ++ rest) = .ok (y, rest) ∧ y.day = x.day ∧ y.hour = x.hour ∧
      y.minute = x.minute ∧ y.missions = x.missions ∧ y.infos = x.infos ∧ y.log = x.log ∧ y.guildAttitudes = x.guildAttitudes ∧
      y.cutsceneManager = x.cutsceneManager.map φ ∧
      (c.game = .g2 ∨ (∀ s ∈ x.symbols, s.values.length ≤ 1) → y.symbols = x.symbols) := by
  refine ⟨_, SaveState.loads hs h rest, rfl, rfl, rfl, rfl, rfl, rfl, rfl, rfl, ?_⟩
  intro hc
  unfold SaveState.copy
  dsimp only
  conv_rhs => rw [← List.map_id x.symbols]
  refine List.map_congr_left fun s hm => ?_
  rcases hc with hc | hc
  · simp [hc]
  · split
    · rfl
    · rw [List.take_of_length_le (hc s hm)]
      rfl

/-- Violation: the flags of a trigger that are members of their own are not saved, only the bits are. -/
theorem c76_trigger_flags_violation (x : VTrigger Nat) (h : x.base.Readable c env φ) (rest : List (Item P)) :
    ∃ y, (VTrigger.load c env {}).run env ((x.save c).map (Field.item φ) ++ rest) = .ok (y, rest) ∧
      y.startEnabled = x.flags.getLsbD 0 ∧ y.respondToPc = x.filterFlags.getLsbD 4 :=
  ⟨_, VTrigger.loads (VObj.loads h) rest, rfl, rfl⟩

/-- Violation: the matrix of a camera frame is transposed. -/
theorem c76_frame_pose_violation (x : VFrame Nat) (h : x.base.Readable c env φ) (rest : List (Item P)) :
    ∃ y, (VFrame.load c env {}).run env ((x.save c).map (Field.item φ) ++ rest) = .ok (y, rest) ∧
      y.originalPose = x.originalPose.transpose :=
  ⟨_, VFrame.loads (VObj.loads h) rest, rfl⟩

/-- Violation: a camera whose counts say more frames than it has is saved with undefined behaviour. -/
theorem c76_camera_count_violation (x : VCamera Nat) (h : x.trajectoryFrames.length < Ld.rounds x.positionCount) :
    x.save c = .error .ub := by
  unfold VCamera.save VCamera.frames
  rw [if_neg (by omega)]
  rfl

/-- Violation: of the packed strings of a character, Gothic 2 keeps the first. -/
theorem c76_npc_packed_violation (flag : Nat → Bool) (x : VNpc Nat) (fs : List Field) (hg : c.game = .g2)
    (hb : x.base.Readable c env φ) (h : x.Readable c env φ flag) (hs : x.save flag c = .ok fs) (rest : List (Item P)) :
    ∃ y, (VNpc.load c env {}).run env (fs.map (Field.item φ) ++ rest) = .ok (y, rest) ∧
      y.packed = x.packed.take 1 ++ List.replicate 8 [] :=
  ⟨_, VNpc.loads (VObj.loads hb) ⟨rfl, rfl, rfl, rfl, rfl, rfl⟩ hs h rest, by simp [VNpc.copy, Ctx.g2, hg]⟩

/-- Violation: `CutsceneAtomicBlock::synchronized` is not saved. -/
theorem c76_synchronized_violation (x : AtomicBlock Nat) (h : Typed env φ .oCMsgConversation x.message) (rest : List (Item P)) :
    ∃ y, (AtomicBlock.load {}).run env (x.save.map (Field.item φ) ++ rest) = .ok (y, rest) ∧ y.synchronized = false :=
  ⟨_, AtomicBlock.loads h rest, rfl⟩

/-- Violation: a trigger list with 256 targets, or 512 and so on, loses all of them, and their entries are left behind. -/
theorem c76_trigger_list_violation (x : VTriggerList Nat) (h : x.base.base.Readable c env φ) (hc : c.save = false)
    (hn : x.targets.length % 256 = 0) :
    ∃ y rest, (VTriggerList.load c env {}).run env ((x.save c).map (Field.item φ)) = .ok (y, rest) ∧ y.targets = [] ∧
      rest.length = 2 * x.targets.length := by
  have hz : BitVec.ofNat 8 x.targets.length = 0 := by
    apply BitVec.eq_of_toNat_eq
    simpa using hn
  have hb := VTrigger.loads (o := {}) (x := x.base) (VObj.loads h)
  unfold VTriggerList.save
  rw [hz, hc]
  generalize htf : (x.targets.zipIdx.flatMap _ : List Field) = tf
  refine ⟨⟨x.base.copy c env φ (VObj.stored c env φ {} x.base.base) {}, x.mode, [], 0, false⟩, tf.map (Field.item φ), ?_, rfl, ?_⟩
  rotate_left
  · rw [← htf, List.length_map]
    simp only [List.length_flatMap, List.length_cons, List.length_nil]
    rw [List.map_const', List.length_zipIdx]
    simp [Nat.mul_comm]
  · simp only [fIf, List.append_assoc, List.map_append, List.append_nil, if_neg (by decide : ¬(false = true))]
    have := hb (List.map (Field.item φ) [fEnum b!"listProcess" x.mode, fByte b!"numTargets" 0] ++ tf.map (Field.item φ))
    unfold VTriggerList.load
    rw [show ∀ (p : Ld P (VTrigger P)) (g : VTrigger P → Ld P (VTriggerList P)), (p >>= g) = p.bind g from fun _ _ => rfl,
      Ld.run_bind, this]
    rw [hc]
    rfl

end

/-- Violation: Gothic 1 saves the first value of a symbol without asking whether there is one. -/
theorem c76_empty_symbol_violation (s : Bool) (i : Nat) : SymbolState.save ⟨.g1, s, true⟩ (⟨b!"A", []⟩, i) = .error .ub := by
  cases s <;> rfl

/-- Violation: a code master in a saved game of Gothic 2 cannot be read: `load` reads a byte that `save` does not write. -/
theorem c76_code_master_violation :
    reload (fun env => VCodeMaster.load ⟨.g2, true, true⟩ env {})
      (VCodeMaster.save ⟨.g2, true, true⟩ { base := { physics := false } }) = .error .ub := by
  decide +kernel

/-- A code master without slaves in a saved game of Gothic 2, as Gothic itself writes it: with the byte that `save` leaves out,
everything is read. Missing: code masters with slaves, whose objects follow. -/
theorem c76_code_master_game_partial {P} (env : Env P) (φ : Nat → P) (c : Ctx) (hc : c.save = true ∧ c.g2 = true)
    (o : VCodeMaster P) (x : VCodeMaster Nat) (b : VObj P) (n : BitVec 8)
    (hb : Loads env φ (VObj.load c env o.base) (x.base.save c) b) (hs : x.slaves = []) :
    Loads env φ (VCodeMaster.load c env o) (x.save c ++ [fByte b!"numSlavesTriggered" n])
      ⟨b, x.target, x.ordered, x.firstFalseIsFailure, x.failureTarget, x.untriggeredCancels, o.slaves, n⟩ := by
  simp only [VCodeMaster.save, List.append_assoc, List.cons_append, List.nil_append]
  refine Loads.bind hb ?_
  intro rest
  obtain ⟨game, save, pack⟩ := c
  obtain ⟨rfl, h2⟩ := hc
  cases game with
  | g1 => cases h2
  | g2 =>
    rw [hs]
    simp only [List.length_nil, List.take_nil]
    conv => rhs; rw [← List.append_nil o.slaves]
    rfl

/-- A screen effect in a saved game: whatever Gothic has stored in its three blocks (20 bytes each in Gothic 1, 48 in Gothic 2) and
the two vectors, the object is read and what follows it is found. -/
theorem c76_screen_effect_game {P} (env : Env P) (φ : Nat → P) (c : Ctx) (hc : c.save = true) (o : VScreenEffect P) (fs : List Field)
    (b : VObj P) (hb : Loads env φ (VObj.load c env o.base) fs b) (n1 n2 n3 n4 n5 r1 r2 r3 : Bytes) (v w : Vec2)
    (hl : ∀ r ∈ [r1, r2, r3], r.length = match c.game with | .g1 => 20 | .g2 => 48) :
    Loads env φ (VScreenEffect.load c env o) (fs ++ [fRaw n1 r1, fRaw n2 r2, fRaw n3 r3, fVec2 n4 v, fVec2 n5 w]) ⟨b⟩ := by
  have hz : VScreenEffect.size c = match c.game with | .g1 => 20 | .g2 => 48 := by
    obtain ⟨game, save, pack⟩ := c
    cases game <;> rfl
  rw [← hz] at hl
  have raw : ∀ (n r : Bytes), r.length = VScreenEffect.size c →
      Loads env φ (Ld.opt c.save () (Ld.raw (VScreenEffect.size c) (pure ()))) [fRaw n r] () := by
    intro n r h
    rw [hc]
    exact Loads.raw n h (Reads.pure ()) ⟨r, by simp⟩
  have vec : ∀ (n : Bytes) (v : Vec2), Loads env φ (Ld.opt c.save Vec2.zero Ld.vec2) [fVec2 n v] v := by
    intro n v
    rw [hc]
    exact Loads.vec2 n v
  exact Loads.bind hb (Loads.cons (raw _ _ (hl _ (by simp))) (Loads.cons (raw _ _ (hl _ (by simp))) (Loads.cons (raw _ _ (hl _ (by simp)))
    (Loads.cons (vec _ _) (Loads.map (vec _ _))))))

/-- Both theorems speak about objects: a fresh object that is saved is loaded. -/
example (env : Env Nat) : ∃ b : VObj Nat, Loads env id (VObj.load ⟨.g2, true, true⟩ env {}) (VObj.save ⟨.g2, true, true⟩ {}) b :=
  ⟨_, VObj.loads ⟨rfl, fun _ => rfl, fun _ h => (by cases h), fun h => (by cases h)⟩⟩

/-! ### A graph that meets the hypotheses: a named object with a decal, and its AI, which points back to it -/

def objCtx : Ctx := ⟨.g2, false, true⟩

def objVob : VObj Nat :=
  { vobName := b!"A", visual := some ⟨20, b!"X.TGA", 0⟩, ai := some 30, camAlign := 1, physics := false, farClip := 0x3F800000 }

def objDecal : VDecal := { name := b!"X.TGA", type := 0, twoSided := true }

def objHeap : Heap
  | 10 => some ⟨.zCVob, 52224, .VObj objVob⟩
  | 20 => some ⟨.zCDecal, 0, .VDecal objDecal⟩
  | 30 => some ⟨.oCAIVobMove, 0, .AiMove ⟨some 10, none⟩⟩
  | _ => none

/-- What is written for them. -/
def objCalls : GHeap
  | 10 => some ⟨.zCVob, 52224, objVob.save objCtx⟩
  | 20 => some ⟨.zCDecal, 0, objDecal.save objCtx⟩
  | 30 => some ⟨.oCAIVobMove, 0, AiMove.save ⟨some 10, none⟩⟩
  | _ => none

def objRoots : List Field := [.ptr b!"x" (some 10)]

def objTop : List Seen → Option Want
  | [] => some .ptr
  | _ => none

example : Follows objTop objRoots := by unfold Follows; decide

/-- The names of pointers among some fields. -/
def ptrNames : List Field → List Bytes
  | [] => []
  | .ptr n _ :: l => n :: ptrNames l
  | .val _ _ :: l => ptrNames l

/-- The names and values among some fields. -/
def vals : List Field → List (Bytes × Val)
  | [] => []
  | .ptr _ _ :: l => vals l
  | .val n v :: l => (n, v) :: vals l

theorem fields_ok {pv : Bytes → Val → Prop} {q : Bytes → Prop} (l : List Field)
    (hq' : ∀ t c, tableFind classNamesTable t = some c → q c) (hr : q refClass) (hn : q nullClass)
    (h1 : ∀ p ∈ vals l, pv p.1 p.2) (h2 : ∀ n ∈ ptrNames l, q n) :
    ∀ f ∈ l, f.Ok pv (fun n c _ _ => q n ∧ q c) := by
  induction l with
  | nil => intro f hf; cases hf
  | cons g l ih =>
    intro f hf
    cases g with
    | val n v =>
      rcases List.mem_cons.1 hf with rfl | hf
      · exact h1 (n, v) List.mem_cons_self
      · exact ih (fun p hp => h1 p (List.mem_cons_of_mem _ hp)) h2 f hf
    | ptr n p =>
      rcases List.mem_cons.1 hf with rfl | hf
      · refine fun c _ _ hc => ⟨h2 n List.mem_cons_self, ?_⟩
        rcases hc with rfl | rfl | ⟨t, h⟩
        · exact hr
        · exact hn
        · exact hq' t c h
      · exact ih h1 (fun n hn => h2 n (List.mem_cons_of_mem _ hn)) f hf

theorem obj_ok (pv : Bytes → Val → Prop) (q : Bytes → Prop) (hq' : ∀ t c, tableFind classNamesTable t = some c → q c)
    (hr : q refClass) (hn : q nullClass)
    (hv : ∀ p ∈ vals (objVob.save objCtx) ++ vals (objDecal.save objCtx), pv p.1 p.2)
    (hp : ∀ n ∈ [b!"x", b!"visual", b!"ai", b!"vob", b!"owner"], q n) :
    objHeap.Ok objCtx objCalls objRoots [10, 20, 30] pv (fun n c _ _ => q n ∧ q c) := by
  have hcases : ∀ a n, objHeap a = some n → a = 10 ∨ a = 20 ∨ a = 30 := by
    intro a n h
    unfold objHeap at h
    split at h <;> simp_all
  have hcases' : ∀ a n, objCalls a = some n → a = 10 ∨ a = 20 ∨ a = 30 := by
    intro a n h
    unfold objCalls at h
    split at h <;> simp_all
  have r10 : Reach objCalls objRoots 10 := .root (n := b!"x") (by decide)
  have r20 : Reach objCalls objRoots 20 := .step (n := b!"visual") r10 rfl (by decide +kernel)
  have r30 : Reach objCalls objRoots 30 := .step (n := b!"ai") r10 rfl (by decide +kernel)
  have hc : ∀ f ∈ objVob.save objCtx ++ objDecal.save objCtx ++ AiMove.save ⟨some 10, none⟩, ∀ n b,
      f = Field.ptr n (some b) → b = 10 ∨ b = 20 ∨ b = 30 := by
    intro f hf n b he
    have : (objVob.save objCtx ++ objDecal.save objCtx ++ AiMove.save ⟨some 10, none⟩).all
        (fun f => match f with | .ptr _ (some b) => decide (b = 10 ∨ b = 20 ∨ b = 30) | _ => true) = true := by decide +kernel
    have := List.all_eq_true.1 this f hf
    subst he
    simpa using this
  constructor
  · intro a
    by_cases h1 : a = 10
    · subst h1; exact .inr ⟨_, _, rfl, rfl, rfl⟩
    by_cases h2 : a = 20
    · subst h2; exact .inr ⟨_, _, rfl, rfl, rfl⟩
    by_cases h3 : a = 30
    · subst h3; exact .inr ⟨_, _, rfl, rfl, rfl⟩
    · refine .inl ⟨?_, ?_⟩
      · cases h : objHeap a with
        | none => rfl
        | some n => rcases hcases a n h with h | h | h <;> contradiction
      · cases h : objCalls a with
        | none => rfl
        | some n => rcases hcases' a n h with h | h | h <;> contradiction
  · intro a n h
    rcases hcases a n h with rfl | rfl | rfl <;> decide
  · decide
  · intro a n h
    rcases hcases a n h with rfl | rfl | rfl
    · exact r10
    · exact r20
    · exact r30
  · intro n a h
    simp only [objRoots, List.mem_cons, Field.ptr.injEq, Option.some.injEq, List.not_mem_nil, or_false] at h
    rw [h.2]; rfl
  · intro a o h n b hb
    have : b = 10 ∨ b = 20 ∨ b = 30 := by
      rcases hcases' a o h with rfl | rfl | rfl <;> cases h <;> refine hc _ ?_ n b rfl <;> simp only [List.mem_append]
      · exact .inl (.inl hb)
      · exact .inl (.inr hb)
      · exact .inr hb
    rcases this with rfl | rfl | rfl <;> rfl
  · intro a n h
    rcases hcases a n h with rfl | rfl | rfl <;> cases h <;> rfl
  · intro a n h
    rcases hcases a n h with rfl | rfl | rfl <;> cases h
    · exact ⟨rfl, (by decide), (fun _ h => by cases h), (by decide)⟩
    · trivial
    · exact fun _ h => by cases h
  · intro a
    unfold Heap.flag
    split
    · rename_i h
      rcases hcases _ _ h with rfl | rfl | rfl <;> cases h
    · rfl
  · exact fields_ok _ hq' hr hn (fun _ h => by cases h) (fun n h => hp n (by revert n; decide))
  · intro a o h
    rcases hcases' a o h with rfl | rfl | rfl <;> cases h
    · exact fields_ok _ hq' hr hn (fun p hm => hv p (List.mem_append_left _ hm)) (fun n h => hp n (by revert n; decide +kernel))
    · exact fields_ok _ hq' hr hn (fun p hm => hv p (List.mem_append_right _ hm)) (fun n h => hp n (by revert n; decide +kernel))
    · exact fields_ok _ hq' hr hn (fun _ h => by cases h) (fun n h => hp n (by revert n; decide))

example : objHeap.Ok objCtx objCalls objRoots [10, 20, 30] (fun _ v => Bin.OkVal v) (fun n c _ _ => NoEol n ∧ NoEol c) :=
  obj_ok _ _ (fun t c h => (classNames_ok t c h).1) (by decide) (by decide) (by decide +kernel) (by decide)

example : objHeap.Ok objCtx objCalls objRoots [10, 20, 30] (fun _ v => Bs.OkVal v) (fun n c _ _ => Bs.OkName n ∧ Bs.OkName c) :=
  obj_ok _ _ (fun t c h => (classNames_ok t c h).2.1) (by decide) (by decide) (by decide +kernel) (by decide)

/-! For ASCII archives: the cutscenes of a saved game, one of them twice. A `VirtualObject` would do only if its packed form has no byte
below 16 behind one of at least 16 (C17). -/

def ascHeap : Heap
  | 10 => some ⟨.oCCSManager, 0, .CutsceneManager ⟨[some 20, none, some 20]⟩⟩
  | 20 => some ⟨.zCCSPoolItem, 0, .CutscenePoolItem { name := b!"INTRO", timesPlayed := 3 }⟩
  | _ => none

def ascCalls : GHeap
  | 10 => some ⟨.oCCSManager, 0, CutsceneManager.save ⟨[some 20, none, some 20]⟩⟩
  | 20 => some ⟨.zCCSPoolItem, 0, CutscenePoolItem.save objCtx { name := b!"INTRO", timesPlayed := 3 }⟩
  | _ => none

theorem asc_ok : ascHeap.Ok objCtx ascCalls objRoots [10, 20] (fun n v => Asc.OkKey n ∧ Asc.OkVal v)
    (fun n c _ _ => Asc.OkName n ∧ Asc.OkName c) := by
  have hcases : ∀ a n, ascHeap a = some n → a = 10 ∨ a = 20 := by
    intro a n h
    unfold ascHeap at h
    split at h <;> simp_all
  have hcases' : ∀ a n, ascCalls a = some n → a = 10 ∨ a = 20 := by
    intro a n h
    unfold ascCalls at h
    split at h <;> simp_all
  have r10 : Reach ascCalls objRoots 10 := .root (n := b!"x") (by decide)
  have r20 : Reach ascCalls objRoots 20 := .step (n := b!"%") r10 rfl (by decide +kernel)
  have hcl : ∀ t c, tableFind classNamesTable t = some c → Asc.OkName c := fun t c h => (classNames_ok t c h).2.2
  constructor
  · intro a
    by_cases h1 : a = 10
    · subst h1; exact .inr ⟨_, _, rfl, rfl, rfl⟩
    by_cases h2 : a = 20
    · subst h2; exact .inr ⟨_, _, rfl, rfl, rfl⟩
    · refine .inl ⟨?_, ?_⟩
      · cases h : ascHeap a with
        | none => rfl
        | some n => rcases hcases a n h with h | h <;> contradiction
      · cases h : ascCalls a with
        | none => rfl
        | some n => rcases hcases' a n h with h | h <;> contradiction
  · intro a n h
    rcases hcases a n h with rfl | rfl <;> decide
  · decide
  · intro a n h
    rcases hcases a n h with rfl | rfl
    · exact r10
    · exact r20
  · intro n a h
    simp only [objRoots, List.mem_cons, Field.ptr.injEq, Option.some.injEq, List.not_mem_nil, or_false] at h
    rw [h.2]; rfl
  · intro a o h n b hb
    have : b = 20 := by
      rcases hcases' a o h with rfl | rfl <;> cases h
      · have : n = b!"%" ∧ b = 20 := by simpa [CutsceneManager.save, fInt, fObj] using hb
        exact this.2
      · simp [CutscenePoolItem.save, fStr, fInt, fEnum] at hb
    subst this
    rfl
  · intro a n h
    rcases hcases a n h with rfl | rfl <;> cases h <;> rfl
  · intro a n h
    rcases hcases a n h with rfl | rfl <;> cases h
    · refine ⟨by unfold Fits31; decide, ?_⟩
      intro p hp a ha
      subst ha
      simp only [List.mem_cons, Option.some.injEq, reduceCtorEq, List.not_mem_nil, or_false, false_or, or_self] at hp
      subst hp
      rfl
    · trivial
  · intro a
    unfold Heap.flag
    split
    · rename_i h
      rcases hcases _ _ h with rfl | rfl <;> cases h
    · rfl
  · exact fields_ok _ hcl (by decide) (by decide) (fun _ h => by cases h) (by decide)
  · intro a o h
    rcases hcases' a o h with rfl | rfl <;> cases h
    · exact fields_ok _ hcl (by decide) (by decide) (by decide +kernel) (by decide +kernel)
    · exact fields_ok _ hcl (by decide) (by decide) (by decide +kernel) (by decide +kernel)

end Verif.Props
