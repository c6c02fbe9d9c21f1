import Verif.Lemmas.DaedalusConst
import Verif.Spec.DaedalusTrap
import Verif.Lemmas.DaedalusMemoryCall

/-!
# What scripts can do with trapped variables
-/

namespace Verif.Daedalus

open Verif.Spec.Daedalus

/-! ## The machine with another value -/

/-- A symbol as the other machine has it. -/
def other (y : Nat) (x : SymVal) (z : Nat) (s : Sym) : Sym := if z = y then { s with value := x } else s

theorem other_ne {y : Nat} {x : SymVal} {z : Nat} {s : Sym} (h : z ≠ y) : other y x z s = s := if_neg h

theorem other_index {y : Nat} {x : SymVal} {z : Nat} {s : Sym} : (other y x z s).index = s.index := by unfold other; split <;> rfl
theorem other_name {y : Nat} {x : SymVal} {z : Nat} {s : Sym} : (other y x z s).name = s.name := by unfold other; split <;> rfl
theorem other_count {y : Nat} {x : SymVal} {z : Nat} {s : Sym} : (other y x z s).count = s.count := by unfold other; split <;> rfl
theorem other_type {y : Nat} {x : SymVal} {z : Nat} {s : Sym} : (other y x z s).type = s.type := by unfold other; split <;> rfl
theorem other_rtype {y : Nat} {x : SymVal} {z : Nat} {s : Sym} : (other y x z s).rtype = s.rtype := by unfold other; split <;> rfl
theorem other_flags {y : Nat} {x : SymVal} {z : Nat} {s : Sym} : (other y x z s).flags = s.flags := by unfold other; split <;> rfl
theorem other_address {y : Nat} {x : SymVal} {z : Nat} {s : Sym} : (other y x z s).address = s.address := by
  unfold other; split <;> rfl
theorem other_hasReturn {y : Nat} {x : SymVal} {z : Nat} {s : Sym} : (other y x z s).hasReturn = s.hasReturn := by
  unfold Sym.hasReturn; rw [other_flags]
theorem other_hasLocals {y : Nat} {x : SymVal} {z : Nat} {s : Sym} : (other y x z s).hasLocals = s.hasLocals := by
  unfold Sym.hasLocals; rw [other_flags]
theorem other_hasAccessTrap {y : Nat} {x : SymVal} {z : Nat} {s : Sym} : (other y x z s).hasAccessTrap = s.hasAccessTrap := by
  unfold Sym.hasAccessTrap; rw [other_flags]
theorem other_localSlots {y : Nat} {x : SymVal} {z : Nat} {s : Sym} : localSlots (other y x z s) = localSlots s := by
  unfold localSlots; rw [other_type, other_count]

theorem withValue_sym (y : Nat) (x : SymVal) (v : Vm) (z : Nat) :
    (withValue y x v).syms[z]? = (v.syms[z]?).map (other y x z) := by
  show (v.syms.modify y _)[z]? = _
  rw [List.getElem?_modify]
  cases v.syms[z]? with
  | none => rfl
  | some s =>
    show some _ = some _
    unfold other
    dsimp only
    by_cases h : y = z
    · rw [if_pos h, if_pos h.symm]
    · rw [if_neg h, if_neg (Ne.symm h)]

theorem withValue_length (y : Nat) (x : SymVal) (v : Vm) : (withValue y x v).syms.length = v.syms.length :=
  List.length_modify _ _ _

theorem withValue_set {y : Nat} {x : SymVal} {l : List Sym} {z : Nat} (hz : z ≠ y) (s : Sym) :
    (l.modify y fun s => { s with value := x }).set z s = (l.set z s).modify y fun s => { s with value := x } := by
  apply List.ext_getElem?
  intro i
  rw [List.getElem?_set, List.getElem?_modify, List.getElem?_modify, List.getElem?_set, List.length_modify]
  by_cases h : z = i
  · subst i
    rw [if_pos rfl, if_pos rfl]
    split
    · show some _ = some _
      dsimp only
      rw [if_neg (Ne.symm hz)]
    · rfl
  · rw [if_neg h, if_neg h]

theorem withValue_map_names (y : Nat) (x : SymVal) (v : Vm) : (withValue y x v).syms.map Sym.name = v.syms.map Sym.name := by
  apply List.ext_getElem?
  intro i
  rw [List.getElem?_map, List.getElem?_map, withValue_sym]
  cases v.syms[i]? with
  | none => rfl
  | some s => exact congrArg some other_name

theorem withValue_localsOf (y : Nat) (x : SymVal) (v : Vm) (z : Nat) (f : Sym) :
    localsOf (withValue y x v) (other y x z f) = localsOf v f := by
  unfold Daedalus.localsOf findLocals
  rw [other_index, other_count, other_name]
  dsimp only
  have : ∀ k n, localsEnd f.name ((withValue y x v).syms.drop k) n = localsEnd f.name (v.syms.drop k) n := fun k n =>
    localsEnd_congr (by rw [List.map_drop, List.map_drop, withValue_map_names]) n
  rw [this]

theorem lastIndex_modify {p : Sym → Bool} {g : Sym → Sym} (hg : ∀ s, p (g s) = p s) (y : Nat) (l : List Sym) :
    lastIndex p (l.modify y g) = lastIndex p l := by
  induction l generalizing y with
  | nil => cases y <;> rfl
  | cons s l ih =>
    cases y with
    | zero =>
      show lastIndex p (g s :: l) = _
      unfold lastIndex
      rw [hg]
    | succ y =>
      show lastIndex p (s :: l.modify y g) = _
      unfold lastIndex
      rw [ih]

theorem withValue_findByAddress (y : Nat) (x : SymVal) (v : Vm) (a : BitVec 32) :
    findByAddress (withValue y x v).syms a = findByAddress v.syms a := 
  lastIndex_modify (p := fun s => hasCode s && s.address == a) (g := fun s => { s with value := x }) (fun _ => rfl) y v.syms

/-! ## Operations that do not touch the variable -/

/-- What the machine does, and what it does with another value of the variable. -/
def TrAt {α} (y : Nat) (x : SymVal) (v : Vm) (p q : M α) : Prop := TrappedVar y v → NoRef y v →
  Same v (p v).2 ∧ (p v).2.syms[y]? = v.syms[y]? ∧ NoRef y (p v).2 ∧ q (withValue y x v) = ((p v).1, withValue y x (p v).2)

def Tr {α} (y : Nat) (x : SymVal) (p : M α) : Prop := ∀ v, TrAt y x v p p

theorem _root_.Verif.Spec.Daedalus.TrappedVar.same {y : Nat} {v w : Vm} (h : TrappedVar y v) (hs : Same v w) : TrappedVar y w := by
  obtain ⟨s, h1, h2⟩ := h.trap
  obtain ⟨s', k1, k2, -⟩ := hs.decl y s h1
  refine ⟨⟨s', k1, ?_⟩, by rw [hs.tmp]; exact h.tmp, fun z f' hz hl => ?_, fun pos pc i pos' hi => h.code pos pc i pos' ?_⟩
  · unfold Sym.hasAccessTrap at *
    rw [shape_flags k2]
    exact h2
  · obtain ⟨f, h1, h2, h3⟩ := hs.symm.decl z f' hz
    obtain ⟨hzt, hloc⟩ := h.locals z f h1 (by rw [shape_hasLocals h2]; exact hl)
    refine ⟨by rw [hs.tmp]; exact hzt, ?_⟩
    have hf := h3 (by rw [hs.tmp]; exact hzt)
    rw [hs.localsOf h2.symm (extent_count hf).symm]
    exact hloc
  · rw [hs.text] at hi
    exact hi

variable {y : Nat} {x : SymVal}

theorem TrAt.bind {α β} {v : Vm} {p q : M α} {f g : α → M β} (hp : TrAt y x v p q)
    (hf : ∀ a w, p v = (.ok a, w) → TrappedVar y w → NoRef y w → TrAt y x w (f a) (g a)) : TrAt y x v (p >>= f) (q >>= g) := by
  intro hv hn
  obtain ⟨h1, h2, h3, h4⟩ := hp hv hn
  rw [M.bind_def, M.bind_def, h4]
  match h : p v with
  | (.ok a, w) =>
    rw [h] at h1 h2 h3
    obtain ⟨k1, k2, k3, k4⟩ := hf a w h (hv.same h1) h3 (hv.same h1) h3
    exact ⟨h1.trans k1, k2.trans h2, k3, k4⟩
  | (.error e, w) =>
    rw [h] at h1 h2 h3
    exact ⟨h1, h2, h3, rfl⟩

theorem Tr.bind {α β} {p : M α} {f : α → M β} (hp : Tr y x p) (hf : ∀ a, Tr y x (f a)) : Tr y x (p >>= f) :=
  fun v => (hp v).bind fun a w _ _ _ => hf a w

theorem TrAt.get {β} {v : Vm} {f g : Vm → M β} (h : TrAt y x v (f v) (g (withValue y x v))) :
    TrAt y x v (M.get >>= f) (M.get >>= g) := by
  unfold TrAt
  rw [M.get_bind, M.get_bind]
  exact h

theorem Tr.get {β} {f : Vm → M β} (h : ∀ v, TrAt y x v (f v) (f (withValue y x v))) : Tr y x (M.get >>= f) :=
  fun v => TrAt.get (h v)

theorem Tr.lift {α} (r : Except Fail α) : Tr y x (M.lift r) := fun v _ hn => ⟨Same.refl v, rfl, hn, rfl⟩
theorem Tr.fail {α} (e : Fail) : Tr y x (M.fail e : M α) := fun v _ hn => ⟨Same.refl v, rfl, hn, rfl⟩
theorem Tr.throw {α} (e : Exc) : Tr y x (M.throw e : M α) := Tr.fail _
theorem Tr.ub {α} : Tr y x (M.ub : M α) := Tr.fail _
theorem Tr.pure {α} (a : α) : Tr y x (Pure.pure a : M α) := fun v _ hn => ⟨Same.refl v, rfl, hn, rfl⟩

theorem Tr.ite {α} {c : Prop} [Decidable c] {p q : M α} (hp : Tr y x p) (hq : Tr y x q) : Tr y x (if c then p else q) := by
  split
  · exact hp
  · exact hq

/-- Reading a symbol. -/
theorem TrAt.sym {β} {v : Vm} {f g : Sym → M β} (z : Nat)
    (h : ∀ s, v.syms[z]? = some s → TrAt y x v (f s) (g (other y x z s))) : TrAt y x v (symAt z >>= f) (symAt z >>= g) := by
  unfold TrAt
  rw [M.bind_def, M.bind_def, symAt_eq, symAt_eq, withValue_sym]
  cases hs : v.syms[z]? with
  | none => exact fun _ hn => ⟨Same.refl v, rfl, hn, rfl⟩
  | some s => exact h s hs

theorem Tr.symOther {β} {f : Sym → M β} {z : Nat} (hz : z ≠ y) (h : ∀ s, Tr y x (f s)) : Tr y x (symAt z >>= f) :=
  fun v => TrAt.sym z fun s _ => by rw [other_ne hz]; exact h s v

theorem Tr.setSp (sp : BitVec 16) : Tr y x (setSp sp) := fun v _ hn => ⟨(Kp.setSp sp v).toSame, rfl, hn, rfl⟩
theorem Tr.markFree (i : Byte) : Tr y x (markFree i) := fun v _ hn => ⟨(Kp.markFree i v).toSame, rfl, hn, rfl⟩

theorem Tr.stackGet (i : Nat) : Tr y x (stackGet i) := by
  intro v _ hn
  refine ⟨(Kp.stackGet i v).toSame, ?_⟩
  unfold Daedalus.stackGet
  have e : (withValue y x v).stack = v.stack := rfl
  rw [e]
  by_cases h : i ≥ stackSize
  · rw [if_pos h, if_pos h]; exact ⟨rfl, hn, rfl⟩
  · rw [if_neg h, if_neg h]
    match v.stack[i]? with
    | some (some f) => exact ⟨rfl, hn, rfl⟩
    | some none => exact ⟨rfl, hn, rfl⟩
    | none => exact ⟨rfl, hn, rfl⟩

/-- Frames that do not refer to the variable. -/
def Elsewhere (y : Nat) (f : Frame) : Prop := ∀ k p, f ≠ .ref y k p

theorem putSlot_noRef {s : List (Option Frame)} {f : Frame} (hs : ∀ (i : Nat) k p, s[i]? ≠ some (some (Frame.ref y k p)))
    (hf : Elsewhere y f) (j : Nat) : ∀ (i : Nat) k p, (putSlot s j f)[i]? ≠ some (some (Frame.ref y k p)) := by
  intro i k p h
  unfold putSlot at h
  split at h
  · rw [List.getElem?_set] at h
    split at h
    · cases h; exact hf k p rfl
    · exact hs i k p h
  · rw [List.getElem?_append] at h
    split at h
    · rw [List.getElem?_append] at h
      split at h
      · exact hs i k p h
      · rw [List.getElem?_replicate] at h
        split at h <;> cases h
    · have := List.mem_of_getElem? h
      rw [List.mem_singleton] at this
      cases this
      exact hf k p rfl

theorem Tr.stackPut (i : Nat) {f : Frame} (hf : Elsewhere y f) : Tr y x (stackPut i f) := by
  intro v _ hn
  refine ⟨(Kp.stackPut i f v).toSame, ?_⟩
  unfold Daedalus.stackPut
  by_cases h : i ≥ stackSize
  · rw [if_pos h, if_pos h]; exact ⟨rfl, hn, rfl⟩
  · rw [if_neg h, if_neg h]
    exact ⟨rfl, putSlot_noRef hn hf i, rfl⟩

theorem Tr.push {f : Frame} (hf : Elsewhere y f) : Tr y x (push f) :=
  Tr.get fun v => Tr.ite (Tr.throw _) ((Tr.stackPut _ hf).bind fun _ => Tr.setSp _) v

theorem elsewhere_int (z : BitVec 32) : Elsewhere y (.int z) := fun _ _ h => by cases h
theorem elsewhere_float (z : BitVec 32) : Elsewhere y (.float z) := fun _ _ h => by cases h
theorem elsewhere_inst (q : Option Nat) : Elsewhere y (.inst q) := fun _ _ h => by cases h
theorem elsewhere_ref {z : Nat} (hz : z ≠ y) (i : Byte) (q : Option Nat) : Elsewhere y (.ref z i q) := fun _ _ h => by
  cases h; exact hz rfl
theorem Elsewhere.moved {f : Frame} (h : Elsewhere y f) : Elsewhere y f.moved := by
  cases f with
  | ref z i q => exact elsewhere_ref (fun e => h i q (by rw [e])) _ _
  | int z => exact elsewhere_int z
  | float z => exact elsewhere_float z
  | inst q => exact elsewhere_inst _

theorem stackGet_elsewhere {i : Nat} {v w : Vm} {f : Frame} (hn : NoRef y v) (h : stackGet i v = (.ok f, w)) : Elsewhere y f := by
  unfold stackGet at h
  split at h
  · cases h
  · split at h
    · rename_i g hg
      cases h
      intro k p e
      subst e
      exact hn i k p hg
    · cases h

/-- Reading a slot. -/
theorem TrAt.slot {β} {v : Vm} {f g : Frame → M β} (i : Nat)
    (h : ∀ a w, Elsewhere y a → TrAt y x w (f a) (g a)) : TrAt y x v (stackGet i >>= f) (stackGet i >>= g) := by
  intro hv hn
  exact (TrAt.bind (Tr.stackGet i v) fun a w ha _ _ => h a w (stackGet_elsewhere hn ha)) hv hn

theorem Tr.take : Tr y x take := Tr.get fun v => ((Tr.setSp _).bind fun _ => fun w => TrAt.slot _ fun a u ha =>
  ((Tr.stackPut _ ha.moved).bind fun _ => Tr.pure _) u) v

theorem take_elsewhere {v w : Vm} {f : Frame} (hn : NoRef y v) (h : Daedalus.take v = (.ok f, w)) : Elsewhere y f := by
  unfold Daedalus.take at h
  rw [M.get_bind] at h
  obtain ⟨_, u1, h1, h⟩ := M.bind_inv h
  cases h1
  obtain ⟨g, u2, h2, h⟩ := M.bind_inv h
  obtain ⟨_, u3, h3, h⟩ := M.bind_inv h
  cases h
  exact stackGet_elsewhere (v := { v with sp := v.sp - 1 }) hn h2

theorem Tr.take_ {β} {f : Frame → M β} (h : ∀ a, Elsewhere y a → Tr y x (f a)) : Tr y x (Daedalus.take >>= f) := fun v hv hn =>
  (TrAt.bind (Tr.take v) fun a w ha _ _ => h a (take_elsewhere hn ha) w) hv hn

theorem Tr.pushRef {z : Nat} (hz : z ≠ y) (i : Byte) : Tr y x (pushRef z i) := Tr.get fun v => Tr.push (elsewhere_ref hz _ _) v

/-! ## Symbols -/

theorem storeSym_twin {z : Nat} (hz : z ≠ y) (p : Option Nat) (s : Sym) (i : Option Inst) (v : Vm) :
    storeSym z p s i (withValue y x v) = ((storeSym z p s i v).1, withValue y x (storeSym z p s i v).2) := by
  unfold storeSym withValue
  dsimp only
  rw [withValue_set hz]

theorem Tr.symGetInt {z : Nat} (hz : z ≠ y) (i : Nat) (p : Option Nat) : Tr y x (symGetInt z i p) :=
  Tr.symOther hz fun _ => Tr.get fun v => Tr.lift _ v
theorem Tr.symGetFloat {z : Nat} (hz : z ≠ y) (i : Nat) (p : Option Nat) : Tr y x (symGetFloat z i p) :=
  Tr.symOther hz fun _ => Tr.get fun v => Tr.lift _ v
theorem Tr.symGetString {z : Nat} (hz : z ≠ y) (i : Nat) (p : Option Nat) : Tr y x (symGetString z i p) :=
  Tr.symOther hz fun _ => Tr.get fun v => Tr.lift _ v
theorem Tr.symGetInstance {z : Nat} (hz : z ≠ y) : Tr y x (symGetInstance z) := Tr.symOther hz fun _ => Tr.lift _

/-- Operations that write one other symbol and do nothing else to symbols. -/
theorem Tr.write {α} {p : M α} (hk : Kp p) (ho : ∀ v, (p v).2.syms[y]? = v.syms[y]?)
    (hs : ∀ v, (p v).2.stack = v.stack) (hw : ∀ v, p (withValue y x v) = ((p v).1, withValue y x (p v).2)) : Tr y x p :=
  fun v _ hn => ⟨(hk v).toSame, ho v, fun i k q => by rw [hs v]; exact hn i k q, hw v⟩

theorem setVal_twin {z : Nat} (hz : z ≠ y) (F : Sym → Option Inst → Except Fail (Sym × Option Inst)) (p : Option Nat) (v : Vm) :
    let op : M Unit := symAt z >>= fun s => M.get >>= fun v => M.lift (F s (instAt v p)) >>= fun q => storeSym z p q.1 q.2
    (op v).2.syms[y]? = v.syms[y]? ∧ (op v).2.stack = v.stack ∧ op (withValue y x v) = ((op v).1, withValue y x (op v).2) := by
  dsimp only
  rw [M.bind_def, M.bind_def, symAt_eq, symAt_eq, withValue_sym]
  cases hs : v.syms[z]? with
  | none => exact ⟨rfl, rfl, rfl⟩
  | some s =>
    dsimp only [Option.map]
    rw [other_ne hz, M.get_bind, M.get_bind]
    show _ ∧ _ ∧ (M.lift (F s (instAt v p)) >>= fun q => Daedalus.storeSym z p q.1 q.2) (withValue y x v) = _
    cases F s (instAt v p) with
    | error e => exact ⟨rfl, rfl, rfl⟩
    | ok q =>
      exact ⟨storeSym_other (Ne.symm hz), rfl, storeSym_twin hz _ _ _ v⟩

theorem Tr.symSetInt {z : Nat} (hz : z ≠ y) (n : BitVec 32) (i : Nat) (p : Option Nat) : Tr y x (symSetInt z n i p) :=
  Tr.write (Kp.symSetInt _ _ _ _) (fun v => (setVal_twin (x := x) hz (fun s c => s.setInt n i c) p v).1)
    (fun v => (setVal_twin (x := x) hz (fun s c => s.setInt n i c) p v).2.1)
    (fun v => (setVal_twin hz (fun s c => s.setInt n i c) p v).2.2)
theorem Tr.symSetFloat {z : Nat} (hz : z ≠ y) (n : BitVec 32) (i : Nat) (p : Option Nat) : Tr y x (symSetFloat z n i p) :=
  Tr.write (Kp.symSetFloat _ _ _ _) (fun v => (setVal_twin (x := x) hz (fun s c => s.setFloat n i c) p v).1)
    (fun v => (setVal_twin (x := x) hz (fun s c => s.setFloat n i c) p v).2.1)
    (fun v => (setVal_twin hz (fun s c => s.setFloat n i c) p v).2.2)
theorem Tr.symSetString {z : Nat} (hz : z ≠ y) (n : Bytes) (i : Nat) (p : Option Nat) : Tr y x (symSetString z n i p) :=
  Tr.write (Kp.symSetString _ _ _ _) (fun v => (setVal_twin (x := x) hz (fun s c => s.setString n i c) p v).1)
    (fun v => (setVal_twin (x := x) hz (fun s c => s.setString n i c) p v).2.1)
    (fun v => (setVal_twin hz (fun s c => s.setString n i c) p v).2.2)

theorem Tr.symSetInstance {z : Nat} (hz : z ≠ y) (q : Option Nat) : Tr y x (symSetInstance z q) := by
  have key : ∀ v, (Daedalus.symSetInstance z q v).2.syms[y]? = v.syms[y]? ∧ (Daedalus.symSetInstance z q v).2.stack = v.stack ∧
      Daedalus.symSetInstance z q (withValue y x v) =
        ((Daedalus.symSetInstance z q v).1, withValue y x (Daedalus.symSetInstance z q v).2) := by
    intro v
    unfold Daedalus.symSetInstance
    rw [M.bind_def, M.bind_def, symAt_eq, symAt_eq, withValue_sym]
    cases hs : v.syms[z]? with
    | none => exact ⟨rfl, rfl, rfl⟩
    | some s =>
      dsimp only [Option.map]
      rw [other_ne hz]
      cases s.setInstance q with
      | error e => exact ⟨rfl, rfl, rfl⟩
      | ok s' =>
        exact ⟨storeSym_other (p := none) (i := none) (Ne.symm hz), rfl, storeSym_twin hz none s' none v⟩
  exact Tr.write (Kp.symSetInstance _ _) (fun v => (key v).1) (fun v => (key v).2.1) (fun v => (key v).2.2)

theorem Tr.getFreeString : Tr y x getFreeString := by
  intro v hv hn
  refine ⟨(Kp.getFreeString v).toSame, (Lk.getFreeString v).2 y hv.tmp, ?_⟩
  unfold Daedalus.getFreeString
  rw [M.get_bind, M.get_bind]
  rw [show (withValue y x v).free = v.free from rfl]
  cases v.free with
  | cons i rest => exact ⟨hn, rfl⟩
  | nil =>
    dsimp only
    rw [M.bind_def, M.bind_def, symAt_eq, symAt_eq]
    rw [show (withValue y x v).tmp = v.tmp from rfl, withValue_sym]
    cases hs : v.syms[v.tmp]? with
    | none => exact ⟨hn, rfl⟩
    | some s =>
      dsimp only [Option.map]
      rw [other_ne (Ne.symm hv.tmp)]
      cases hg : s.grow (s.count * 2) with
      | error e => exact ⟨hn, rfl⟩
      | ok s' =>
        rw [M.bind_ok (show M.lift (.ok s' : Except Fail Sym) v = (.ok s', v) from rfl),
          M.bind_ok (show M.lift (.ok s' : Except Fail Sym) (withValue y x v) = (.ok s', withValue y x v) from rfl), M.set_bind,
          M.set_bind]
        have e : (withValue y x v).syms.set v.tmp s' = (v.syms.set v.tmp s').modify y fun s => { s with value := x } :=
          withValue_set (Ne.symm hv.tmp) s'
        cases pushRange [] s.count.toNat s'.count.toNat with
        | nil => exact ⟨hn, by rw [e]; rfl⟩
        | cons i rest => exact ⟨hn, by rw [e]; rfl⟩

/-- Where the temporary texts are is another symbol. -/
theorem TrAt.tmp {α} {v : Vm} {p q : M α} (h : v.tmp ≠ y → TrAt y x v p q) : TrAt y x v p q := fun hv hn =>
  h (Ne.symm hv.tmp) hv hn

theorem Tr.pushString (s : Bytes) : Tr y x (pushString s) := by
  refine Tr.getFreeString.bind fun i => Tr.get fun v => TrAt.tmp fun ht => ?_
  exact ((Tr.symSetString ht s _ none).bind fun _ => Tr.pushRef ht _) v

theorem Tr.vmGetInt {z : Nat} (hz : z ≠ y) (i : Byte) (p : Option Nat) : Tr y x (vmGetInt z i p) :=
  Tr.symOther hz fun _ => Tr.get fun v => Tr.ite (Tr.ite (Tr.pure _) (Tr.throw _)) (Tr.symGetInt hz _ _) v

theorem Tr.vmGetFloat {z : Nat} (hz : z ≠ y) (i : Byte) (p : Option Nat) : Tr y x (vmGetFloat z i p) :=
  Tr.symOther hz fun _ => Tr.get fun v => Tr.ite (Tr.ite (Tr.pure _) (Tr.throw _)) (Tr.symGetFloat hz _ _) v

theorem elsewhere_ne {z : Nat} {i : Byte} {q : Option Nat} (h : Elsewhere y (.ref z i q)) : z ≠ y := fun e => h i q (by rw [e])

theorem Tr.popInt : Tr y x popInt := by
  refine Tr.get fun v => Tr.ite (Tr.pure _) (Tr.take_ fun f hf => ?_) v
  cases f
  · exact Tr.pure _
  · exact Tr.throw _
  · exact Tr.vmGetInt (elsewhere_ne hf) _ _
  · exact Tr.throw _

theorem Tr.popFloat : Tr y x popFloat := by
  refine Tr.get fun v => Tr.ite (Tr.pure _) (Tr.take_ fun f hf => ?_) v
  cases f
  · exact Tr.pure _
  · exact Tr.pure _
  · exact Tr.vmGetFloat (elsewhere_ne hf) _ _
  · exact Tr.throw _

theorem Tr.popInst : Tr y x popInst := by
  refine Tr.get fun v => Tr.ite (Tr.throw _) (Tr.take_ fun f hf => ?_) v
  cases f
  · exact Tr.throw _
  · exact Tr.throw _
  · exact Tr.symGetInstance (elsewhere_ne hf)
  · exact Tr.pure _

theorem Tr.popRef : Tr y x popRef := by
  refine Tr.get fun v => TrAt.tmp fun ht => Tr.ite (Tr.throw _) (Tr.take_ fun f hf => ?_) v
  cases f
  · exact Tr.throw _
  · exact Tr.throw _
  · refine Tr.symOther (elsewhere_ne hf) fun s => Tr.symOther ht fun t => ?_
    dsimp only
    split
    · exact (Tr.markFree _).bind fun _ => Tr.pure _
    · exact Tr.pure _
  · exact Tr.throw _

theorem popRef_elsewhere {v w : Vm} {q : Nat × Byte × Option Nat} (hn : NoRef y v) (h : Daedalus.popRef v = (.ok q, w)) : q.1 ≠ y := by
  unfold Daedalus.popRef at h
  rw [M.get_bind] at h
  split at h
  · cases h
  · obtain ⟨f, u, h1, h⟩ := M.bind_inv h
    have hf := take_elsewhere hn h1
    cases f with
    | int _ => cases h
    | float _ => cases h
    | inst _ => cases h
    | ref z i p =>
      obtain ⟨s, u1, h2, h⟩ := M.bind_inv h
      obtain ⟨t, u2, h3, h⟩ := M.bind_inv h
      dsimp only at h
      split at h
      · cases h; exact elsewhere_ne hf
      · cases h; exact elsewhere_ne hf

/-- What is popped refers to something else. -/
theorem Tr.popRef_ {β} {f : Nat × Byte × Option Nat → M β} (h : ∀ q, q.1 ≠ y → Tr y x (f q)) : Tr y x (Daedalus.popRef >>= f) :=
  fun v hv hn => (TrAt.bind (Tr.popRef v) fun a w ha _ _ => h a (popRef_elsewhere hn ha) w) hv hn

theorem Tr.popString : Tr y x popString := by
  refine Tr.popRef_ fun q hq => Tr.symOther hq fun s => Tr.get fun v => ?_
  exact Tr.ite (Tr.ite (Tr.pure _) (Tr.throw _)) (Tr.symGetString hq _ _) v

theorem Tr.checkConst {z : Nat} (hz : z ≠ y) : Tr y x (checkConst z) :=
  Tr.symOther hz fun _ => Tr.get fun v => Tr.ite (Tr.throw _) (Tr.pure _) v

theorem Tr.vmSetInt {z : Nat} (hz : z ≠ y) (n : BitVec 32) (i : Byte) (p : Option Nat) : Tr y x (vmSetInt z n i p) :=
  (Tr.checkConst hz).bind fun _ => Tr.symOther hz fun _ => Tr.get fun v => Tr.ite (Tr.symSetInt hz _ _ _) (Tr.pure _) v
theorem Tr.vmSetFloat {z : Nat} (hz : z ≠ y) (n : BitVec 32) (i : Byte) (p : Option Nat) : Tr y x (vmSetFloat z n i p) :=
  (Tr.checkConst hz).bind fun _ => Tr.symOther hz fun _ => Tr.get fun v => Tr.ite (Tr.symSetFloat hz _ _ _) (Tr.pure _) v
theorem Tr.vmSetString {z : Nat} (hz : z ≠ y) (n : Bytes) (i : Byte) (p : Option Nat) : Tr y x (vmSetString z n i p) :=
  (Tr.checkConst hz).bind fun _ => Tr.symOther hz fun _ => Tr.get fun v => Tr.ite (Tr.symSetString hz _ _ _) (Tr.pure _) v

theorem Tr.assignOp (op : Op) : Tr y x (assignOp op) := by
  refine Tr.popRef_ fun q hq => Tr.popInt.bind fun value => Tr.ite (Tr.throw _) ?_
  refine (Tr.checkConst hq).bind fun _ => Tr.symOther hq fun _ => Tr.get fun v => Tr.ite ?_ (Tr.pure _) v
  exact (Tr.symGetInt hq _ _).bind fun _ => (Tr.lift _).bind fun _ => Tr.symSetInt hq _ _ _

theorem Tr.execBin (op : Op) : Tr y x (execBin op) :=
  Tr.popInt.bind fun _ => Tr.popInt.bind fun _ => (Tr.lift _).bind fun _ => (Tr.push (elsewhere_int _)).bind fun _ => Tr.pure _

theorem Tr.execUn (op : Op) : Tr y x (execUn op) :=
  Tr.popInt.bind fun _ => (Tr.lift _).bind fun _ => (Tr.push (elsewhere_int _)).bind fun _ => Tr.pure _

theorem Tr.fix (t : DType) : Tr y x (fix t) := by
  cases t
  all_goals first
    | exact Tr.push (elsewhere_int _)
    | exact Tr.push (elsewhere_float _)
    | exact Tr.push (elsewhere_inst _)
    | exact Tr.pushString _
    | exact Tr.pure _

theorem Tr.forM_ {α} {f : α → M Unit} {as : List α} (h : ∀ a ∈ as, Tr y x (f a)) : Tr y x (forM_ f as) := by
  induction as with
  | nil => exact Tr.pure _
  | cons a as ih => exact (h a List.mem_cons_self).bind fun _ => ih fun b hb => h b (List.mem_cons_of_mem _ hb)

theorem TrAt.params {v : Vm} (z : Nat) (f : Sym) : TrAt y x v (params f) (params (other y x z f)) := by
  unfold Daedalus.params
  refine TrAt.get ?_
  rw [other_index, other_count, withValue_length]
  exact Tr.ite Tr.ub (Tr.pure _) v

theorem Tr.saveLocal {z : Nat} (hz : z ≠ y) : Tr y x (saveLocal z) := by
  refine Tr.symOther hz fun s => ?_
  split
  · exact Tr.forM_ fun i _ => (Tr.symGetFloat hz _ _).bind fun _ => Tr.push (elsewhere_float _)
  · exact Tr.forM_ fun i _ => (Tr.symGetInt hz _ _).bind fun _ => Tr.push (elsewhere_int _)
  · exact Tr.forM_ fun i _ => (Tr.symGetInt hz _ _).bind fun _ => Tr.push (elsewhere_int _)
  · exact Tr.forM_ fun i _ => (Tr.symGetString hz _ _).bind fun _ => Tr.pushString _
  · exact (Tr.symGetInstance hz).bind fun _ => Tr.push (elsewhere_inst _)
  · exact Tr.pure _

theorem Tr.restoreLocal {z : Nat} (hz : z ≠ y) : Tr y x (restoreLocal z) := by
  refine Tr.symOther hz fun s => ?_
  split
  · exact Tr.forM_ fun i _ => Tr.popFloat.bind fun _ => Tr.symSetFloat hz _ _ _
  · exact Tr.forM_ fun i _ => Tr.popInt.bind fun _ => Tr.symSetInt hz _ _ _
  · exact Tr.forM_ fun i _ => Tr.popInt.bind fun _ => Tr.symSetInt hz _ _ _
  · exact Tr.forM_ fun i _ => Tr.popString.bind fun _ => Tr.symSetString hz _ _ _
  · exact Tr.popInst.bind fun _ => Tr.symSetInstance hz _
  · exact Tr.pure _

theorem Tr.moveSlot (i j : Nat) : Tr y x (moveSlot i j) := fun v => TrAt.slot _ fun f w hf =>
  Tr.ite (Tr.pure _) ((Tr.stackPut _ hf).bind fun _ => Tr.stackPut _ hf.moved) w

theorem withValue_size (v : Vm) (ls : List Nat) :
    (ls.map fun i => match (withValue y x v).syms[i]? with | some s => localSlots s | none => 0) =
      ls.map fun i => match v.syms[i]? with | some s => localSlots s | none => 0 := by
  apply List.map_congr_left
  intro i _
  rw [withValue_sym]
  cases v.syms[i]? with
  | none => rfl
  | some s => exact other_localSlots

theorem TrAt.pushLocals {v : Vm} (z : Nat) (hl : ∀ f, v.syms[z]? = some f → f.hasLocals = true) :
    TrAt y x v (pushLocals z) (pushLocals z) := by
  intro hv
  revert hv
  show TrappedVar y v → _
  intro hv
  refine TrAt.get (y := y) (x := x) (v := v) ?_ hv
  rw [show activations (withValue y x v) z = activations v z from rfl, show (withValue y x v).sp = v.sp from rfl]
  split
  · exact Tr.pure _ v
  · refine TrAt.sym z fun f hf => (TrAt.params z f).bind fun ps w hw hv' _ => ?_
    have e : w = v := by
      unfold Daedalus.params at hw
      rw [M.get_bind] at hw
      split at hw
      · cases hw
      · cases hw; rfl
    subst w
    have hy : ∀ l ∈ localsOf v f, l ≠ y := fun l hm e => (hv.locals z f hf (hl f hf)).2 (e ▸ hm)
    rw [withValue_localsOf]
    dsimp only
    erw [withValue_size]
    refine Tr.ite (Tr.throw _) (Tr.ite (Tr.throw _) ?_) v
    refine (Tr.setSp _).bind fun _ => (Tr.forM_ fun i _ => Tr.moveSlot _ _).bind fun _ => ?_
    exact (Tr.forM_ fun l hm => Tr.saveLocal (hy l hm)).bind fun _ => Tr.get fun w => Tr.setSp _ w

theorem TrAt.popLocals {v : Vm} (z : Nat) (hl : ∀ f, v.syms[z]? = some f → f.hasLocals = true) :
    TrAt y x v (popLocals z) (popLocals z) := by
  intro hv
  refine TrAt.get (y := y) (x := x) (v := v) ?_ hv
  rw [show activations (withValue y x v) z = activations v z from rfl]
  split
  · exact Tr.pure _ v
  · refine TrAt.sym z fun f hf => ?_
    have hy : ∀ l ∈ (localsOf v f).reverse, l ≠ y := fun l hm e =>
      (hv.locals z f hf (hl f hf)).2 (e ▸ List.mem_reverse.mp hm)
    rw [withValue_localsOf, other_hasReturn]
    refine Tr.ite (Tr.take_ fun r hr => ?_) (Tr.forM_ fun l hm => Tr.restoreLocal (hy l hm)) v
    exact (Tr.forM_ fun l hm => Tr.restoreLocal (hy l hm)).bind fun _ => Tr.get fun w =>
      ((Tr.stackPut _ hr).bind fun _ => Tr.setSp _) w

/-- Operations that change neither symbols nor slots, nor settings. -/
theorem TrAt.quiet {α} {v : Vm} {p q : M α} (h : (p v).2.syms = v.syms ∧ (p v).2.text = v.text ∧ (p v).2.tmp = v.tmp ∧
    (p v).2.nullOk = v.nullOk ∧ (p v).2.ignoreConst = v.ignoreConst) (hs : (p v).2.stack = v.stack)
    (hw : q (withValue y x v) = ((p v).1, withValue y x (p v).2)) : TrAt y x v p q := by
  intro _ hn
  obtain ⟨h1, h2, h3, h4, h5⟩ := h
  exact ⟨⟨h2, h3, h4, h5, by rw [h1], fun y s hs => ⟨s, by rw [h1]; exact hs, rfl, fun _ => rfl⟩⟩, by rw [h1],
    fun i k p => by rw [hs]; exact hn i k p, hw⟩

theorem Tr.pushCall (z : Nat) : Tr y x (pushCall z) := by
  intro v
  refine TrAt.sym z fun f hf => ?_
  rw [other_hasLocals]
  have hk : ∀ w, TrAt y x w (do let ps ← Daedalus.params f; let v ← M.get; M.set { v with calls := ⟨z, v.pc, v.sp.setWidth 32 - BitVec.ofNat 32 ps.length, v.instance_⟩ :: v.calls } : M Unit)
      (do let ps ← Daedalus.params (other y x z f); let v ← M.get; M.set { v with calls := ⟨z, v.pc, v.sp.setWidth 32 - BitVec.ofNat 32 ps.length, v.instance_⟩ :: v.calls } : M Unit) :=
    fun w => (TrAt.params z f).bind fun ps w _ _ _ => TrAt.get (TrAt.quiet ⟨rfl, rfl, rfl, rfl, rfl⟩ rfl rfl)
  split
  · rename_i hl
    refine (TrAt.pushLocals z fun g hg => ?_).bind fun _ w _ _ _ => hk w
    rw [hf] at hg
    cases hg
    exact hl
  · exact hk v

theorem TrAt.fixStack {v : Vm} (z : Nat) (c : Call) (f : Sym) : TrAt y x v (fixStack c f) (fixStack c (other y x z f)) := by
  unfold Daedalus.fixStack
  refine TrAt.get ?_
  rw [other_hasReturn, other_rtype]
  refine Tr.ite (Tr.setSp _) (Tr.ite (Tr.fix _) (Tr.ite ?_ (Tr.pure _))) v
  exact fun w => TrAt.slot _ fun r u hr => ((Tr.stackPut _ hr).bind fun _ => Tr.setSp _) u

theorem Tr.popCall : Tr y x popCall := by
  refine Tr.get fun v => ?_
  rw [show (withValue y x v).calls = v.calls from rfl]
  cases v.calls with
  | nil => exact Tr.ub v
  | cons c rest =>
    refine TrAt.sym c.fn fun f hf => ?_
    rw [other_hasLocals]
    intro hv hn
    have hsame := (TrAt.fixStack (x := x) c.fn c f hv hn).1
    revert hv hn
    refine (TrAt.fixStack c.fn c f).bind fun _ w hw _ _ => ?_
    rw [hw] at hsame
    have hk : ∀ w, TrAt y x w (do let v ← M.get; M.set { v with pc := c.pc, instance_ := c.ctx, calls := v.calls.tail } : M Unit)
        (do let v ← M.get; M.set { v with pc := c.pc, instance_ := c.ctx, calls := v.calls.tail } : M Unit) :=
      fun w => TrAt.get (TrAt.quiet ⟨rfl, rfl, rfl, rfl, rfl⟩ rfl rfl)
    split
    · rename_i hl
      refine (TrAt.popLocals c.fn fun g hg => ?_).bind fun _ w' _ _ _ => hk w'
      obtain ⟨f', h1, h2, -⟩ := hsame.decl _ f hf
      rw [hg] at h1
      cases h1
      rw [shape_hasLocals h2]
      exact hl
    · exact hk w

theorem Tr.jump (a : BitVec 32) : Tr y x (jump a) := Tr.get fun v => by
  rw [show (withValue y x v).text = v.text from rfl]
  split
  · exact Tr.throw _ v
  · exact TrAt.quiet ⟨rfl, rfl, rfl, rfl, rfl⟩ rfl rfl

theorem Tr.guarded {α} {p : M α} (t : DType) (h : Tr y x p) : Tr y x (guarded t p) := by
  intro v hv hn
  obtain ⟨h1, h2, h3, h4⟩ := h v hv hn
  unfold Daedalus.guarded
  rw [h4]
  match hp : p v with
  | (.ok a, w) => rw [hp] at h1 h2 h3; exact ⟨h1, h2, h3, rfl⟩
  | (.error (.throw e), w) =>
    rw [hp] at h1 h2 h3
    obtain ⟨k1, k2, k3, k4⟩ := Tr.fix (x := x) t w (hv.same h1) h3
    dsimp only
    rw [k4]
    match hf : Daedalus.fix t w with
    | (.ok a, u) => rw [hf] at k1 k2 k3; exact ⟨h1.trans k1, k2.trans h2, k3, rfl⟩
    | (.error (.throw e), u) => rw [hf] at k1 k2 k3; exact ⟨h1.trans k1, k2.trans h2, k3, rfl⟩
    | (.error .ub, u) => rw [hf] at k1 k2 k3; exact ⟨h1.trans k1, k2.trans h2, k3, rfl⟩
    | (.error .terminate, u) => rw [hf] at k1 k2 k3; exact ⟨h1.trans k1, k2.trans h2, k3, rfl⟩
    | (.error .hang, u) => rw [hf] at k1 k2 k3; exact ⟨h1.trans k1, k2.trans h2, k3, rfl⟩
  | (.error .ub, w) => rw [hp] at h1 h2 h3; exact ⟨h1, h2, h3, rfl⟩
  | (.error .terminate, w) => rw [hp] at h1 h2 h3; exact ⟨h1, h2, h3, rfl⟩
  | (.error .hang, w) => rw [hp] at h1 h2 h3; exact ⟨h1, h2, h3, rfl⟩

/-! ## Execution -/

theorem Tr.ofHost {α} {p : M α} (h : HandsOff y p) : Tr y x p := fun v hv hn =>
  ⟨(h v hv hn).1, (h v hv hn).2.1, (h v hv hn).2.2.1, (h v hv hn).2.2.2 x⟩

/-- Looking a symbol up by its number. -/
theorem TrAt.symByIndex {β} {v : Vm} {f g : Nat × Sym → M β} (n : BitVec 32)
    (h : ∀ s, v.syms[n.toNat]? = some s → TrAt y x v (f (n.toNat, s)) (g (n.toNat, other y x n.toNat s))) :
    TrAt y x v (symByIndex n >>= f) (symByIndex n >>= g) := by
  have e : ∀ w : Vm, Daedalus.symByIndex n w = (match w.syms[n.toNat]? with | some s => .ok (n.toNat, s) | none => .error (.throw .daedalusVm), w) := by
    intro w
    unfold Daedalus.symByIndex
    rw [M.get_bind]
    cases w.syms[n.toNat]? <;> rfl
  unfold TrAt
  rw [M.bind_def, M.bind_def, e, e, withValue_sym]
  cases hs : v.syms[n.toNat]? with
  | none => exact fun _ hn => ⟨Same.refl v, rfl, hn, rfl⟩
  | some s => exact h s hs

theorem TrAt.pushVar {h : Host} (hb : HostOff y h) {v : Vm} (z : Nat) {s : Sym} (hs : v.syms[z]? = some s) :
    TrAt y x v (pushVar h z s) (pushVar h z (other y x z s)) := by
  intro hv
  unfold Daedalus.pushVar
  rw [other_hasAccessTrap]
  match ht : h.trap with
  | some t =>
    dsimp only
    by_cases hz : z = y
    · subst z
      obtain ⟨s', h1, h2⟩ := hv.trap
      rw [hs] at h1
      cases h1
      rw [h2]
      exact Tr.ofHost (hb.trap t y ht) v hv
    · exact Tr.ite (Tr.ofHost (hb.trap t z ht)) (Tr.pushRef hz _) v hv
  | none =>
    have := hb.trapped
    rw [ht] at this
    cases this

theorem Tr.execBl {h : Host} (hb : HostOff y h) {call : Nat → M Unit} (hc : ∀ z, Tr y x (call z)) (a : BitVec 32) :
    Tr y x (execBl h call a) := by
  refine Tr.get fun v => ?_
  rw [withValue_findByAddress]
  match ho : h.override_ a with
  | some cb =>
    dsimp only
    cases findByAddress v.syms a with
    | none => exact Tr.ub v
    | some z =>
      refine TrAt.sym z fun s _ => ?_
      rw [other_rtype]
      exact ((Tr.guarded _ (Tr.ofHost (hb.override_ a cb ho))).bind fun _ => Tr.pure _) v
  | none =>
    dsimp only
    cases findByAddress v.syms a with
    | none => exact Tr.throw _ v
    | some z => exact ((hc z).bind fun _ => Tr.pure _) v

theorem Tr.execBe {h : Host} (hb : HostOff y h) (n : BitVec 32) : Tr y x (execBe h n) := by
  intro v
  refine TrAt.symByIndex n fun s _ => ?_
  dsimp only
  rw [other_rtype]
  refine ((Tr.guarded _ ?_).bind fun _ => Tr.pure _) v
  match he : h.external n.toNat with
  | some cb => exact (Tr.pushCall _).bind fun _ => (Tr.ofHost (hb.external _ cb he)).bind fun _ => Tr.popCall
  | none =>
    dsimp only
    match hd : h.default_ with
    | some d => exact Tr.ofHost (hb.default_ d _ hd)
    | none => exact Tr.throw _

theorem TrAt.execOp {h : Host} (hb : HostOff y h) {call : Nat → M Unit} (hc : ∀ z, Tr y x (call z)) (i : Instr)
    (hi : i.op = .pushvv ∨ i.op = .gmovi → i.symbol.toNat ≠ y) (v : Vm) : TrAt y x v (execOp h call i) (execOp h call i) := by
  obtain ⟨op, a, n, m, k, sz⟩ := i
  cases op
  case bl => exact Tr.execBl hb hc _ v
  case be => exact Tr.execBe hb _ v
  case b => exact ((Tr.jump _).bind fun _ => Tr.pure _) v
  case bz => exact (Tr.popInt.bind fun z => Tr.ite ((Tr.jump _).bind fun _ => Tr.pure _) (Tr.pure _)) v
  case gmovi =>
    have hz := hi (Or.inr rfl)
    refine TrAt.symByIndex _ fun s _ => ((Tr.symGetInstance hz).bind fun q => ?_) v
    exact Tr.get fun w => TrAt.bind (TrAt.quiet ⟨rfl, rfl, rfl, rfl, rfl⟩ rfl rfl) fun _ w _ _ _ => Tr.pure _ w
  case pushvv =>
    have hz := hi (Or.inl rfl)
    exact TrAt.symByIndex _ fun s _ => ((Tr.pushRef hz _).bind fun q => Tr.pure _) v
  case pushv => exact TrAt.symByIndex _ fun s hs => (TrAt.pushVar hb _ hs).bind fun _ w _ _ _ => Tr.pure _ w
  case pushvi => exact TrAt.symByIndex _ fun s hs => (TrAt.pushVar hb _ hs).bind fun _ w _ _ _ => Tr.pure _ w
  all_goals first
    | exact Tr.execBin _ v
    | exact Tr.execUn _ v
    | exact Tr.pure _ v
    | exact Tr.throw _ v
    | exact ((Tr.push (elsewhere_int _)).bind fun _ => Tr.pure _) v
    | exact (Tr.popRef_ fun _ hq => Tr.popInt.bind fun _ => (Tr.vmSetInt hq _ _ _).bind fun _ => Tr.pure _) v
    | exact (Tr.popRef_ fun _ hq => Tr.popFloat.bind fun _ => (Tr.vmSetFloat hq _ _ _).bind fun _ => Tr.pure _) v
    | exact (Tr.popRef_ fun _ hq => Tr.popString.bind fun _ => (Tr.vmSetString hq _ _ _).bind fun _ => Tr.pure _) v
    | exact (Tr.popRef_ fun _ hq => Tr.popInst.bind fun _ => (Tr.symSetInstance hq _).bind fun _ => Tr.pure _) v
    | exact ((Tr.assignOp _).bind fun _ => Tr.pure _) v

theorem Tr.advance (i : Instr) : Tr y x (advance i) := fun _ => TrAt.quiet ⟨rfl, rfl, rfl, rfl, rfl⟩ rfl rfl

theorem Tr.execCatch {h : Host} (hb : HostOff y h) (e : Exc) (i : Instr) : Tr y x (execCatch h e i) := by
  refine Tr.get fun v => ?_
  rw [show (withValue y x v).pc = v.pc from rfl]
  match hh : h.handler with
  | none => exact Tr.throw _ v
  | some hd =>
    refine ((Tr.ofHost (hb.handler hd e i hh)).bind fun st => ?_) v
    cases st with
    | fail => exact Tr.throw _
    | return_ => exact Tr.pure _
    | continue_ =>
      refine Tr.get fun v' => ?_
      rw [show (withValue y x v').pc = v'.pc from rfl]
      dsimp only
      split
      · exact ((Tr.advance i).bind fun _ => Tr.pure _) v'
      · exact Tr.pure _ v'

theorem Tr.fetch : Tr y x fetch := by
  intro v
  have e : Daedalus.fetch (withValue y x v) = ((Daedalus.fetch v).1, withValue y x (Daedalus.fetch v).2) := by
    unfold Daedalus.fetch
    rw [show (withValue y x v).text = v.text from rfl, show (withValue y x v).textPos = v.textPos from rfl,
      show (withValue y x v).pc = v.pc from rfl]
    cases instructionAt v.text v.textPos v.pc.toNat with
    | ok q => rfl
    | error e => rfl
  refine TrAt.quiet ?_ ?_ e
  · unfold Daedalus.fetch
    split <;> exact ⟨rfl, rfl, rfl, rfl, rfl⟩
  · unfold Daedalus.fetch
    split <;> rfl

theorem TrAt.execInstr {h : Host} (hb : HostOff y h) {call : Nat → M Unit} (hc : ∀ z, Tr y x (call z)) (i : Instr)
    (hi : i.op = .pushvv ∨ i.op = .gmovi → i.symbol.toNat ≠ y) (v : Vm) :
    TrAt y x v (execInstr h call i) (execInstr h call i) := by
  intro hv hn
  obtain ⟨h1, h2, h3, h4⟩ := TrAt.execOp hb hc i hi v hv hn
  unfold Daedalus.execInstr
  rw [h4]
  match he : Daedalus.execOp h call i v with
  | (.ok .next, u) =>
    rw [he] at h1 h2 h3
    obtain ⟨k1, k2, k3, k4⟩ := ((Tr.advance i).bind fun _ => Tr.pure true) u (hv.same h1) h3
    exact ⟨h1.trans k1, k2.trans h2, k3, k4⟩
  | (.ok .stay, u) => rw [he] at h1 h2 h3; exact ⟨h1, h2, h3, rfl⟩
  | (.ok .ret, u) => rw [he] at h1 h2 h3; exact ⟨h1, h2, h3, rfl⟩
  | (.error (.throw e), u) =>
    rw [he] at h1 h2 h3
    dsimp only
    split
    · obtain ⟨k1, k2, k3, k4⟩ := Tr.execCatch (x := x) hb e i u (hv.same h1) h3
      exact ⟨h1.trans k1, k2.trans h2, k3, k4⟩
    · exact ⟨h1, h2, h3, rfl⟩
  | (.error .ub, u) => rw [he] at h1 h2 h3; exact ⟨h1, h2, h3, rfl⟩
  | (.error .terminate, u) => rw [he] at h1 h2 h3; exact ⟨h1, h2, h3, rfl⟩
  | (.error .hang, u) => rw [he] at h1 h2 h3; exact ⟨h1, h2, h3, rfl⟩

theorem Tr.exec {h : Host} (hb : HostOff y h) {call : Nat → M Unit} (hc : ∀ z, Tr y x (call z)) : Tr y x (exec h call) := by
  intro v hv
  refine (Tr.fetch v).bind (fun i w hw _ _ => TrAt.execInstr hb hc i ?_ w) hv
  unfold Daedalus.fetch at hw
  cases hi : instructionAt v.text v.textPos v.pc.toNat with
  | error e => rw [hi] at hw; cases hw
  | ok q =>
    rw [hi] at hw
    cases hw
    exact hv.code _ _ _ _ hi

theorem Tr.loop {step : M Bool} (hs : Tr y x step) (n : Nat) : Tr y x (loop step n) := by
  induction n with
  | zero => exact Tr.fail _
  | succ n ih => exact hs.bind fun b => Tr.ite ih (Tr.pure _)

theorem Tr.unsafeCall {h : Host} (hb : HostOff y h) (fuel : Nat) : ∀ z, Tr y x (unsafeCall h fuel z) := by
  induction fuel with
  | zero => intro z; exact Tr.fail _
  | succ n ih =>
    intro z
    refine (Tr.pushCall z).bind fun _ v => TrAt.sym z fun f _ => ?_
    rw [other_address]
    exact ((Tr.jump _).bind fun _ => (Tr.loop (Tr.exec hb ih) n).bind fun _ => Tr.popCall) v

end Verif.Daedalus
