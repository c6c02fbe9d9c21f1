import Verif.Lemmas.DaedalusStack
import Verif.Spec.DaedalusCall

/-!
# What operations of the machine leave alone
-/

namespace Verif.Daedalus

theorem Same.refl (v : Vm) : Same v v := ⟨rfl, rfl, rfl, rfl, rfl, fun _ s h => ⟨s, h, rfl, fun _ => rfl⟩⟩
theorem Keeps.refl (v : Vm) : Keeps v v := ⟨Same.refl v, rfl, rfl, rfl⟩

theorem Same.trans {a b c : Vm} (h : Same a b) (h' : Same b c) : Same a c := by
  refine ⟨by rw [h'.text, h.text], by rw [h'.tmp, h.tmp], by rw [h'.nullOk, h.nullOk], by rw [h'.ignoreConst, h.ignoreConst],
    by rw [h'.len, h.len], ?_⟩
  intro y s hs
  obtain ⟨s1, h1, h2, h3⟩ := h.decl y s hs
  obtain ⟨s2, k1, k2, k3⟩ := h'.decl y s1 h1
  exact ⟨s2, k1, k2.trans h2, fun hy => (k3 (by rw [h.tmp]; exact hy)).trans (h3 hy)⟩

theorem Keeps.trans {a b c : Vm} (h : Keeps a b) (h' : Keeps b c) : Keeps a c :=
  ⟨h.toSame.trans h'.toSame, h'.pc.trans h.pc, h'.instance_.trans h.instance_, h'.calls.trans h.calls⟩

theorem Same.symm {v w : Vm} (h : Same v w) : Same w v := by
  refine ⟨h.text.symm, h.tmp.symm, h.nullOk.symm, h.ignoreConst.symm, h.len.symm, ?_⟩
  intro y s hs
  have hy : y < v.syms.length := by rw [← h.len]; exact (List.getElem?_eq_some_iff.mp hs).1
  obtain ⟨s', h1, h2, h3⟩ := h.decl y _ (List.getElem?_eq_getElem hy)
  have : s' = s := by rw [hs] at h1; exact (Option.some.inj h1).symm
  subst this
  exact ⟨_, List.getElem?_eq_getElem hy, h2.symm, fun hne => (h3 (by rw [← h.tmp]; exact hne)).symm⟩

theorem extent_count {s t : Sym} (h : s.extent = t.extent) : s.count = t.count := congrArg Prod.fst h
theorem extent_dims {s t : Sym} (h : s.extent = t.extent) : s.value.dims = t.value.dims := congrArg Prod.snd h

/-- An operation that leaves those alone, whether it fails or not, in a state and in all. -/
def KpAt {α} (v : Vm) (p : M α) : Prop := Keeps v (p v).2
def Kp {α} (p : M α) : Prop := ∀ v, KpAt v p

theorem Kp.ofReadOnly {α} {p : M α} (h : ReadOnly p) : Kp p := by
  intro v
  unfold KpAt
  rw [h v]
  exact Keeps.refl v

theorem KpAt.bind {α β} {v : Vm} {p : M α} {f : α → M β} (hp : KpAt v p) (hf : ∀ a w, p v = (.ok a, w) → KpAt w (f a)) :
    KpAt v (p >>= f) := by
  unfold KpAt at *
  rw [M.bind_def]
  match h : p v with
  | (.ok a, w) =>
    rw [h] at hp
    exact hp.trans (hf a w h)
  | (.error e, w) =>
    rw [h] at hp
    exact hp

theorem Kp.bind {α β} {p : M α} {f : α → M β} (hp : Kp p) (hf : ∀ a, Kp (f a)) : Kp (p >>= f) :=
  fun v => (hp v).bind fun a w _ => hf a w

theorem Kp.get_bind {β} {f : Vm → M β} (h : ∀ v, KpAt v (f v)) : Kp (M.get >>= f) := fun v => by
  unfold KpAt
  rw [M.get_bind]
  exact h v

theorem Kp.get : Kp M.get := Kp.ofReadOnly ReadOnly.get
theorem Kp.pure {α} (a : α) : Kp (Pure.pure a : M α) := Kp.ofReadOnly (ReadOnly.pure a)
theorem Kp.fail {α} (e : Fail) : Kp (M.fail e : M α) := Kp.ofReadOnly (ReadOnly.fail e)
theorem Kp.throw {α} (e : Exc) : Kp (M.throw e : M α) := Kp.fail _
theorem Kp.ub {α} : Kp (M.ub : M α) := Kp.fail _
theorem Kp.lift {α} (r : Except Fail α) : Kp (M.lift r) := Kp.ofReadOnly (ReadOnly.lift r)
theorem Kp.symAt (y : Nat) : Kp (symAt y) := Kp.ofReadOnly (ReadOnly.symAt y)

theorem Kp.ite {α} {c : Prop} [Decidable c] {p q : M α} (hp : Kp p) (hq : Kp q) : Kp (if c then p else q) := by
  split
  · exact hp
  · exact hq

theorem Keeps.stack (v : Vm) (st : List (Option Frame)) (sp : BitVec 16) : Keeps v { v with stack := st, sp := sp } :=
  ⟨⟨rfl, rfl, rfl, rfl, rfl, fun _ s h => ⟨s, h, rfl, fun _ => rfl⟩⟩, rfl, rfl, rfl⟩

theorem Keeps.free (v : Vm) (f : List (BitVec 32)) : Keeps v { v with free := f } :=
  ⟨⟨rfl, rfl, rfl, rfl, rfl, fun _ s h => ⟨s, h, rfl, fun _ => rfl⟩⟩, rfl, rfl, rfl⟩

theorem Kp.setSp (sp : BitVec 16) : Kp (setSp sp) := fun v => Keeps.stack v v.stack sp

theorem Kp.stackGet (i : Nat) : Kp (stackGet i) := by
  intro v
  unfold KpAt Daedalus.stackGet
  split
  · exact Keeps.refl v
  · split <;> exact Keeps.refl v

theorem Kp.stackPut (i : Nat) (f : Frame) : Kp (stackPut i f) := by
  intro v
  unfold KpAt Daedalus.stackPut
  split
  · exact Keeps.refl v
  · exact Keeps.stack v _ v.sp

theorem Kp.push (f : Frame) : Kp (push f) :=
  Kp.get.bind fun _ => Kp.ite (Kp.throw _) ((Kp.stackPut _ _).bind fun _ => Kp.setSp _)

theorem Kp.take : Kp take :=
  Kp.get.bind fun _ => (Kp.setSp _).bind fun _ => (Kp.stackGet _).bind fun _ => (Kp.stackPut _ _).bind fun _ => Kp.pure _

theorem Kp.pushRef (y : Nat) (i : Byte) : Kp (pushRef y i) := Kp.get.bind fun _ => Kp.push _

/-! ## Symbols -/

theorem setInt_shape {s s' : Sym} {x : BitVec 32} {i : Nat} {c c' : Option Inst} (h : s.setInt x i c = .ok (s', c')) :
    s'.shape = s.shape ∧ s'.extent = s.extent := by
  unfold Sym.setInt at h
  repeat' split at h
  all_goals cases h
  all_goals first | exact ⟨rfl, rfl⟩ | exact ⟨rfl, by simp_all [Sym.extent, SymVal.dims]⟩

theorem setFloat_shape {s s' : Sym} {x : BitVec 32} {i : Nat} {c c' : Option Inst} (h : s.setFloat x i c = .ok (s', c')) :
    s'.shape = s.shape ∧ s'.extent = s.extent := by
  unfold Sym.setFloat at h
  repeat' split at h
  all_goals cases h
  all_goals first | exact ⟨rfl, rfl⟩ | exact ⟨rfl, by simp_all [Sym.extent, SymVal.dims]⟩

theorem setString_shape {s s' : Sym} {x : Bytes} {i : Nat} {c c' : Option Inst} (h : s.setString x i c = .ok (s', c')) :
    s'.shape = s.shape ∧ s'.extent = s.extent := by
  unfold Sym.setString at h
  repeat' split at h
  all_goals cases h
  all_goals first | exact ⟨rfl, rfl⟩ | exact ⟨rfl, by simp_all [Sym.extent, SymVal.dims]⟩

theorem setInstance_shape {s s' : Sym} {p : Option Nat} (h : s.setInstance p = .ok s') :
    s'.shape = s.shape ∧ s'.extent = s.extent := by
  unfold Sym.setInstance at h
  repeat' split at h
  all_goals cases h
  all_goals first | exact ⟨rfl, rfl⟩ | exact ⟨rfl, by simp_all [Sym.extent, SymVal.dims]⟩

theorem grow_shape {s s' : Sym} {n : BitVec 32} (h : s.grow n = .ok s') : s'.shape = s.shape := by
  unfold Sym.grow at h
  split at h
  all_goals cases h
  all_goals rfl

/-- Replacing a symbol by one of the same declaration. -/
theorem Keeps.store {v : Vm} {y : Nat} {s s' : Sym} (hs : v.syms[y]? = some s) (h : s'.shape = s.shape)
    (hc : y ≠ v.tmp → s'.extent = s.extent) (heap : List Inst) (fr : List (BitVec 32)) :
    Keeps v { v with syms := v.syms.set y s', heap := heap, free := fr } := by
  refine ⟨⟨rfl, rfl, rfl, rfl, by simp, ?_⟩, rfl, rfl, rfl⟩
  intro z t ht
  by_cases hz : z = y
  · subst hz
    rw [hs] at ht
    obtain rfl := Option.some.inj ht
    exact ⟨s', by simp [(List.getElem?_eq_some_iff.mp hs).1], h, hc⟩
  · exact ⟨t, by rw [List.getElem?_set_ne (Ne.symm hz)]; exact ht, rfl, fun _ => rfl⟩

theorem symAt_inv {y : Nat} {v w : Vm} {s : Sym} (h : symAt y v = (.ok s, w)) : v.syms[y]? = some s ∧ w = v := by
  rw [symAt_eq] at h
  match hs : v.syms[y]?, h with
  | some t, h => cases h; exact ⟨rfl, rfl⟩
  | none, h => cases h

theorem storeSym_kp {v : Vm} {y : Nat} {p : Option Nat} {s s' : Sym} {i : Option Inst} (hs : v.syms[y]? = some s)
    (h : s'.shape = s.shape ∧ s'.extent = s.extent) : KpAt v (storeSym y p s' i) :=
  Keeps.store hs h.1 (fun _ => h.2) _ _

theorem lift_inv {α} {r : Except Fail α} {v w : Vm} {a : α} (h : M.lift r v = (.ok a, w)) : r = .ok a ∧ w = v := by
  cases h; exact ⟨rfl, rfl⟩

theorem Kp.symSetInt (y : Nat) (x : BitVec 32) (i : Nat) (p : Option Nat) : Kp (symSetInt y x i p) := by
  intro v
  refine (Kp.symAt y v).bind fun s w hs => ?_
  obtain ⟨hy, hw⟩ := symAt_inv hs
  subst w
  refine (Kp.get v).bind fun u w hw => ?_
  cases hw
  refine (Kp.lift _ v).bind fun q w hw => ?_
  obtain ⟨hr, hw⟩ := lift_inv hw
  subst w
  exact storeSym_kp hy (setInt_shape hr)

theorem Kp.symSetFloat (y : Nat) (x : BitVec 32) (i : Nat) (p : Option Nat) : Kp (symSetFloat y x i p) := by
  intro v
  refine (Kp.symAt y v).bind fun s w hs => ?_
  obtain ⟨hy, hw⟩ := symAt_inv hs
  subst w
  refine (Kp.get v).bind fun u w hw => ?_
  cases hw
  refine (Kp.lift _ v).bind fun q w hw => ?_
  obtain ⟨hr, hw⟩ := lift_inv hw
  subst w
  exact storeSym_kp hy (setFloat_shape hr)

theorem Kp.symSetString (y : Nat) (x : Bytes) (i : Nat) (p : Option Nat) : Kp (symSetString y x i p) := by
  intro v
  refine (Kp.symAt y v).bind fun s w hs => ?_
  obtain ⟨hy, hw⟩ := symAt_inv hs
  subst w
  refine (Kp.get v).bind fun u w hw => ?_
  cases hw
  refine (Kp.lift _ v).bind fun q w hw => ?_
  obtain ⟨hr, hw⟩ := lift_inv hw
  subst w
  exact storeSym_kp hy (setString_shape hr)

theorem Kp.symSetInstance (y : Nat) (q : Option Nat) : Kp (symSetInstance y q) := by
  intro v
  refine (Kp.symAt y v).bind fun s w hs => ?_
  obtain ⟨hy, hw⟩ := symAt_inv hs
  subst w
  refine (Kp.lift _ v).bind fun q w hw => ?_
  obtain ⟨hr, hw⟩ := lift_inv hw
  subst w
  exact storeSym_kp hy (setInstance_shape hr)

/-! ## Strings -/

theorem Kp.getFreeString : Kp getFreeString := by
  refine Kp.get_bind fun v => ?_
  match hf : v.free with
  | i :: rest => exact Keeps.free v rest
  | [] =>
    refine (Kp.symAt v.tmp v).bind fun s w hs => ?_
    obtain ⟨hy, hw⟩ := symAt_inv hs
    subst w
    refine (Kp.lift _ v).bind fun s' w hw => ?_
    obtain ⟨hr, hw⟩ := lift_inv hw
    subst w
    have hk : ∀ f, Keeps v { v with syms := v.syms.set v.tmp s', free := f } := fun f =>
      Keeps.store hy (grow_shape hr) (fun h => absurd rfl h) v.heap f
    unfold KpAt
    rw [M.set_bind]
    dsimp only
    cases pushRange [] s.count.toNat s'.count.toNat <;> exact hk _

theorem Kp.markFree (i : Byte) : Kp (markFree i) := fun v => Keeps.free v _

theorem Kp.pushString (s : Bytes) : Kp (pushString s) :=
  Kp.getFreeString.bind fun _ => Kp.get.bind fun _ => (Kp.symSetString _ _ _ _).bind fun _ => Kp.pushRef _ _

/-! ## Popping and writing -/

theorem Kp.popInt : Kp popInt := by
  refine Kp.get.bind fun v => Kp.ite (Kp.pure _) (Kp.take.bind fun f => ?_)
  cases f with
  | ref y i p => exact Kp.ofReadOnly (ReadOnly.vmGetInt y i p)
  | int x => exact Kp.pure _
  | float x => exact Kp.throw _
  | inst x => exact Kp.throw _

theorem Kp.popFloat : Kp popFloat := by
  refine Kp.get.bind fun v => Kp.ite (Kp.pure _) (Kp.take.bind fun f => ?_)
  cases f with
  | ref y i p => exact Kp.ofReadOnly (ReadOnly.vmGetFloat y i p)
  | int x => exact Kp.pure _
  | float x => exact Kp.pure _
  | inst x => exact Kp.throw _

theorem Kp.popRef : Kp popRef := by
  refine Kp.get.bind fun v => Kp.ite (Kp.throw _) (Kp.take.bind fun f => ?_)
  cases f with
  | ref y i p =>
    refine (Kp.symAt _).bind fun s => (Kp.symAt _).bind fun t => ?_
    exact Kp.ite ((Kp.markFree _).bind fun _ => Kp.pure _) (Kp.pure _)
  | int x => exact Kp.throw _
  | float x => exact Kp.throw _
  | inst x => exact Kp.throw _

theorem Kp.popInst : Kp popInst := by
  refine Kp.get.bind fun v => Kp.ite (Kp.throw _) (Kp.take.bind fun f => ?_)
  cases f with
  | ref y i p => exact Kp.ofReadOnly (ReadOnly.symGetInstance y)
  | int x => exact Kp.throw _
  | float x => exact Kp.throw _
  | inst x => exact Kp.pure _

theorem Kp.popString : Kp popString :=
  Kp.popRef.bind fun _ => (Kp.symAt _).bind fun _ => Kp.get.bind fun _ =>
    Kp.ite (Kp.ite (Kp.pure _) (Kp.throw _)) (Kp.ofReadOnly (ReadOnly.symGetString _ _ _))

theorem Kp.checkConst (y : Nat) : Kp (checkConst y) :=
  (Kp.symAt _).bind fun _ => Kp.get.bind fun _ => Kp.ite (Kp.throw _) (Kp.pure _)

theorem Kp.vmSetInt (y : Nat) (x : BitVec 32) (i : Byte) (p : Option Nat) : Kp (vmSetInt y x i p) :=
  (Kp.checkConst y).bind fun _ => (Kp.symAt _).bind fun _ => Kp.get.bind fun _ => Kp.ite (Kp.symSetInt _ _ _ _) (Kp.pure _)

theorem Kp.vmSetFloat (y : Nat) (x : BitVec 32) (i : Byte) (p : Option Nat) : Kp (vmSetFloat y x i p) :=
  (Kp.checkConst y).bind fun _ => (Kp.symAt _).bind fun _ => Kp.get.bind fun _ => Kp.ite (Kp.symSetFloat _ _ _ _) (Kp.pure _)

theorem Kp.vmSetString (y : Nat) (x : Bytes) (i : Byte) (p : Option Nat) : Kp (vmSetString y x i p) :=
  (Kp.checkConst y).bind fun _ => (Kp.symAt _).bind fun _ => Kp.get.bind fun _ => Kp.ite (Kp.symSetString _ _ _ _) (Kp.pure _)

theorem Kp.assignOp (op : Op) : Kp (assignOp op) :=
  Kp.popRef.bind fun _ => Kp.popInt.bind fun _ => Kp.ite (Kp.throw _) <|
    (Kp.checkConst _).bind fun _ => (Kp.symAt _).bind fun _ => Kp.get.bind fun _ =>
      Kp.ite ((Kp.ofReadOnly (ReadOnly.symGetInt _ _ _)).bind fun _ => (Kp.lift _).bind fun _ => Kp.symSetInt _ _ _ _)
        (Kp.pure _)

theorem Kp.execBin (op : Op) : Kp (execBin op) :=
  Kp.popInt.bind fun _ => Kp.popInt.bind fun _ => (Kp.lift _).bind fun _ => (Kp.push _).bind fun _ => Kp.pure _

theorem Kp.execUn (op : Op) : Kp (execUn op) :=
  Kp.popInt.bind fun _ => (Kp.lift _).bind fun _ => (Kp.push _).bind fun _ => Kp.pure _

theorem Kp.fix (t : DType) : Kp (fix t) := by
  cases t
  all_goals first
    | exact Kp.push _
    | exact Kp.pushString _
    | exact Kp.pure _

theorem Kp.forM_ {α} {f : α → M Unit} (h : ∀ a, Kp (f a)) (as : List α) : Kp (forM_ f as) := by
  induction as with
  | nil => exact Kp.pure _
  | cons a as ih => exact (h a).bind fun _ => ih

theorem Kp.params (f : Sym) : Kp (params f) := Kp.get.bind fun _ => Kp.ite Kp.ub (Kp.pure _)

theorem Kp.saveLocal (y : Nat) : Kp (saveLocal y) := by
  refine (Kp.symAt y).bind fun s => ?_
  split
  · exact Kp.forM_ (fun i => (Kp.ofReadOnly (ReadOnly.symGetFloat _ _ _)).bind fun _ => Kp.push _) _
  · exact Kp.forM_ (fun i => (Kp.ofReadOnly (ReadOnly.symGetInt _ _ _)).bind fun _ => Kp.push _) _
  · exact Kp.forM_ (fun i => (Kp.ofReadOnly (ReadOnly.symGetInt _ _ _)).bind fun _ => Kp.push _) _
  · exact Kp.forM_ (fun i => (Kp.ofReadOnly (ReadOnly.symGetString _ _ _)).bind fun _ => Kp.pushString _) _
  · exact (Kp.ofReadOnly (ReadOnly.symGetInstance _)).bind fun _ => Kp.push _
  · exact Kp.pure _

theorem Kp.restoreLocal (y : Nat) : Kp (restoreLocal y) := by
  refine (Kp.symAt y).bind fun s => ?_
  split
  · exact Kp.forM_ (fun i => Kp.popFloat.bind fun _ => Kp.symSetFloat _ _ _ _) _
  · exact Kp.forM_ (fun i => Kp.popInt.bind fun _ => Kp.symSetInt _ _ _ _) _
  · exact Kp.forM_ (fun i => Kp.popInt.bind fun _ => Kp.symSetInt _ _ _ _) _
  · exact Kp.forM_ (fun i => Kp.popString.bind fun _ => Kp.symSetString _ _ _ _) _
  · exact Kp.popInst.bind fun _ => Kp.symSetInstance _ _
  · exact Kp.pure _

theorem Kp.moveSlot (i j : Nat) : Kp (moveSlot i j) :=
  (Kp.stackGet _).bind fun _ => Kp.ite (Kp.pure _) ((Kp.stackPut _ _).bind fun _ => Kp.stackPut _ _)

theorem Kp.pushLocals (y : Nat) : Kp (pushLocals y) := by
  refine Kp.get.bind fun v => Kp.ite (Kp.pure _) ((Kp.symAt y).bind fun f => (Kp.params f).bind fun ps => ?_)
  refine Kp.ite (Kp.throw _) (Kp.ite (Kp.throw _) ((Kp.setSp _).bind fun _ => ?_))
  exact (Kp.forM_ (fun i => Kp.moveSlot _ _) _).bind fun _ => (Kp.forM_ Kp.saveLocal _).bind fun _ =>
    Kp.get.bind fun _ => Kp.setSp _

theorem Kp.popLocals (y : Nat) : Kp (popLocals y) := by
  refine Kp.get.bind fun v => Kp.ite (Kp.pure _) ((Kp.symAt y).bind fun f => Kp.ite ?_ ?_)
  · exact Kp.take.bind fun _ => (Kp.forM_ Kp.restoreLocal _).bind fun _ => Kp.get.bind fun _ =>
      (Kp.stackPut _ _).bind fun _ => Kp.setSp _
  · exact Kp.forM_ Kp.restoreLocal _

theorem Kp.fixStack (c : Call) (f : Sym) : Kp (fixStack c f) :=
  Kp.get.bind fun _ => Kp.ite (Kp.setSp _) <| Kp.ite (Kp.fix _) <| Kp.ite
    ((Kp.stackGet _).bind fun _ => (Kp.stackPut _ _).bind fun _ => Kp.setSp _) (Kp.pure _)

/-- The operations of an instruction that is neither a call nor a jump nor changes the context. -/
theorem Kp.execOp (h : Host) (call : Nat → M Unit) (i : Instr) (ht : i.op ∈ [Op.pushv, .pushvi] → ∀ t y, h.trap = some t → Kp (t y))
    (hi : i.op ∉ [Op.bl, .be, .b, .bz, .gmovi]) : Kp (execOp h call i) := by
  have hsym : ∀ x, Kp (symByIndex x) := fun x => Kp.get.bind fun v => by
    cases v.syms[x.toNat]? with
    | some s => exact Kp.pure _
    | none => exact Kp.throw _
  have hvar : i.op ∈ [Op.pushv, .pushvi] → ∀ y s, Kp (pushVar h y s) := by
    intro hm y s
    unfold pushVar
    match htt : h.trap with
    | some t => exact Kp.ite (ht hm t y htt) (Kp.pushRef _ _)
    | none => exact Kp.pushRef _ _
  obtain ⟨op, a, y, m, x, sz⟩ := i
  cases op
  all_goals first
    | exact Kp.execBin _
    | exact Kp.execUn _
    | exact Kp.pure _
    | exact Kp.throw _
    | exact (Kp.push _).bind fun _ => Kp.pure _
    | exact (hsym _).bind fun _ => (hvar (by simp) _ _).bind fun _ => Kp.pure _
    | exact (hsym _).bind fun _ => (Kp.pushRef _ _).bind fun _ => Kp.pure _
    | exact Kp.popRef.bind fun _ => Kp.popInt.bind fun _ => (Kp.vmSetInt _ _ _ _).bind fun _ => Kp.pure _
    | exact Kp.popRef.bind fun _ => Kp.popFloat.bind fun _ => (Kp.vmSetFloat _ _ _ _).bind fun _ => Kp.pure _
    | exact Kp.popRef.bind fun _ => Kp.popString.bind fun _ => (Kp.vmSetString _ _ _ _).bind fun _ => Kp.pure _
    | exact Kp.popRef.bind fun _ => Kp.popInst.bind fun _ => (Kp.symSetInstance _ _).bind fun _ => Kp.pure _
    | exact (Kp.assignOp _).bind fun _ => Kp.pure _
    | exact absurd (by simp) hi

end Verif.Daedalus
