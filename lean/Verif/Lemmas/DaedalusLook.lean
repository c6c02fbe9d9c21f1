import Verif.Lemmas.DaedalusEnds
import Verif.Spec.DaedalusLook
import Verif.Model.DaedalusLook

/-!
# Looking at the code of a machine
-/

namespace Verif.Daedalus

open Verif.Spec.Daedalus

/-- At one machine. -/
def RlAt {α} (p q : M α) (v : Vm) : Prop := ∀ t, ∃ t', q (readerAt t v) = ((p v).1, readerAt t' (p v).2)
def Rl {α} (p q : M α) : Prop := ∀ v, RlAt p q v

theorem RlAt.bind {α β} {p q : M α} {f g : α → M β} {v : Vm} (hp : RlAt p q v) (hf : ∀ a w, p v = (.ok a, w) → RlAt (f a) (g a) w) :
    RlAt (p >>= f) (q >>= g) v := by
  intro t
  obtain ⟨t', h1⟩ := hp t
  rw [M.bind_def, M.bind_def, h1]
  match hpv : p v with
  | (.error e, w) => exact ⟨t', rfl⟩
  | (.ok a, w) => exact hf a w hpv t'

theorem Rl.bind {α β} {p q : M α} {f g : α → M β} (hp : Rl p q) (hf : ∀ a, Rl (f a) (g a)) : Rl (p >>= f) (q >>= g) :=
  fun v => (hp v).bind fun a w _ => hf a w

theorem Rl.get_bind {β} {f g : Vm → M β} (h : ∀ v t, Rl (f v) (g (readerAt t v))) : Rl (M.get >>= f) (M.get >>= g) :=
  fun v t => h v t v t

theorem Rl.pure {α} (a : α) : Rl (Pure.pure a : M α) (Pure.pure a) := fun _ t => ⟨t, rfl⟩
theorem Rl.set (w : Vm) {t : Nat} : Rl (M.set w) (M.set (readerAt t w)) := fun _ _ => ⟨t, rfl⟩
theorem Rl.throw {α} (e : Exc) : Rl (M.throw e : M α) (M.throw e) := fun _ t => ⟨t, rfl⟩
theorem Rl.ub {α} : Rl (M.ub : M α) M.ub := fun _ t => ⟨t, rfl⟩
theorem Rl.lift {α} (r : Except Fail α) : Rl (M.lift r) (M.lift r) := fun _ t => ⟨t, rfl⟩
theorem Rl.ite {α} {c : Prop} [Decidable c] {p q p' q' : M α} (hp : Rl p p') (hq : Rl q q') :
    Rl (if c then p else q) (if c then p' else q') := by
  split
  · exact hp
  · exact hq

theorem Rl.setSp (sp : BitVec 16) : Rl (setSp sp) (setSp sp) := fun _ t => ⟨t, rfl⟩
theorem Rl.stackGet (i : Nat) : Rl (stackGet i) (stackGet i) := by
  intro v t
  refine ⟨t, ?_⟩
  unfold Daedalus.stackGet readerAt
  dsimp only
  split
  · rfl
  · split <;> rfl
theorem Rl.stackPut (i : Nat) (f : Frame) : Rl (stackPut i f) (stackPut i f) := by
  intro v t
  refine ⟨t, ?_⟩
  unfold Daedalus.stackPut readerAt
  dsimp only
  split <;> rfl
theorem Rl.push (f : Frame) : Rl (push f) (push f) :=
  Rl.get_bind fun _ _ => Rl.ite (Rl.throw _) ((Rl.stackPut _ _).bind fun _ => Rl.setSp _)
theorem Rl.take : Rl take take :=
  Rl.get_bind fun _ _ => (Rl.setSp _).bind fun _ => (Rl.stackGet _).bind fun _ => (Rl.stackPut _ _).bind fun _ => Rl.pure _
theorem Rl.pushRef (y : Nat) (i : Byte) : Rl (pushRef y i) (pushRef y i) := Rl.get_bind fun _ _ => Rl.push _

theorem Rl.symAt (y : Nat) : Rl (symAt y) (symAt y) := Rl.get_bind fun v _ => by
  dsimp only [readerAt]
  cases v.syms[y]? with
  | some s => exact Rl.pure _
  | none => exact Rl.ub
theorem Rl.symByIndex (x : BitVec 32) : Rl (symByIndex x) (symByIndex x) := Rl.get_bind fun v _ => by
  dsimp only [readerAt]
  cases v.syms[x.toNat]? with
  | some s => exact Rl.pure _
  | none => exact Rl.throw _
theorem Rl.storeSym (y : Nat) (p : Option Nat) (s : Sym) (i : Option Inst) : Rl (storeSym y p s i) (storeSym y p s i) :=
  fun _ t => ⟨t, rfl⟩

theorem Rl.symGetInt (y i : Nat) (p : Option Nat) : Rl (symGetInt y i p) (symGetInt y i p) :=
  (Rl.symAt y).bind fun _ => Rl.get_bind fun _ _ => Rl.lift _
theorem Rl.symGetFloat (y i : Nat) (p : Option Nat) : Rl (symGetFloat y i p) (symGetFloat y i p) :=
  (Rl.symAt y).bind fun _ => Rl.get_bind fun _ _ => Rl.lift _
theorem Rl.symGetString (y i : Nat) (p : Option Nat) : Rl (symGetString y i p) (symGetString y i p) :=
  (Rl.symAt y).bind fun _ => Rl.get_bind fun _ _ => Rl.lift _
theorem Rl.symGetInstance (y : Nat) : Rl (symGetInstance y) (symGetInstance y) :=
  (Rl.symAt y).bind fun _ => Rl.lift _
theorem Rl.symSetInt (y : Nat) (x : BitVec 32) (i : Nat) (p : Option Nat) : Rl (symSetInt y x i p) (symSetInt y x i p) :=
  (Rl.symAt y).bind fun _ => Rl.get_bind fun _ _ => (Rl.lift _).bind fun _ => Rl.storeSym _ _ _ _
theorem Rl.symSetFloat (y : Nat) (x : BitVec 32) (i : Nat) (p : Option Nat) : Rl (symSetFloat y x i p) (symSetFloat y x i p) :=
  (Rl.symAt y).bind fun _ => Rl.get_bind fun _ _ => (Rl.lift _).bind fun _ => Rl.storeSym _ _ _ _
theorem Rl.symSetString (y : Nat) (x : Bytes) (i : Nat) (p : Option Nat) : Rl (symSetString y x i p) (symSetString y x i p) :=
  (Rl.symAt y).bind fun _ => Rl.get_bind fun _ _ => (Rl.lift _).bind fun _ => Rl.storeSym _ _ _ _
theorem Rl.symSetInstance (y : Nat) (q : Option Nat) : Rl (symSetInstance y q) (symSetInstance y q) :=
  (Rl.symAt y).bind fun _ => (Rl.lift _).bind fun _ => Rl.storeSym _ _ _ _

theorem Rl.getFreeString : Rl getFreeString getFreeString := Rl.get_bind fun v _ => by
  dsimp only [readerAt]
  match v.free with
  | i :: rest => exact (Rl.set _).bind fun _ => Rl.pure _
  | [] =>
    refine (Rl.symAt _).bind fun s => (Rl.lift _).bind fun s' => (Rl.set _).bind fun _ => ?_
    cases pushRange [] s.count.toNat s'.count.toNat with
    | cons i rest => exact (Rl.set _).bind fun _ => Rl.pure _
    | nil => exact Rl.ub
theorem Rl.markFree (i : Byte) : Rl (markFree i) (markFree i) := fun _ t => ⟨t, rfl⟩
theorem Rl.pushString (s : Bytes) : Rl (pushString s) (pushString s) :=
  Rl.getFreeString.bind fun _ => Rl.get_bind fun _ _ => (Rl.symSetString _ _ _ _).bind fun _ => Rl.pushRef _ _

theorem Rl.vmGetInt (y : Nat) (i : Byte) (p : Option Nat) : Rl (vmGetInt y i p) (vmGetInt y i p) :=
  (Rl.symAt y).bind fun _ => Rl.get_bind fun _ _ => Rl.ite (Rl.ite (Rl.pure _) (Rl.throw _)) (Rl.symGetInt _ _ _)
theorem Rl.vmGetFloat (y : Nat) (i : Byte) (p : Option Nat) : Rl (vmGetFloat y i p) (vmGetFloat y i p) :=
  (Rl.symAt y).bind fun _ => Rl.get_bind fun _ _ => Rl.ite (Rl.ite (Rl.pure _) (Rl.throw _)) (Rl.symGetFloat _ _ _)

theorem Rl.popInt : Rl popInt popInt := by
  refine Rl.get_bind fun v _ => Rl.ite (Rl.pure _) (Rl.take.bind fun f => ?_)
  cases f with
  | ref y i p => exact Rl.vmGetInt y i p
  | int x => exact Rl.pure _
  | float x => exact Rl.throw _
  | inst x => exact Rl.throw _
theorem Rl.popFloat : Rl popFloat popFloat := by
  refine Rl.get_bind fun v _ => Rl.ite (Rl.pure _) (Rl.take.bind fun f => ?_)
  cases f with
  | ref y i p => exact Rl.vmGetFloat y i p
  | int x => exact Rl.pure _
  | float x => exact Rl.pure _
  | inst x => exact Rl.throw _
theorem Rl.popRef : Rl popRef popRef := by
  refine Rl.get_bind fun v _ => Rl.ite (Rl.throw _) (Rl.take.bind fun f => ?_)
  cases f with
  | ref y i p =>
    refine (Rl.symAt _).bind fun s => (Rl.symAt _).bind fun t => ?_
    exact Rl.ite ((Rl.markFree _).bind fun _ => Rl.pure _) (Rl.pure _)
  | int x => exact Rl.throw _
  | float x => exact Rl.throw _
  | inst x => exact Rl.throw _
theorem Rl.popInst : Rl popInst popInst := by
  refine Rl.get_bind fun v _ => Rl.ite (Rl.throw _) (Rl.take.bind fun f => ?_)
  cases f with
  | ref y i p => exact Rl.symGetInstance y
  | int x => exact Rl.throw _
  | float x => exact Rl.throw _
  | inst x => exact Rl.pure _
theorem Rl.popString : Rl popString popString :=
  Rl.popRef.bind fun _ => (Rl.symAt _).bind fun _ => Rl.get_bind fun _ _ =>
    Rl.ite (Rl.ite (Rl.pure _) (Rl.throw _)) (Rl.symGetString _ _ _)

theorem Rl.checkConst (y : Nat) : Rl (checkConst y) (checkConst y) :=
  (Rl.symAt _).bind fun _ => Rl.get_bind fun _ _ => Rl.ite (Rl.throw _) (Rl.pure _)
theorem Rl.vmSetInt (y : Nat) (x : BitVec 32) (i : Byte) (p : Option Nat) : Rl (vmSetInt y x i p) (vmSetInt y x i p) :=
  (Rl.checkConst y).bind fun _ => (Rl.symAt _).bind fun _ => Rl.get_bind fun _ _ => Rl.ite (Rl.symSetInt _ _ _ _) (Rl.pure _)
theorem Rl.vmSetFloat (y : Nat) (x : BitVec 32) (i : Byte) (p : Option Nat) : Rl (vmSetFloat y x i p) (vmSetFloat y x i p) :=
  (Rl.checkConst y).bind fun _ => (Rl.symAt _).bind fun _ => Rl.get_bind fun _ _ => Rl.ite (Rl.symSetFloat _ _ _ _) (Rl.pure _)
theorem Rl.vmSetString (y : Nat) (x : Bytes) (i : Byte) (p : Option Nat) : Rl (vmSetString y x i p) (vmSetString y x i p) :=
  (Rl.checkConst y).bind fun _ => (Rl.symAt _).bind fun _ => Rl.get_bind fun _ _ => Rl.ite (Rl.symSetString _ _ _ _) (Rl.pure _)
theorem Rl.assignOp (op : Op) : Rl (assignOp op) (assignOp op) :=
  Rl.popRef.bind fun _ => Rl.popInt.bind fun _ => Rl.ite (Rl.throw _) <|
    (Rl.checkConst _).bind fun _ => (Rl.symAt _).bind fun _ => Rl.get_bind fun _ _ =>
      Rl.ite ((Rl.symGetInt _ _ _).bind fun _ => (Rl.lift _).bind fun _ => Rl.symSetInt _ _ _ _) (Rl.pure _)
theorem Rl.execBin (op : Op) : Rl (execBin op) (execBin op) :=
  Rl.popInt.bind fun _ => Rl.popInt.bind fun _ => (Rl.lift _).bind fun _ => (Rl.push _).bind fun _ => Rl.pure _
theorem Rl.execUn (op : Op) : Rl (execUn op) (execUn op) :=
  Rl.popInt.bind fun _ => (Rl.lift _).bind fun _ => (Rl.push _).bind fun _ => Rl.pure _

theorem Rl.fix (t : DType) : Rl (fix t) (fix t) := by
  cases t
  all_goals first
    | exact Rl.push _
    | exact Rl.pushString _
    | exact Rl.pure _
theorem Rl.forM_ {α} {f : α → M Unit} (h : ∀ a, Rl (f a) (f a)) (as : List α) : Rl (forM_ f as) (forM_ f as) := by
  induction as with
  | nil => exact Rl.pure _
  | cons a as ih => exact (h a).bind fun _ => ih
theorem Rl.params (f : Sym) : Rl (params f) (params f) := Rl.get_bind fun _ _ => Rl.ite Rl.ub (Rl.pure _)
theorem Rl.saveLocal (y : Nat) : Rl (saveLocal y) (saveLocal y) := by
  refine (Rl.symAt y).bind fun s => ?_
  split
  · exact Rl.forM_ (fun i => (Rl.symGetFloat _ _ _).bind fun _ => Rl.push _) _
  · exact Rl.forM_ (fun i => (Rl.symGetInt _ _ _).bind fun _ => Rl.push _) _
  · exact Rl.forM_ (fun i => (Rl.symGetInt _ _ _).bind fun _ => Rl.push _) _
  · exact Rl.forM_ (fun i => (Rl.symGetString _ _ _).bind fun _ => Rl.pushString _) _
  · exact (Rl.symGetInstance _).bind fun _ => Rl.push _
  · exact Rl.pure _
theorem Rl.restoreLocal (y : Nat) : Rl (restoreLocal y) (restoreLocal y) := by
  refine (Rl.symAt y).bind fun s => ?_
  split
  · exact Rl.forM_ (fun i => Rl.popFloat.bind fun _ => Rl.symSetFloat _ _ _ _) _
  · exact Rl.forM_ (fun i => Rl.popInt.bind fun _ => Rl.symSetInt _ _ _ _) _
  · exact Rl.forM_ (fun i => Rl.popInt.bind fun _ => Rl.symSetInt _ _ _ _) _
  · exact Rl.forM_ (fun i => Rl.popString.bind fun _ => Rl.symSetString _ _ _ _) _
  · exact Rl.popInst.bind fun _ => Rl.symSetInstance _ _
  · exact Rl.pure _
theorem Rl.moveSlot (i j : Nat) : Rl (moveSlot i j) (moveSlot i j) :=
  (Rl.stackGet _).bind fun _ => Rl.ite (Rl.pure _) ((Rl.stackPut _ _).bind fun _ => Rl.stackPut _ _)
theorem Rl.pushLocals (y : Nat) : Rl (pushLocals y) (pushLocals y) := by
  refine Rl.get_bind fun v _ => Rl.ite (Rl.pure _) ((Rl.symAt y).bind fun f => (Rl.params f).bind fun ps => ?_)
  refine Rl.ite (Rl.throw _) (Rl.ite (Rl.throw _) ((Rl.setSp _).bind fun _ => ?_))
  exact (Rl.forM_ (fun i => Rl.moveSlot _ _) _).bind fun _ => (Rl.forM_ Rl.saveLocal _).bind fun _ =>
    Rl.get_bind fun _ _ => Rl.setSp _
theorem Rl.popLocals (y : Nat) : Rl (popLocals y) (popLocals y) := by
  refine Rl.get_bind fun v _ => Rl.ite (Rl.pure _) ((Rl.symAt y).bind fun f => Rl.ite ?_ ?_)
  · exact Rl.take.bind fun _ => (Rl.forM_ Rl.restoreLocal _).bind fun _ => Rl.get_bind fun _ _ =>
      (Rl.stackPut _ _).bind fun _ => Rl.setSp _
  · exact Rl.forM_ Rl.restoreLocal _
theorem Rl.fixStack (c : Call) (f : Sym) : Rl (fixStack c f) (fixStack c f) :=
  Rl.get_bind fun _ _ => Rl.ite (Rl.setSp _) <| Rl.ite (Rl.fix _) <| Rl.ite
    ((Rl.stackGet _).bind fun _ => (Rl.stackPut _ _).bind fun _ => Rl.setSp _) (Rl.pure _)
theorem Rl.pushCall (y : Nat) : Rl (pushCall y) (pushCall y) := by
  refine (Rl.symAt y).bind fun f => ?_
  have : Rl (do
      let ps ← Daedalus.params f
      let v ← M.get
      M.set { v with calls := ⟨y, v.pc, v.sp.setWidth 32 - BitVec.ofNat 32 ps.length, v.instance_⟩ :: v.calls } : M Unit) (do
      let ps ← Daedalus.params f
      let v ← M.get
      M.set { v with calls := ⟨y, v.pc, v.sp.setWidth 32 - BitVec.ofNat 32 ps.length, v.instance_⟩ :: v.calls } : M Unit) :=
    (Rl.params f).bind fun ps => Rl.get_bind fun v t =>
      Rl.set { v with calls := ⟨y, v.pc, v.sp.setWidth 32 - BitVec.ofNat 32 ps.length, v.instance_⟩ :: v.calls } (t := t)
  exact Rl.ite ((Rl.pushLocals y).bind fun _ => this) this
theorem Rl.popCall : Rl popCall popCall := by
  refine Rl.get_bind fun v _ => ?_
  dsimp only [readerAt]
  match v.calls with
  | [] => exact Rl.ub
  | c :: _ =>
    refine (Rl.symAt _).bind fun f => (Rl.fixStack c f).bind fun _ => ?_
    have : Rl (do
        let v ← M.get
        M.set { v with pc := c.pc, instance_ := c.ctx, calls := v.calls.tail } : M Unit) (do
        let v ← M.get
        M.set { v with pc := c.pc, instance_ := c.ctx, calls := v.calls.tail } : M Unit) :=
      Rl.get_bind fun v t => Rl.set { v with pc := c.pc, instance_ := c.ctx, calls := v.calls.tail } (t := t)
    exact Rl.ite ((Rl.popLocals _).bind fun _ => this) this
theorem Rl.jump (a : BitVec 32) : Rl (jump a) (jump a) := Rl.get_bind fun _ _ => Rl.ite (Rl.throw _) (Rl.set _)

theorem Rl.guarded {α} {p q : M α} (t : DType) (hp : Rl p q) : Rl (guarded t p) (guarded t q) := by
  intro v x
  obtain ⟨x', h1⟩ := hp v x
  unfold Daedalus.guarded
  rw [h1]
  match hpv : p v with
  | (.error (.throw e), w) =>
    dsimp only
    obtain ⟨x'', h2⟩ := Rl.fix t w x'
    rw [h2]
    match hf : Daedalus.fix t w with
    | (.ok _, u) => exact ⟨x'', rfl⟩
    | (.error (.throw _), u) => exact ⟨x'', rfl⟩
    | (.error .hang, u) => exact ⟨x'', rfl⟩
    | (.error .ub, u) => exact ⟨x'', rfl⟩
    | (.error .terminate, u) => exact ⟨x'', rfl⟩
  | (.ok a, w) => exact ⟨x', rfl⟩
  | (.error .hang, w) => exact ⟨x', rfl⟩
  | (.error .ub, w) => exact ⟨x', rfl⟩
  | (.error .terminate, w) => exact ⟨x', rfl⟩

theorem Rl.pushVar {h k : Host} (hh : AlikeHosts h k) (y : Nat) (s : Sym) : Rl (pushVar h y s) (pushVar k y s) := by
  unfold Daedalus.pushVar
  have := hh.trap
  match h.trap, k.trap, this with
  | some t, some t', .some ht => exact Rl.ite (ht y) (Rl.pushRef _ _)
  | none, none, .none => exact Rl.pushRef _ _

theorem Rl.execBe {h k : Host} (hh : AlikeHosts h k) (x : BitVec 32) : Rl (execBe h x) (execBe k x) := by
  refine (Rl.symByIndex x).bind fun p => (Rl.guarded _ ?_).bind fun _ => Rl.pure _
  have h1 := hh.external p.1
  match h.external p.1, k.external p.1, h1 with
  | some cb, some cb', .some hc => exact (Rl.pushCall _).bind fun _ => Rl.bind hc fun _ => Rl.popCall
  | none, none, .none =>
    dsimp only
    have h2 := hh.default_
    match h.default_, k.default_, h2 with
    | some d, some d', .some hd => exact hd _
    | none, none, .none => exact Rl.throw _

/-- All instructions but calls of functions of the script. -/
theorem Rl.execOp {h k : Host} (hh : AlikeHosts h k) (call call' : Nat → M Unit) (i : Instr) (hi : i.op ≠ .bl) :
    Rl (execOp h call i) (execOp k call' i) := by
  obtain ⟨op, a, y, m, x, sz⟩ := i
  cases op
  case bl => exact absurd rfl hi
  case be => exact Rl.execBe hh _
  case b => exact (Rl.jump _).bind fun _ => Rl.pure _
  case bz => exact Rl.popInt.bind fun z => Rl.ite ((Rl.jump _).bind fun _ => Rl.pure _) (Rl.pure _)
  case gmovi => exact (Rl.symByIndex _).bind fun p => (Rl.symGetInstance _).bind fun q => Rl.get_bind fun _ _ => (Rl.set _).bind fun _ => Rl.pure _
  case pushv => exact (Rl.symByIndex _).bind fun p => (Rl.pushVar hh _ _).bind fun _ => Rl.pure _
  case pushvi => exact (Rl.symByIndex _).bind fun p => (Rl.pushVar hh _ _).bind fun _ => Rl.pure _
  all_goals first
    | exact Rl.execBin _
    | exact Rl.execUn _
    | exact Rl.pure _
    | exact Rl.throw _
    | exact (Rl.push _).bind fun _ => Rl.pure _
    | exact (Rl.symByIndex _).bind fun _ => (Rl.pushRef _ _).bind fun _ => Rl.pure _
    | exact Rl.popRef.bind fun _ => Rl.popInt.bind fun _ => (Rl.vmSetInt _ _ _ _).bind fun _ => Rl.pure _
    | exact Rl.popRef.bind fun _ => Rl.popFloat.bind fun _ => (Rl.vmSetFloat _ _ _ _).bind fun _ => Rl.pure _
    | exact Rl.popRef.bind fun _ => Rl.popString.bind fun _ => (Rl.vmSetString _ _ _ _).bind fun _ => Rl.pure _
    | exact Rl.popRef.bind fun _ => Rl.popInst.bind fun _ => (Rl.symSetInstance _ _).bind fun _ => Rl.pure _
    | exact (Rl.assignOp _).bind fun _ => Rl.pure _


theorem Rl.pushArg (a : Arg) : Rl (pushArg a) (pushArg a) := by
  cases a
  case str => exact Rl.pushString _
  all_goals exact Rl.push _

theorem Rl.pushArgs (ps : List Nat) : ∀ as : List Arg, Rl (pushArgs ps as) (pushArgs ps as) := by
  induction ps with
  | nil => intro as; exact Rl.pure _
  | cons p ps ih =>
    intro as
    cases as with
    | nil => exact Rl.pure _
    | cons a as => exact (Rl.symAt p).bind fun s => Rl.ite ((Rl.pushArg a).bind fun _ => ih as) (Rl.throw _)

theorem Rl.checkClass (t : Nat) (p : Option Nat) : Rl (checkClass t p) (checkClass t p) := by
  cases p with
  | none => exact Rl.pure _
  | some a =>
    refine Rl.get_bind fun v _ => ?_
    dsimp only [readerAt]
    split
    · exact Rl.ub
    · split
      · exact Rl.ub
      · exact Rl.ite (Rl.pure _) (Rl.throw _)

theorem Rl.popRet (f : Sym) (r : RType) : Rl (popRet f r) (popRet f r) := by
  cases r with
  | ignore =>
    unfold Daedalus.popRet
    exact Rl.ite (Rl.get_bind fun _ _ => (Rl.setSp _).bind fun _ => Rl.pure _) (Rl.pure _)
  | void => exact Rl.pure _
  | int => exact Rl.popInt.bind fun _ => Rl.pure _
  | float => exact Rl.popFloat.bind fun _ => Rl.pure _
  | str => exact Rl.popString.bind fun _ => Rl.pure _
  | inst t => exact Rl.popInst.bind fun _ => (Rl.checkClass _ _).bind fun _ => Rl.pure _
  | func => exact Rl.ub

/-! ## Executions with hosts that look at the code -/

/-- The position after an instruction of closed code. -/
theorem exec_closed {h : Host} {v0 : Vm} {P : BitVec 32 → Prop} {call : Nat → M Unit} (hh : Prompt h)
    (hP : Closed h v0.text P) (hret : ∀ y, Ret (call y)) (hpc : ∀ y, Pc (call y)) {v w : Vm} (hsame : Same v0 v) (hv : P v.pc)
    (hx : exec h call v = (.ok true, w)) : Same v0 w ∧ P w.pc := by
  obtain ⟨hlt, hflow⟩ := hP _ hv
  obtain ⟨i, t, hd⟩ : ∃ i t, decode ⟨v0.text, v.pc.toNat⟩ = .ok (i, t) := by
    obtain ⟨i, hd, _, _⟩ := decode_at v0.text v.pc.toNat hlt
    exact ⟨i, _, hd⟩
  have hon := hflow i _ hd
  rw [← hsame.text] at hlt hd
  have hfetch := fetch_at hlt hd
  generalize t.pos = pos at hfetch
  have hsame' : Same v0 { v with textPos := pos } := hsame.trans (Same.text_pos v pos)
  have hstep := Ret.execOp hh.balanced hret i { v with textPos := pos }
  have hjump : ∀ w, (jump i.address >>= fun _ => (Pure.pure Step.stay : M Step)) w = (.ok .stay, { w with pc := i.address }) ∨
      (jump i.address >>= fun _ => (Pure.pure Step.stay : M Step)) w = (.error (.throw .daedalusVm), w) := by
    intro w
    unfold jump
    rw [M.bind_def, M.get_bind]
    by_cases hx : i.address.toNat ≥ w.text.length
    · rw [if_pos hx]; exact Or.inr rfl
    · rw [if_neg hx]; exact Or.inl rfl
  unfold exec at hx
  rw [M.bind_ok hfetch] at hx
  unfold execInstr at hx
  match he : execOp h call i { v with textPos := pos } with
  | (.ok .next, u) =>
    rw [he] at hx
    cases hx
    have h1 := hstep _ _ he
    have hu := hsame'.trans h1.1
    have hpu : u.pc = v.pc := by
      by_cases hbz : i.op = .bz
      · unfold execOp at he
        rw [hbz] at he; dsimp only at he
        obtain ⟨x, u', e1, e2⟩ := M.bind_inv he
        have e3 := Kp.popInt.pos _ _ _ e1
        split at e2
        · rcases hjump u' with e | e
          · rw [e] at e2; cases e2
          · rw [e] at e2; cases e2
        · cases e2; exact e3
      · by_cases hb : i.op = .b
        · unfold execOp at he
          rw [hb] at he; dsimp only at he
          rcases hjump { v with textPos := pos } with e | e
          · rw [e] at he; cases he
          · rw [e] at he; cases he
        · exact Pc.execOp hh hpc i hb hbz { v with textPos := pos } _ _ he
    have hnext : P (v.pc + BitVec.ofNat 32 i.size) := by
      obtain ⟨op, a, y, m, x, sz⟩ := i
      cases op
      case rsr => cases he
      case movss => cases he
      case b => 
        rcases hjump { v with textPos := pos } with e | e
        · have he : (jump a >>= fun _ => (Pure.pure Step.stay : M Step)) { v with textPos := pos } = (.ok .next, u) := he
          rw [e] at he; cases he
        · have he : (jump a >>= fun _ => (Pure.pure Step.stay : M Step)) { v with textPos := pos } = (.ok .next, u) := he
          rw [e] at he; cases he
      case bz => exact hon.1
      case bl => exact hon.1
      all_goals exact hon
    refine ⟨⟨hu.text, hu.tmp, hu.nullOk, hu.ignoreConst, hu.len, hu.decl⟩, ?_⟩
    show P (u.pc + BitVec.ofNat 32 i.size)
    rw [hpu]
    exact hnext
  | (.ok .stay, u) =>
    rw [he] at hx
    cases hx
    have hu := hsame'.trans (hstep _ _ he).1
    have hres : w.pc = i.address ∧ P i.address := by
      by_cases hbz : i.op = .bz
      · unfold execOp at he
        rw [hbz] at he; dsimp only at he
        obtain ⟨x, u', e1, e2⟩ := M.bind_inv he
        unfold Within at hon
        rw [hbz] at hon; dsimp only at hon
        split at e2
        · rcases hjump u' with e | e
          · rw [e] at e2; cases e2; exact ⟨rfl, hon.2⟩
          · rw [e] at e2; cases e2
        · cases e2
      · by_cases hb : i.op = .b
        · unfold execOp at he
          rw [hb] at he; dsimp only at he
          unfold Within at hon
          rw [hb] at hon; dsimp only at hon
          rcases hjump { v with textPos := pos } with e | e
          · rw [e] at he; cases he; exact ⟨rfl, hon⟩
          · rw [e] at he; cases he
        · by_cases hr : i.op = .rsr
          · unfold execOp at he
            rw [hr] at he; dsimp only at he
            cases he
          · cases next_of_op hb hbz hr _ _ _ he
    exact ⟨hu, by rw [hres.1]; exact hres.2⟩
  | (.ok .ret, u) => rw [he] at hx; cases hx
  | (.error (.throw e), u) =>
    rw [he] at hx
    dsimp only at hx
    split at hx
    · unfold execCatch at hx
      rw [M.get_bind, hh.handler] at hx
      cases hx
    · cases hx
  | (.error .ub, u) => rw [he] at hx; cases hx
  | (.error .terminate, u) => rw [he] at hx; cases hx
  | (.error .hang, u) => rw [he] at hx; cases hx

/-- Calls of functions in the closed code. -/
def CallsAlike (v0 : Vm) (P : BitVec 32 → Prop) (c d : Nat → M Unit) : Prop :=
  ∀ y f, v0.syms[y]? = some f → P f.address → ∀ v, Same v0 v → RlAt (c y) (d y) v

theorem fetch_look {v : Vm} (hlt : v.pc.toNat ≤ v.text.length) (t : Nat) : fetch (readerAt t v) = fetch v ∨
    ∃ e, fetch v = (.error e, v) ∧ fetch (readerAt t v) = (.error e, readerAt t v) := by
  have h1 : instructionAt v.text t v.pc.toNat = instructionAt v.text v.textPos v.pc.toNat := by
    unfold instructionAt
    rw [Rd.bind_ok (Rd.seek_beg hlt), Rd.bind_ok (Rd.seek_beg hlt)]
  unfold fetch
  have h2 : instructionAt (readerAt t v).text (readerAt t v).textPos (readerAt t v).pc.toNat = 
    instructionAt v.text v.textPos v.pc.toNat := h1
  rw [h2]
  match instructionAt v.text v.textPos v.pc.toNat with
  | .ok (i, pos) => exact Or.inl rfl
  | .error e => exact Or.inr ⟨e, rfl, rfl⟩

theorem exec_look {h k : Host} {v0 : Vm} {P : BitVec 32 → Prop} {c d : Nat → M Unit} (hh : Prompt h) (ha : AlikeHosts h k)
    (hP : Closed h v0.text P) (hcall : CallsAlike v0 P c d) {v : Vm} (hsame : Same v0 v) (hv : P v.pc) :
    RlAt (exec h c) (exec k d) v := by
  intro t
  obtain ⟨hlt, hflow⟩ := hP _ hv
  obtain ⟨i, s, hd⟩ : ∃ i t, decode ⟨v0.text, v.pc.toNat⟩ = .ok (i, t) := by
    obtain ⟨i, hd, _, _⟩ := decode_at v0.text v.pc.toNat hlt
    exact ⟨i, _, hd⟩
  have hon := hflow i _ hd
  rw [← hsame.text] at hlt hd
  have hfetch := fetch_at hlt hd
  have hfetch' : fetch (readerAt t v) = (.ok i, { v with textPos := s.pos }) := by
    rcases fetch_look (v := v) (Nat.le_of_lt hlt) t with e | ⟨e, e1, e2⟩
    · rw [e, hfetch]
    · rw [hfetch] at e1; cases e1
  generalize s.pos = pos at hfetch hfetch'
  have hsame' : Same v0 { v with textPos := pos } := hsame.trans (Same.text_pos v pos)
  unfold exec
  rw [M.bind_ok hfetch, M.bind_ok hfetch']
  have hop : RlAt (execOp h c i) (execOp k d i) { v with textPos := pos } := by
    by_cases hbl : i.op = .bl
    · intro t
      unfold execOp
      rw [hbl]
      dsimp only
      unfold execBl
      rw [M.get_bind, M.get_bind]
      unfold Within at hon
      rw [hbl] at hon; dsimp only at hon
      have h1 := ha.override_ i.address
      match ho : h.override_ i.address, k.override_ i.address, h1 with
      | some cb, some cb', .some hc =>
        dsimp only [readerAt]
        match findByAddress v.syms i.address with
        | none => exact ⟨t, rfl⟩
        | some y => exact ((Rl.symAt y).bind fun s => (Rl.guarded _ hc).bind fun _ => Rl.pure _) { v with textPos := pos } t
      | none, none, .none =>
        dsimp only [readerAt]
        match hf : findByAddress v.syms i.address with
        | none => exact ⟨t, rfl⟩
        | some y =>
          rw [hsame.findByAddress] at hf
          obtain ⟨f, hf1, hf2⟩ := findByAddress_address hf
          exact (hcall y f hf1 (by rw [hf2]; exact hon.2 ho) _ hsame').bind (fun _ w _ => Rl.pure _ w) t
    · exact Rl.execOp ha c d i hbl _
  obtain ⟨t', he'⟩ := hop pos
  have hid : readerAt pos { v with textPos := pos } = { v with textPos := pos } := rfl
  rw [hid] at he'
  unfold execInstr
  rw [he']
  match execOp h c i { v with textPos := pos } with
  | (.ok .next, u) => exact ⟨t', rfl⟩
  | (.ok .stay, u) => exact ⟨t', rfl⟩
  | (.ok .ret, u) => exact ⟨t', rfl⟩
  | (.error (.throw e), u) =>
    dsimp only
    split
    · unfold execCatch
      rw [M.get_bind, M.get_bind, ha.handler.1, ha.handler.2]
      exact ⟨t', rfl⟩
    · exact ⟨t', rfl⟩
  | (.error .ub, u) => exact ⟨t', rfl⟩
  | (.error .terminate, u) => exact ⟨t', rfl⟩
  | (.error .hang, u) => exact ⟨t', rfl⟩

theorem loop_look {h k : Host} {v0 : Vm} {P : BitVec 32 → Prop} {c d : Nat → M Unit} (hh : Prompt h) (ha : AlikeHosts h k)
    (hP : Closed h v0.text P) (hcall : CallsAlike v0 P c d) (hret : ∀ y, Ret (c y)) (hpc : ∀ y, Pc (c y)) (n : Nat) {v : Vm}
    (hsame : Same v0 v) (hv : P v.pc) : RlAt (loop (exec h c) n) (loop (exec k d) n) v := by
  induction n generalizing v with
  | zero => exact fun t => ⟨t, rfl⟩
  | succ n ih =>
    refine (exec_look hh ha hP hcall hsame hv).bind fun b w hw => ?_
    cases b with
    | false => exact Rl.pure _ w
    | true =>
      obtain ⟨h1, h2⟩ := exec_closed hh hP hret hpc hsame hv hw
      exact ih h1 h2

theorem unsafeCall_look {h k : Host} {v0 : Vm} {P : BitVec 32 → Prop} (hh : Prompt h) (ha : AlikeHosts h k)
    (hP : Closed h v0.text P) (fuel : Nat) : CallsAlike v0 P (unsafeCall h fuel) (unsafeCall k fuel) := by
  induction fuel with
  | zero => exact fun _ _ _ _ _ _ t => ⟨t, rfl⟩
  | succ n ih =>
    intro y f hy hf v hsame
    have hkeeps : ∀ z v a w, unsafeCall h n z v = (.ok a, w) → Keeps v w := fun z v a w hz =>
      unsafeCall_keeps hh.balanced n z (by cases a; exact hz)
    refine (Rl.pushCall y v).bind fun _ w hw => ?_
    obtain ⟨g, u, _, hk, _, rfl⟩ := pushCall_inv hw
    have hs := hsame.trans hk.toSame
    refine (Rl.symAt y _).bind fun f' w' hw' => ?_
    obtain ⟨hf', rfl⟩ := symAt_inv hw'
    obtain ⟨f2, hf1, hf3, _⟩ := hs.decl y f hy
    have hff : f' = f2 := by
      have : u.syms[y]? = some f' := hf'
      rw [this] at hf1
      exact Option.some.inj hf1
    subst hff
    refine RlAt.bind (Rl.get_bind (fun v t => Rl.ite (Rl.throw _) (Rl.set { v with pc := f'.address } (t := t))) _) fun _ w2 hw2 => ?_
    have hw3 : w2 = { { u with calls := { fn := y, pc := v.pc, sp := BitVec.setWidth 32 u.sp - g.count, ctx := v.instance_ } :: v.calls } with
        pc := f'.address } := by
      unfold jump at hw2
      rw [M.get_bind] at hw2
      split at hw2
      · cases hw2
      · cases hw2; rfl
    subst hw3
    refine RlAt.bind (loop_look hh ha hP ih (fun z v a w hz => ⟨(hkeeps z v a w hz).toSame, (hkeeps z v a w hz).calls⟩)
      (fun z v a w hz => (hkeeps z v a w hz).pc) n ⟨hs.text, hs.tmp, hs.nullOk, hs.ignoreConst, hs.len, hs.decl⟩ ?_) fun _ w3 _ => Rl.popCall w3
    show P f'.address
    rw [shape_address hf3]
    exact hf

/-! ## Looking before a call -/

/-- Whatever the host and the script do, the first instruction of a function puts the reader where it has to be. -/
theorem unsafeCall_before (h : Host) (fuel y : Nat) : Rl (unsafeCall h fuel y) (unsafeCall h fuel y) := by
  cases fuel with
  | zero => exact fun _ t => ⟨t, rfl⟩
  | succ n =>
    refine (Rl.pushCall y).bind fun _ => (Rl.symAt y).bind fun f => fun v => ?_
    refine RlAt.bind (Rl.get_bind (fun v t => Rl.ite (Rl.throw _) (Rl.set { v with pc := f.address } (t := t))) _) fun _ w hw => ?_
    have hlt : w.pc.toNat < w.text.length := by
      unfold jump at hw
      rw [M.get_bind] at hw
      split at hw
      · cases hw
      · rename_i hx
        cases hw
        show f.address.toNat < v.text.length
        omega
    refine RlAt.bind (fun t => ?_) fun _ w3 _ => Rl.popCall w3
    cases n with
    | zero => exact ⟨t, rfl⟩
    | succ n =>
      obtain ⟨i, hd, _, _⟩ := decode_at w.text w.pc.toNat hlt
      have hfetch := fetch_at hlt hd
      refine ⟨((loop (exec h (unsafeCall h (n + 1))) (n + 1) w).2).textPos, ?_⟩
      have : loop (exec h (unsafeCall h (n + 1))) (n + 1) (readerAt t w) = loop (exec h (unsafeCall h (n + 1))) (n + 1) w := by
        unfold loop exec
        rw [M.bind_def, M.bind_def, M.bind_def, M.bind_def]
        rcases fetch_look (v := w) (Nat.le_of_lt hlt) t with e | ⟨e, e1, e2⟩
        · rw [e]
        · rw [hfetch] at e1; cases e1
      rw [this]
      rfl

theorem callFunction_alike {h k : Host} {fuel : Nat} {y : Nat} (hc : Rl (unsafeCall h fuel y) (unsafeCall k fuel y)) (args : List Arg) (r : RType) :
    Rl (callFunction h fuel (some y) args r) (callFunction k fuel (some y) args r) := by
  unfold callFunction
  dsimp only
  refine (Rl.symAt y).bind fun f => Rl.ite (Rl.throw _) ((Rl.params f).bind fun ps => Rl.ite (Rl.throw _) (Rl.ite (Rl.throw _) ?_))
  exact (Rl.pushArgs _ _).bind fun _ => hc.bind fun _ => Rl.popRet _ _

/-! ## The functions that look -/

theorem padded_looks (k : Nat) (s : Rs) : ∃ bs u, Rd.readPadded k s = .ok (bs, u) := ⟨_, _, rfl⟩

theorem char_looks (s : Rs) : ∃ c u, Rd.char s = .ok (c, u) := by
  obtain ⟨bs, u, h⟩ := padded_looks 1 s
  exact ⟨_, _, by unfold Rd.char; rw [Rd.bind_ok h]; rfl⟩

theorem u32_looks (s : Rs) : ∃ c u, Rd.u32 s = .ok (c, u) := by
  obtain ⟨bs, u, h⟩ := padded_looks 4 s
  exact ⟨_, _, by unfold Rd.u32 Rd.word; rw [Rd.bind_ok h]; rfl⟩

theorem decode_looks (s : Rs) : ∃ i u, decode s = .ok (i, u) := by
  obtain ⟨c, u, h⟩ := char_looks s
  obtain ⟨x, w, h1⟩ := u32_looks u
  obtain ⟨d, z, h2⟩ := char_looks w
  unfold decode
  rw [Rd.bind_ok h]
  generalize Op.ofByte c = op
  cases op
  all_goals first
    | exact ⟨_, _, rfl⟩
    | exact ⟨_, _, (Rd.bind_ok h1).trans rfl⟩
    | exact ⟨_, _, (Rd.bind_ok h1).trans ((Rd.bind_ok h2).trans rfl)⟩

theorem seek_looks (off : Int) (w : Whence) (s : Rs) : ∃ u, Rd.seek off w s = .ok ((), u) := by
  unfold Rd.seek
  dsimp only
  split
  · exact ⟨_, rfl⟩
  · exact ⟨_, rfl⟩

/-- Looking yields an instruction and moves the reader only. -/
theorem look_total (a : BitVec 32) (v : Vm) : ∃ i t, look a v = (.ok i, readerAt t v) := by
  obtain ⟨u, h1⟩ := seek_looks a.toNat .beg ⟨v.text, v.textPos⟩
  obtain ⟨i, w, h2⟩ := decode_looks u
  refine ⟨i, w.pos, ?_⟩
  unfold look instructionAt
  rw [Rd.bind_ok h1, h2]
  rfl

theorem look_same (a : BitVec 32) {v : Vm} (ha : a.toNat ≤ v.text.length) (t : Nat) : look a (readerAt t v) = look a v := by
  obtain ⟨i, w, h2⟩ := decode_looks ⟨v.text, a.toNat⟩
  have h1 : ∀ t, instructionAt v.text t a.toNat = .ok (i, w.pos) := by
    intro t
    unfold instructionAt
    rw [Rd.bind_ok (Rd.seek_beg ha), h2]
  have h3 : instructionAt (readerAt t v).text (readerAt t v).textPos a.toNat = .ok (i, w.pos) := h1 t
  unfold look
  rw [h1, h3]
  rfl

theorem Rl.looking {α} (a : BitVec 32) {p q : M α} (h : Rl p q) : Rl p (look a >>= fun _ => q) := by
  intro v t
  obtain ⟨i, t', hl⟩ := look_total a (readerAt t v)
  rw [M.bind_ok hl]
  exact h v t'

end Verif.Daedalus
