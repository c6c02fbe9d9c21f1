import Verif.Lemmas.DaedalusFlow
import Verif.Lemmas.DaedalusApi
import Verif.Spec.DaedalusEnds

/-!
# Calls that end
-/

namespace Verif.Daedalus

open Verif.Spec.Daedalus

/-! ## More fuel changes nothing -/

/-- Where `p` ends, `q` does the same. -/
def Le {α} (p q : M α) : Prop := ∀ v, (p v).1 ≠ .error .hang → q v = p v

theorem Le.refl {α} (p : M α) : Le p p := fun _ _ => rfl

theorem Le.bind {α β} {p q : M α} {f g : α → M β} (hp : Le p q) (hf : ∀ a, Le (f a) (g a)) : Le (p >>= f) (q >>= g) := by
  intro v hv
  rw [M.bind_def] at hv ⊢
  rw [M.bind_def]
  have h1 := hp v
  match hpv : p v with
  | (.error e, w) =>
    rw [hpv] at h1 hv
    rw [h1 (fun hh => hv (by cases hh; rfl))]
  | (.ok a, w) =>
    rw [hpv] at h1 hv
    rw [h1 (by simp)]
    exact hf a w hv

theorem Le.execBl {h : Host} {c d : Nat → M Unit} (hc : ∀ y, Le (c y) (d y)) (a : BitVec 32) : Le (execBl h c a) (execBl h d a) := by
  refine (Le.refl _).bind fun v => ?_
  cases h.override_ a with
  | some cb => exact Le.refl _
  | none =>
    dsimp only
    cases findByAddress v.syms a with
    | none => exact Le.refl _
    | some y => exact (hc y).bind fun _ => Le.refl _

theorem Le.execOp {h : Host} {c d : Nat → M Unit} (hc : ∀ y, Le (c y) (d y)) (i : Instr) : Le (execOp h c i) (execOp h d i) := by
  obtain ⟨op, a, y, m, x, sz⟩ := i
  cases op
  case bl => exact Le.execBl hc _
  all_goals exact Le.refl _

theorem Le.exec {h : Host} {c d : Nat → M Unit} (hc : ∀ y, Le (c y) (d y)) : Le (exec h c) (exec h d) := by
  refine (Le.refl _).bind fun i v hv => ?_
  have h1 := Le.execOp (h := h) hc i v
  unfold execInstr at hv ⊢
  match he : Daedalus.execOp h c i v with
  | (.error .hang, w) => rw [he] at hv; exact absurd rfl hv
  | (.ok r, w) => rw [he] at h1; rw [h1 (by simp)]
  | (.error (.throw e), w) => rw [he] at h1; rw [h1 (by simp)]
  | (.error .ub, w) => rw [he] at h1; rw [h1 (by simp)]
  | (.error .terminate, w) => rw [he] at h1; rw [h1 (by simp)]

theorem Le.loop {p q : M Bool} (hp : Le p q) {m n : Nat} (hmn : m ≤ n) : Le (loop p m) (loop q n) := by
  induction m generalizing n with
  | zero => exact fun v hv => absurd rfl hv
  | succ m ih =>
    obtain ⟨n, rfl⟩ : ∃ k, n = k + 1 := ⟨n - 1, by omega⟩
    refine hp.bind fun b => ?_
    cases b with
    | true => exact ih (by omega)
    | false => exact Le.refl _

theorem Le.unsafeCall {h : Host} {m n : Nat} (hmn : m ≤ n) (y : Nat) : Le (unsafeCall h m y) (unsafeCall h n y) := by
  induction m generalizing n y with
  | zero => exact fun v hv => absurd rfl hv
  | succ m ih =>
    obtain ⟨n, rfl⟩ : ∃ k, n = k + 1 := ⟨n - 1, by omega⟩
    refine (Le.refl _).bind fun _ => (Le.refl _).bind fun f => (Le.refl _).bind fun _ => Le.bind ?_ fun _ => Le.refl _
    exact Le.loop (Le.exec fun z => ih (by omega) z) (by omega)

theorem Le.callFunction {h : Host} {m n : Nat} (hmn : m ≤ n) (y : Option Nat) (args : List Arg) (r : RType) :
    Le (callFunction h m y args r) (callFunction h n y args r) := by
  cases y with
  | none => exact Le.refl _
  | some y =>
    refine (Le.refl _).bind fun f => ?_
    split
    · exact Le.refl _
    · refine (Le.refl _).bind fun ps => ?_
      split
      · exact Le.refl _
      · split
        · exact Le.refl _
        · exact (Le.refl _).bind fun _ => (Le.unsafeCall hmn y).bind fun _ => Le.refl _

/-! ## What always ends -/

def En {α} (p : M α) : Prop := ∀ v, (p v).1 ≠ .error .hang

theorem En.bind {α β} {p : M α} {f : α → M β} (hp : En p) (hf : ∀ a, En (f a)) : En (p >>= f) := by
  intro v
  rw [M.bind_def]
  have h1 := hp v
  match hpv : p v with
  | (.error e, w) => rw [hpv] at h1; exact fun hh => h1 (by simpa using hh)
  | (.ok a, w) => exact hf a w

theorem En.pure {α} (a : α) : En (Pure.pure a : M α) := fun v h => by cases h
theorem En.get : En M.get := fun v h => by cases h
theorem En.set (w : Vm) : En (M.set w) := fun v h => by cases h
theorem En.throw {α} (e : Exc) : En (M.throw e : M α) := fun v h => by cases h
theorem En.ub {α} : En (M.ub : M α) := fun v h => by cases h
theorem En.lift {α} {r : Except Fail α} (hr : r ≠ .error .hang) : En (M.lift r) := fun _ => hr
theorem En.ite {α} {c : Prop} [Decidable c] {p q : M α} (hp : En p) (hq : En q) : En (if c then p else q) := by
  split
  · exact hp
  · exact hq

theorem En.setSp (sp : BitVec 16) : En (setSp sp) := fun v h => by cases h
theorem En.stackGet (i : Nat) : En (stackGet i) := by
  intro v
  unfold Daedalus.stackGet
  split
  · simp
  · split <;> simp
theorem En.stackPut (i : Nat) (f : Frame) : En (stackPut i f) := by
  intro v
  unfold Daedalus.stackPut
  split <;> simp
theorem En.push (f : Frame) : En (push f) :=
  En.get.bind fun _ => En.ite (En.throw _) ((En.stackPut _ _).bind fun _ => En.setSp _)
theorem En.take : En take :=
  En.get.bind fun _ => (En.setSp _).bind fun _ => (En.stackGet _).bind fun _ => (En.stackPut _ _).bind fun _ => En.pure _
theorem En.pushRef (y : Nat) (i : Byte) : En (pushRef y i) := En.get.bind fun _ => En.push _

theorem En.symAt (y : Nat) : En (symAt y) := En.get.bind fun v => by
  cases v.syms[y]? with
  | some s => exact En.pure _
  | none => exact En.ub
theorem En.symByIndex (x : BitVec 32) : En (symByIndex x) := En.get.bind fun v => by
  cases v.syms[x.toNat]? with
  | some s => exact En.pure _
  | none => exact En.throw _
theorem En.storeSym (y : Nat) (p : Option Nat) (s : Sym) (i : Option Inst) : En (storeSym y p s i) := fun v h => by cases h

theorem memberOff_ends (s : Sym) (i k : Nat) (c : Inst) : s.memberOff i k c ≠ .error .hang := by
  unfold Sym.memberOff
  repeat' split
  all_goals simp

theorem getInt_ends (s : Sym) (i : Nat) (c : Option Inst) : s.getInt i c ≠ .error .hang := by
  unfold Sym.getInt
  repeat' split
  all_goals first | (intro hh; cases hh; done) | skip
  all_goals
    intro hh
    simp_all [memberOff_ends]

theorem getFloat_ends (s : Sym) (i : Nat) (c : Option Inst) : s.getFloat i c ≠ .error .hang := by
  unfold Sym.getFloat
  repeat' split
  all_goals first | (intro hh; cases hh; done) | skip
  all_goals
    intro hh
    simp_all [memberOff_ends]

theorem getString_ends (s : Sym) (i : Nat) (c : Option Inst) : s.getString i c ≠ .error .hang := by
  unfold Sym.getString
  repeat' split
  all_goals first | (intro hh; cases hh; done) | skip
  all_goals
    intro hh
    simp_all [memberOff_ends]

theorem setInt_ends (s : Sym) (x : BitVec 32) (i : Nat) (c : Option Inst) : s.setInt x i c ≠ .error .hang := by
  unfold Sym.setInt
  repeat' split
  all_goals first | (intro hh; cases hh; done) | skip
  all_goals
    intro hh
    simp_all [memberOff_ends]

theorem setFloat_ends (s : Sym) (x : BitVec 32) (i : Nat) (c : Option Inst) : s.setFloat x i c ≠ .error .hang := by
  unfold Sym.setFloat
  repeat' split
  all_goals first | (intro hh; cases hh; done) | skip
  all_goals
    intro hh
    simp_all [memberOff_ends]

theorem setString_ends (s : Sym) (x : Bytes) (i : Nat) (c : Option Inst) : s.setString x i c ≠ .error .hang := by
  unfold Sym.setString
  repeat' split
  all_goals first | (intro hh; cases hh; done) | skip
  all_goals
    intro hh
    simp_all [memberOff_ends]

theorem getInstance_ends (s : Sym) : s.getInstance ≠ .error .hang := by
  unfold Sym.getInstance
  repeat' split
  all_goals (intro hh; cases hh)

theorem setInstance_ends (s : Sym) (p : Option Nat) : s.setInstance p ≠ .error .hang := by
  unfold Sym.setInstance
  repeat' split
  all_goals (intro hh; cases hh)

theorem grow_ends (s : Sym) (n : BitVec 32) : s.grow n ≠ .error .hang := by
  unfold Sym.grow
  repeat' split
  all_goals (intro hh; cases hh)

theorem i32_ends (x : Int) : i32 x ≠ .error .hang := by
  unfold i32
  split <;> (intro hh; cases hh)

theorem binop_ends (op : Op) (a b : BitVec 32) : binop op a b ≠ .error .hang := by
  cases op
  all_goals unfold binop
  all_goals dsimp only
  all_goals repeat' split
  all_goals first | (exact i32_ends _) | (intro hh; cases hh)

theorem unop_ends (op : Op) (a : BitVec 32) : unop op a ≠ .error .hang := by
  cases op
  all_goals unfold unop
  all_goals dsimp only
  all_goals first | (exact i32_ends _) | (intro hh; cases hh)

theorem En.symGetInt (y i : Nat) (p : Option Nat) : En (symGetInt y i p) :=
  (En.symAt y).bind fun _ => En.get.bind fun _ => En.lift (getInt_ends _ _ _)
theorem En.symGetFloat (y i : Nat) (p : Option Nat) : En (symGetFloat y i p) :=
  (En.symAt y).bind fun _ => En.get.bind fun _ => En.lift (getFloat_ends _ _ _)
theorem En.symGetString (y i : Nat) (p : Option Nat) : En (symGetString y i p) :=
  (En.symAt y).bind fun _ => En.get.bind fun _ => En.lift (getString_ends _ _ _)
theorem En.symGetInstance (y : Nat) : En (symGetInstance y) :=
  (En.symAt y).bind fun _ => En.lift (getInstance_ends _)
theorem En.symSetInt (y : Nat) (x : BitVec 32) (i : Nat) (p : Option Nat) : En (symSetInt y x i p) :=
  (En.symAt y).bind fun _ => En.get.bind fun _ => (En.lift (setInt_ends _ _ _ _)).bind fun _ => En.storeSym _ _ _ _
theorem En.symSetFloat (y : Nat) (x : BitVec 32) (i : Nat) (p : Option Nat) : En (symSetFloat y x i p) :=
  (En.symAt y).bind fun _ => En.get.bind fun _ => (En.lift (setFloat_ends _ _ _ _)).bind fun _ => En.storeSym _ _ _ _
theorem En.symSetString (y : Nat) (x : Bytes) (i : Nat) (p : Option Nat) : En (symSetString y x i p) :=
  (En.symAt y).bind fun _ => En.get.bind fun _ => (En.lift (setString_ends _ _ _ _)).bind fun _ => En.storeSym _ _ _ _
theorem En.symSetInstance (y : Nat) (q : Option Nat) : En (symSetInstance y q) :=
  (En.symAt y).bind fun _ => (En.lift (setInstance_ends _ _)).bind fun _ => En.storeSym _ _ _ _

theorem En.getFreeString : En getFreeString := En.get.bind fun v => by
  match v.free with
  | i :: rest => exact (En.set _).bind fun _ => En.pure _
  | [] =>
    refine (En.symAt _).bind fun s => (En.lift (grow_ends _ _)).bind fun s' => (En.set _).bind fun _ => ?_
    dsimp only
    cases pushRange [] s.count.toNat s'.count.toNat with
    | cons i rest => exact (En.set _).bind fun _ => En.pure _
    | nil => exact En.ub
theorem En.markFree (i : Byte) : En (markFree i) := fun v h => by cases h
theorem En.pushString (s : Bytes) : En (pushString s) :=
  En.getFreeString.bind fun _ => En.get.bind fun _ => (En.symSetString _ _ _ _).bind fun _ => En.pushRef _ _

theorem En.vmGetInt (y : Nat) (i : Byte) (p : Option Nat) : En (vmGetInt y i p) :=
  (En.symAt y).bind fun _ => En.get.bind fun _ => En.ite (En.ite (En.pure _) (En.throw _)) (En.symGetInt _ _ _)
theorem En.vmGetFloat (y : Nat) (i : Byte) (p : Option Nat) : En (vmGetFloat y i p) :=
  (En.symAt y).bind fun _ => En.get.bind fun _ => En.ite (En.ite (En.pure _) (En.throw _)) (En.symGetFloat _ _ _)

theorem En.popInt : En popInt := by
  refine En.get.bind fun v => En.ite (En.pure _) (En.take.bind fun f => ?_)
  cases f with
  | ref y i p => exact En.vmGetInt y i p
  | int x => exact En.pure _
  | float x => exact En.throw _
  | inst x => exact En.throw _
theorem En.popFloat : En popFloat := by
  refine En.get.bind fun v => En.ite (En.pure _) (En.take.bind fun f => ?_)
  cases f with
  | ref y i p => exact En.vmGetFloat y i p
  | int x => exact En.pure _
  | float x => exact En.pure _
  | inst x => exact En.throw _
theorem En.popRef : En popRef := by
  refine En.get.bind fun v => En.ite (En.throw _) (En.take.bind fun f => ?_)
  cases f with
  | ref y i p =>
    refine (En.symAt _).bind fun s => (En.symAt _).bind fun t => ?_
    exact En.ite ((En.markFree _).bind fun _ => En.pure _) (En.pure _)
  | int x => exact En.throw _
  | float x => exact En.throw _
  | inst x => exact En.throw _
theorem En.popInst : En popInst := by
  refine En.get.bind fun v => En.ite (En.throw _) (En.take.bind fun f => ?_)
  cases f with
  | ref y i p => exact En.symGetInstance y
  | int x => exact En.throw _
  | float x => exact En.throw _
  | inst x => exact En.pure _
theorem En.popString : En popString :=
  En.popRef.bind fun _ => (En.symAt _).bind fun _ => En.get.bind fun _ =>
    En.ite (En.ite (En.pure _) (En.throw _)) (En.symGetString _ _ _)

theorem En.checkConst (y : Nat) : En (checkConst y) :=
  (En.symAt _).bind fun _ => En.get.bind fun _ => En.ite (En.throw _) (En.pure _)
theorem En.vmSetInt (y : Nat) (x : BitVec 32) (i : Byte) (p : Option Nat) : En (vmSetInt y x i p) :=
  (En.checkConst y).bind fun _ => (En.symAt _).bind fun _ => En.get.bind fun _ => En.ite (En.symSetInt _ _ _ _) (En.pure _)
theorem En.vmSetFloat (y : Nat) (x : BitVec 32) (i : Byte) (p : Option Nat) : En (vmSetFloat y x i p) :=
  (En.checkConst y).bind fun _ => (En.symAt _).bind fun _ => En.get.bind fun _ => En.ite (En.symSetFloat _ _ _ _) (En.pure _)
theorem En.vmSetString (y : Nat) (x : Bytes) (i : Byte) (p : Option Nat) : En (vmSetString y x i p) :=
  (En.checkConst y).bind fun _ => (En.symAt _).bind fun _ => En.get.bind fun _ => En.ite (En.symSetString _ _ _ _) (En.pure _)
theorem En.assignOp (op : Op) : En (assignOp op) :=
  En.popRef.bind fun _ => En.popInt.bind fun _ => En.ite (En.throw _) <|
    (En.checkConst _).bind fun _ => (En.symAt _).bind fun _ => En.get.bind fun _ =>
      En.ite ((En.symGetInt _ _ _).bind fun _ => (En.lift (binop_ends _ _ _)).bind fun _ => En.symSetInt _ _ _ _) (En.pure _)
theorem En.execBin (op : Op) : En (execBin op) :=
  En.popInt.bind fun _ => En.popInt.bind fun _ => (En.lift (binop_ends _ _ _)).bind fun _ => (En.push _).bind fun _ => En.pure _
theorem En.execUn (op : Op) : En (execUn op) :=
  En.popInt.bind fun _ => (En.lift (unop_ends _ _)).bind fun _ => (En.push _).bind fun _ => En.pure _

theorem En.fix (t : DType) : En (fix t) := by
  cases t
  all_goals first
    | exact En.push _
    | exact En.pushString _
    | exact En.pure _
theorem En.forM_ {α} {f : α → M Unit} (h : ∀ a, En (f a)) (as : List α) : En (forM_ f as) := by
  induction as with
  | nil => exact En.pure _
  | cons a as ih => exact (h a).bind fun _ => ih
theorem En.params (f : Sym) : En (params f) := En.get.bind fun _ => En.ite En.ub (En.pure _)
theorem En.saveLocal (y : Nat) : En (saveLocal y) := by
  refine (En.symAt y).bind fun s => ?_
  split
  · exact En.forM_ (fun i => (En.symGetFloat _ _ _).bind fun _ => En.push _) _
  · exact En.forM_ (fun i => (En.symGetInt _ _ _).bind fun _ => En.push _) _
  · exact En.forM_ (fun i => (En.symGetInt _ _ _).bind fun _ => En.push _) _
  · exact En.forM_ (fun i => (En.symGetString _ _ _).bind fun _ => En.pushString _) _
  · exact (En.symGetInstance _).bind fun _ => En.push _
  · exact En.pure _
theorem En.restoreLocal (y : Nat) : En (restoreLocal y) := by
  refine (En.symAt y).bind fun s => ?_
  split
  · exact En.forM_ (fun i => En.popFloat.bind fun _ => En.symSetFloat _ _ _ _) _
  · exact En.forM_ (fun i => En.popInt.bind fun _ => En.symSetInt _ _ _ _) _
  · exact En.forM_ (fun i => En.popInt.bind fun _ => En.symSetInt _ _ _ _) _
  · exact En.forM_ (fun i => En.popString.bind fun _ => En.symSetString _ _ _ _) _
  · exact En.popInst.bind fun _ => En.symSetInstance _ _
  · exact En.pure _
theorem En.moveSlot (i j : Nat) : En (moveSlot i j) :=
  (En.stackGet _).bind fun _ => En.ite (En.pure _) ((En.stackPut _ _).bind fun _ => En.stackPut _ _)
theorem En.pushLocals (y : Nat) : En (pushLocals y) := by
  refine En.get.bind fun v => En.ite (En.pure _) ((En.symAt y).bind fun f => (En.params f).bind fun ps => ?_)
  refine En.ite (En.throw _) (En.ite (En.throw _) ((En.setSp _).bind fun _ => ?_))
  exact (En.forM_ (fun i => En.moveSlot _ _) _).bind fun _ => (En.forM_ En.saveLocal _).bind fun _ =>
    En.get.bind fun _ => En.setSp _
theorem En.popLocals (y : Nat) : En (popLocals y) := by
  refine En.get.bind fun v => En.ite (En.pure _) ((En.symAt y).bind fun f => En.ite ?_ ?_)
  · exact En.take.bind fun _ => (En.forM_ En.restoreLocal _).bind fun _ => En.get.bind fun _ =>
      (En.stackPut _ _).bind fun _ => En.setSp _
  · exact En.forM_ En.restoreLocal _
theorem En.fixStack (c : Call) (f : Sym) : En (fixStack c f) :=
  En.get.bind fun _ => En.ite (En.setSp _) <| En.ite (En.fix _) <| En.ite
    ((En.stackGet _).bind fun _ => (En.stackPut _ _).bind fun _ => En.setSp _) (En.pure _)
theorem En.pushCall (y : Nat) : En (pushCall y) := by
  refine (En.symAt y).bind fun f => ?_
  have : En (do
      let ps ← Daedalus.params f
      let v ← M.get
      M.set { v with calls := ⟨y, v.pc, v.sp.setWidth 32 - BitVec.ofNat 32 ps.length, v.instance_⟩ :: v.calls } : M Unit) :=
    (En.params f).bind fun _ => En.get.bind fun _ => En.set _
  exact En.ite ((En.pushLocals y).bind fun _ => this) this
theorem En.popCall : En popCall := by
  refine En.get.bind fun v => ?_
  match v.calls with
  | [] => exact En.ub
  | c :: _ =>
    refine (En.symAt _).bind fun f => (En.fixStack c f).bind fun _ => ?_
    have : En (do
        let v ← M.get
        M.set { v with pc := c.pc, instance_ := c.ctx, calls := v.calls.tail } : M Unit) := En.get.bind fun _ => En.set _
    exact En.ite ((En.popLocals _).bind fun _ => this) this
theorem En.jump (a : BitVec 32) : En (jump a) := En.get.bind fun _ => En.ite (En.throw _) (En.set _)

theorem En.guarded {α} {p : M α} (t : DType) (hp : En p) : En (guarded t p) := by
  intro v
  unfold Daedalus.guarded
  have h1 := hp v
  match hpv : p v with
  | (.error (.throw e), w) =>
    dsimp only
    have h2 := En.fix t w
    match hf : Daedalus.fix t w with
    | (.ok _, u) => simp
    | (.error (.throw _), u) => simp
    | (.error .hang, u) => rw [hf] at h2; exact absurd rfl h2
    | (.error .ub, u) => simp
    | (.error .terminate, u) => simp
  | (.ok a, w) => simp
  | (.error .hang, w) => rw [hpv] at h1; exact absurd rfl h1
  | (.error .ub, w) => simp
  | (.error .terminate, w) => simp

theorem En.pushVar {h : Host} (hh : Prompt h) (y : Nat) (s : Sym) : En (pushVar h y s) := by
  unfold Daedalus.pushVar
  match ht : h.trap with
  | some t => exact En.ite (fun v => (hh.trap t y ht v).1) (En.pushRef _ _)
  | none => exact En.pushRef _ _

theorem En.execBe {h : Host} (hh : Prompt h) (x : BitVec 32) : En (execBe h x) := by
  refine (En.symByIndex x).bind fun p => (En.guarded _ ?_).bind fun _ => En.pure _
  match he : h.external p.1 with
  | some cb => exact (En.pushCall _).bind fun _ => En.bind (fun v => (hh.external _ cb he v).1) fun _ => En.popCall
  | none =>
    dsimp only
    match hd : h.default_ with
    | some d => exact fun v => (hh.default_ d _ hd v).1
    | none => exact En.throw _

/-- All instructions but calls of functions of the script. -/
theorem En.execOp {h : Host} (hh : Prompt h) (call : Nat → M Unit) (i : Instr) (hi : i.op ≠ .bl) : En (execOp h call i) := by
  obtain ⟨op, a, y, m, x, sz⟩ := i
  cases op
  case bl => exact absurd rfl hi
  case be => exact En.execBe hh _
  case b => exact (En.jump _).bind fun _ => En.pure _
  case bz => exact En.popInt.bind fun z => En.ite ((En.jump _).bind fun _ => En.pure _) (En.pure _)
  case gmovi => exact (En.symByIndex _).bind fun p => (En.symGetInstance _).bind fun q => En.get.bind fun _ => (En.set _).bind fun _ => En.pure _
  case pushv => exact (En.symByIndex _).bind fun p => (En.pushVar hh _ _).bind fun _ => En.pure _
  case pushvi => exact (En.symByIndex _).bind fun p => (En.pushVar hh _ _).bind fun _ => En.pure _
  all_goals first
    | exact En.execBin _
    | exact En.execUn _
    | exact En.pure _
    | exact En.throw _
    | exact (En.push _).bind fun _ => En.pure _
    | exact (En.symByIndex _).bind fun _ => (En.pushRef _ _).bind fun _ => En.pure _
    | exact En.popRef.bind fun _ => En.popInt.bind fun _ => (En.vmSetInt _ _ _ _).bind fun _ => En.pure _
    | exact En.popRef.bind fun _ => En.popFloat.bind fun _ => (En.vmSetFloat _ _ _ _).bind fun _ => En.pure _
    | exact En.popRef.bind fun _ => En.popString.bind fun _ => (En.vmSetString _ _ _ _).bind fun _ => En.pure _
    | exact En.popRef.bind fun _ => En.popInst.bind fun _ => (En.symSetInstance _ _).bind fun _ => En.pure _
    | exact (En.assignOp _).bind fun _ => En.pure _

/-! ## Where the instructions leave the position -/

/-- Operations that, when they end well, stay where they are in the code. -/
def Pc {α} (p : M α) : Prop := ∀ v a w, p v = (.ok a, w) → w.pc = v.pc

theorem Kp.pos {α} {p : M α} (h : Kp p) : Pc p := by
  intro v a w hp
  have := h v
  unfold KpAt at this
  rw [hp] at this
  exact this.pc

theorem Pc.bind {α β} {p : M α} {f : α → M β} (hp : Pc p) (hf : ∀ a, Pc (f a)) : Pc (p >>= f) := by
  intro v b w h
  obtain ⟨a, u, h1, h2⟩ := M.bind_inv h
  exact (hf a u b w h2).trans (hp v a u h1)

theorem Pc.guarded {α} {p : M α} (t : DType) (hp : Pc p) : Pc (guarded t p) := by
  intro v a w h
  unfold Daedalus.guarded at h
  split at h
  · split at h <;> cases h
  · exact hp v a w h

theorem Pc.ofComesBack {p : M Unit} (h : ComesBack p) : Pc p := fun v a w hp => ((h v).2 w (by cases a; exact hp)).2.2

theorem Returns.ofComesBack {p : M Unit} (h : ComesBack p) : Returns p :=
  fun v w hp => ⟨((h v).2 w hp).1, ((h v).2 w hp).2.1⟩

theorem _root_.Verif.Spec.Daedalus.Prompt.balanced {h : Host} (hh : Prompt h) : Balanced h :=
  ⟨fun y p e => Returns.ofComesBack (hh.external y p e), fun a p e => Returns.ofComesBack (hh.override_ a p e),
   fun d y e => Returns.ofComesBack (hh.default_ d y e), fun t y e => Returns.ofComesBack (hh.trap t y e), hh.handler⟩

theorem Pc.pushVar {h : Host} (hh : Prompt h) (y : Nat) (s : Sym) : Pc (pushVar h y s) := by
  unfold Daedalus.pushVar
  match ht : h.trap with
  | some t =>
    dsimp only
    split
    · exact Pc.ofComesBack (hh.trap t y ht)
    · exact (Kp.pushRef _ _).pos
  | none => exact (Kp.pushRef _ _).pos

theorem Pc.execBl {h : Host} (hh : Prompt h) {call : Nat → M Unit} (hc : ∀ y, Pc (call y)) (a : BitVec 32) :
    Pc (execBl h call a) := by
  refine Kp.get.pos.bind fun v => ?_
  match ho : h.override_ a with
  | some cb =>
    dsimp only
    cases findByAddress v.syms a with
    | none => exact Kp.ub.pos
    | some y =>
      exact (Kp.symAt y).pos.bind fun s => (Pc.guarded _ (Pc.ofComesBack (hh.override_ a cb ho))).bind fun _ => (Kp.pure _).pos
  | none =>
    dsimp only
    cases findByAddress v.syms a with
    | none => exact (Kp.throw _).pos
    | some y => exact (hc y).bind fun _ => (Kp.pure _).pos

theorem Pc.execBe {h : Host} (hh : Prompt h) (x : BitVec 32) : Pc (execBe h x) := by
  refine (Kp.symByIndex x).pos.bind fun p => (Pc.guarded _ ?_).bind fun _ => (Kp.pure _).pos
  match he : h.external p.1 with
  | some cb =>
    intro v a w hv
    exact (call_keeps (Ret.ofReturns (hh.balanced.external _ cb he)) (by cases a; exact hv)).pc
  | none =>
    dsimp only
    match hd : h.default_ with
    | some d => exact Pc.ofComesBack (hh.default_ d _ hd)
    | none => exact (Kp.throw _).pos

/-- Everything but jumps. -/
theorem Pc.execOp {h : Host} (hh : Prompt h) {call : Nat → M Unit} (hc : ∀ y, Pc (call y)) (i : Instr) (h1 : i.op ≠ .b)
    (h2 : i.op ≠ .bz) : Pc (execOp h call i) := by
  obtain ⟨op, a, y, m, x, sz⟩ := i
  cases op
  case b => exact absurd rfl h1
  case bz => exact absurd rfl h2
  case bl => exact Pc.execBl hh hc _
  case be => exact Pc.execBe hh _
  case gmovi =>
    refine (Kp.symByIndex _).pos.bind fun p => (Kp.ofReadOnly (ReadOnly.symGetInstance _)).pos.bind fun q => ?_
    intro v b w h
    rw [M.get_bind] at h
    cases h
    rfl
  case pushv => exact (Kp.symByIndex _).pos.bind fun p => (Pc.pushVar hh _ _).bind fun _ => (Kp.pure _).pos
  case pushvi => exact (Kp.symByIndex _).pos.bind fun p => (Pc.pushVar hh _ _).bind fun _ => (Kp.pure _).pos
  all_goals
    exact Kp.pos (Kp.execOp h call ⟨_, a, y, m, x, sz⟩ (by simp) (by simp))

/-- Everything but jumps and `RSR` ends with `break`. -/
theorem next_of_op {h : Host} {call : Nat → M Unit} {i : Instr} (h1 : i.op ≠ .b) (h2 : i.op ≠ .bz) (h3 : i.op ≠ .rsr) :
    Nexts (execOp h call i) := by
  have hb : ∀ {α} {p : M α}, Nexts (p >>= fun _ => Pure.pure .next) := fun {α p} => Nexts.bind fun _ => Nexts.pure
  obtain ⟨op, a, y, m, x, sz⟩ := i
  cases op
  case b => exact absurd rfl h1
  case bz => exact absurd rfl h2
  case rsr => exact absurd rfl h3
  case bl =>
    refine Nexts.bind fun v => ?_
    dsimp only
    cases h.override_ a with
    | some cb =>
      dsimp only
      cases findByAddress v.syms a with
      | none => intro v st u hh; cases hh
      | some y => exact Nexts.bind fun _ => hb
    | none =>
      dsimp only
      cases findByAddress v.syms a with
      | none => intro v st u hh; cases hh
      | some y => exact hb
  case be => exact Nexts.bind fun _ => hb
  case movss => intro v st u hh; cases hh
  all_goals first
    | exact Nexts.pure
    | exact hb
    | exact Nexts.bind fun _ => hb
    | exact Nexts.bind fun _ => Nexts.bind fun _ => hb
    | exact Nexts.bind fun _ => Nexts.bind fun _ => Nexts.bind fun _ => hb
    | exact Nexts.bind fun _ => Nexts.bind fun _ => Nexts.bind fun _ => Nexts.bind fun _ => hb

theorem findByAddress_address {syms : List Sym} {a : BitVec 32} {y : Nat} (h : findByAddress syms a = some y) :
    ∃ f, syms[y]? = some f ∧ f.address = a := by
  obtain ⟨f, h1, h2⟩ := lastIndex_some h
  simp only [Bool.and_eq_true, beq_iff_eq] at h2
  exact ⟨f, h1, h2.2⟩

/-! ## Straight code -/

/-- Calls of functions below of a level. -/
def CallsEnd (v0 : Vm) (L : BitVec 32 → Option Nat) (n : Nat) (call : Nat → M Unit) : Prop :=
  ∀ y f m, v0.syms[y]? = some f → m < n → L f.address = some m → ∀ v, Same v0 v → (call y v).1 ≠ .error .hang

theorem Same.text_pos (v : Vm) (pos : Nat) : Same v { v with textPos := pos } :=
  ⟨rfl, rfl, rfl, rfl, rfl, fun _ s h => ⟨s, h, rfl, fun _ => rfl⟩⟩

theorem instr_pos {text : Bytes} {p : Nat} {i : Instr} {s : Rs} (hlt : p < text.length) (hd : decode ⟨text, p⟩ = .ok (i, s)) :
    0 < i.size ∧ i.size ≤ 6 := by
  obtain ⟨j, h1, _, h3⟩ := decode_at text p hlt
  rw [hd] at h1
  cases h1
  rw [h3]
  unfold instrLen
  split
  · omega
  · split <;> omega

theorem exec_onward {h : Host} {v0 : Vm} {L : BitVec 32 → Option Nat} {call : Nat → M Unit} {n : Nat} (hh : Prompt h)
    (hL : Straight h v0.text L) (hcall : CallsEnd v0 L n call) (hret : ∀ y, Ret (call y)) (hpc : ∀ y, Pc (call y)) {v : Vm}
    (hsame : Same v0 v) (hn : L v.pc = some n) :
    (exec h call v).1 ≠ .error .hang ∧
      ∀ w, exec h call v = (.ok true, w) → Same v0 w ∧ L w.pc = some n ∧ v.pc.toNat < w.pc.toNat := by
  obtain ⟨hlt, hflow⟩ := hL _ _ hn
  obtain ⟨i, t, hd⟩ : ∃ i t, decode ⟨v0.text, v.pc.toNat⟩ = .ok (i, t) := by
    obtain ⟨i, hd, _, _⟩ := decode_at v0.text v.pc.toNat hlt
    exact ⟨i, _, hd⟩
  have hon := hflow i _ hd
  have hsz := instr_pos hlt hd
  obtain ⟨pos, hfetch⟩ : ∃ pos, fetch v = (.ok i, { v with textPos := pos }) := by
    rw [← hsame.text] at hlt hd
    refine ⟨t.pos, ?_⟩
    unfold fetch instructionAt
    rw [Rd.bind_ok (Rd.seek_beg (Nat.le_of_lt hlt)), hd]
  have hsame' : Same v0 { v with textPos := pos } := hsame.trans (Same.text_pos v pos)
  have hend : (execOp h call i { v with textPos := pos }).1 ≠ .error .hang := by
    by_cases hbl : i.op = .bl
    · unfold execOp
      rw [hbl]
      dsimp only
      unfold execBl
      rw [M.get_bind]
      match ho : h.override_ i.address with
      | some cb =>
        dsimp only
        cases findByAddress v.syms i.address with
        | none => exact En.ub _
        | some y =>
          exact ((En.symAt y).bind fun s => (En.guarded _ fun v => (hh.override_ _ cb ho v).1).bind fun _ => En.pure _) _
      | none =>
        dsimp only
        match hf : findByAddress v.syms i.address with
        | none => exact En.throw _ _
        | some y =>
          rw [hsame.findByAddress] at hf
          obtain ⟨f, hf1, hf2⟩ := findByAddress_address hf
          unfold Onward at hon
          rw [hbl] at hon
          obtain ⟨m, hm, hLm⟩ := hon.2 ho
          have h1 := hcall y f m hf1 hm (by rw [hf2]; exact hLm) { v with textPos := pos } hsame'
          dsimp only
          rw [M.bind_def]
          match hc : call y { v with textPos := pos } with
          | (.ok a, w) => exact En.pure _ _
          | (.error e, w) => rw [hc] at h1; exact fun hx => h1 (by cases hx; rfl)
    · exact En.execOp hh call i hbl _
  have hstep := Ret.execOp hh.balanced hret i { v with textPos := pos }
  have hjump : ∀ w, (jump i.address >>= fun _ => (Pure.pure Step.stay : M Step)) w = (.ok .stay, { w with pc := i.address }) ∨
      (jump i.address >>= fun _ => (Pure.pure Step.stay : M Step)) w = (.error (.throw .daedalusVm), w) := by
    intro w
    unfold jump
    rw [M.bind_def, M.get_bind]
    by_cases hx : i.address.toNat ≥ w.text.length
    · rw [if_pos hx]; exact Or.inr rfl
    · rw [if_neg hx]; exact Or.inl rfl
  unfold exec
  rw [M.bind_ok hfetch]
  unfold execInstr
  match he : execOp h call i { v with textPos := pos } with
  | (.ok .next, u) =>
    dsimp only
    refine ⟨(En.bind (p := advance i) (fun v hx => by cases hx) fun _ => En.pure _) u, fun w hw => ?_⟩
    cases hw
    have h1 := hstep _ _ he
    have hu := hsame'.trans h1.1
    have hpu : u.pc = v.pc := by
      by_cases hbz : i.op = .bz
      · unfold execOp at he
        rw [hbz] at he; dsimp only at he
        obtain ⟨x, u', e1, e2⟩ := M.bind_inv he
        have e3 := Kp.popInt.pos _ _ _ e1
        split at e2
        · rcases hjump u' with e | e
          · rw [e] at e2; cases e2
          · rw [e] at e2; cases e2
        · cases e2; exact e3
      · by_cases hb : i.op = .b
        · unfold execOp at he
          rw [hb] at he; dsimp only at he
          rcases hjump { v with textPos := pos } with e | e
          · rw [e] at he; cases he
          · rw [e] at he; cases he
        · exact Pc.execOp hh hpc i hb hbz { v with textPos := pos } _ _ he
    have hnext : v.pc.toNat + i.size < 2 ^ 32 ∧ L (v.pc + BitVec.ofNat 32 i.size) = some n := by
      obtain ⟨op, a, y, m, x, sz⟩ := i
      cases op
      case rsr => cases he
      case movss => cases he
      case b => 
        rcases hjump { v with textPos := pos } with e | e
        · have he : (jump a >>= fun _ => (Pure.pure Step.stay : M Step)) { v with textPos := pos } = (.ok .next, u) := he
          rw [e] at he; cases he
        · have he : (jump a >>= fun _ => (Pure.pure Step.stay : M Step)) { v with textPos := pos } = (.ok .next, u) := he
          rw [e] at he; cases he
      case bz => exact hon.1
      case bl => exact hon.1
      all_goals exact hon
    refine ⟨⟨hu.text, hu.tmp, hu.nullOk, hu.ignoreConst, hu.len, hu.decl⟩, ?_, ?_⟩
    · show L (u.pc + BitVec.ofNat 32 i.size) = some n
      rw [hpu]
      exact hnext.2
    · show v.pc.toNat < (u.pc + BitVec.ofNat 32 i.size).toNat
      rw [hpu, BitVec.toNat_add, BitVec.toNat_ofNat]
      have h2 := hnext.1
      rw [Nat.mod_eq_of_lt (a := i.size) (by omega), Nat.mod_eq_of_lt h2]
      omega
  | (.ok .stay, u) =>
    dsimp only
    refine ⟨by simp, fun w hw => ?_⟩
    cases hw
    have hu := hsame'.trans (hstep _ _ he).1
    have hres : u.pc = i.address ∧ v.pc.toNat < i.address.toNat ∧ L i.address = some n := by
      by_cases hbz : i.op = .bz
      · unfold execOp at he
        rw [hbz] at he; dsimp only at he
        obtain ⟨x, u', e1, e2⟩ := M.bind_inv he
        unfold Onward at hon
        rw [hbz] at hon; dsimp only at hon
        split at e2
        · rcases hjump u' with e | e
          · rw [e] at e2; cases e2; exact ⟨rfl, hon.2⟩
          · rw [e] at e2; cases e2
        · cases e2
      · by_cases hb : i.op = .b
        · unfold execOp at he
          rw [hb] at he; dsimp only at he
          unfold Onward at hon
          rw [hb] at hon; dsimp only at hon
          rcases hjump { v with textPos := pos } with e | e
          · rw [e] at he; cases he; exact ⟨rfl, hon⟩
          · rw [e] at he; cases he
        · by_cases hr : i.op = .rsr
          · unfold execOp at he
            rw [hr] at he; dsimp only at he
            cases he
          · cases next_of_op hb hbz hr _ _ _ he
    exact ⟨hu, by rw [hres.1]; exact hres.2.2, by rw [hres.1]; exact hres.2.1⟩
  | (.ok .ret, u) => exact ⟨by simp, fun w hw => by cases hw⟩
  | (.error (.throw e), u) =>
    dsimp only
    split
    · unfold execCatch
      rw [M.get_bind, hh.handler]
      exact ⟨En.throw _ _, fun w hw => by cases hw⟩
    · exact ⟨by simp, fun w hw => by cases hw⟩
  | (.error .ub, u) => exact ⟨by simp, fun w hw => by cases hw⟩
  | (.error .terminate, u) => exact ⟨by simp, fun w hw => by cases hw⟩
  | (.error .hang, u) => rw [he] at hend; exact absurd rfl hend

theorem loop_onward {h : Host} {v0 : Vm} {L : BitVec 32 → Option Nat} {call : Nat → M Unit} {n : Nat} (hh : Prompt h)
    (hL : Straight h v0.text L) (hcall : CallsEnd v0 L n call) (hret : ∀ y, Ret (call y)) (hpc : ∀ y, Pc (call y)) (k : Nat)
    {v : Vm} (hsame : Same v0 v) (hn : L v.pc = some n) (hk : v0.text.length - v.pc.toNat < k) :
    (loop (exec h call) k v).1 ≠ .error .hang := by
  induction k generalizing v with
  | zero => omega
  | succ k ih =>
    obtain ⟨h1, h2⟩ := exec_onward hh hL hcall hret hpc hsame hn
    have hlt := (hL _ _ hn).1
    unfold loop
    rw [M.bind_def]
    match hx : exec h call v with
    | (.error e, w) => rw [hx] at h1; exact fun hh => h1 (by cases hh; rfl)
    | (.ok false, w) => exact En.pure _ _
    | (.ok true, w) =>
      obtain ⟨k1, k2, k3⟩ := h2 w hx
      exact ih k1 k2 (by omega)

theorem unsafeCall_onward {h : Host} {v0 : Vm} {L : BitVec 32 → Option Nat} (hh : Prompt h) (hL : Straight h v0.text L) (n : Nat) :
    ∀ fuel, v0.text.length + n + 2 ≤ fuel → ∀ y f, v0.syms[y]? = some f → L f.address = some n → ∀ v, Same v0 v →
      (unsafeCall h fuel y v).1 ≠ .error .hang := by
  induction n using Nat.strongRecOn with
  | _ n ih =>
    intro fuel hfuel y f hy hf v hsame
    obtain ⟨k, rfl⟩ : ∃ k, fuel = k + 1 := ⟨fuel - 1, by omega⟩
    have hkeeps : ∀ z v a w, unsafeCall h k z v = (.ok a, w) → Keeps v w := fun z v a w hz =>
      unsafeCall_keeps hh.balanced k z (by cases a; exact hz)
    have hcall : CallsEnd v0 L n (unsafeCall h k) := fun y f m hy hm hf v hs => ih m hm k (by omega) y f hy hf v hs
    obtain ⟨f', hf1, hf2, _⟩ := hsame.decl y f hy
    have hloop : ∀ u, Same v0 u →
        ((do let f ← symAt y; jump f.address; loop (exec h (unsafeCall h k)) k; popCall : M Unit) u).1 ≠ .error .hang := by
      intro u hu
      obtain ⟨g, hg1, hg2, _⟩ := hu.decl y f hy
      have : symAt y u = (.ok g, u) := by
        unfold symAt
        rw [M.get_bind, hg1]
        rfl
      rw [M.bind_ok this]
      by_cases hx : g.address.toNat ≥ u.text.length
      · have : jump g.address u = (.error (.throw .daedalusVm), u) := by
          unfold jump
          rw [M.get_bind, if_pos hx]
          rfl
        rw [M.bind_err this]
        simp
      · have : jump g.address u = (.ok (), { u with pc := g.address }) := by
          unfold jump
          rw [M.get_bind, if_neg hx]
          rfl
        rw [M.bind_ok this, M.bind_def]
        have hl := loop_onward (v := { u with pc := g.address }) hh hL hcall (fun z v a w hz => ⟨(hkeeps z v a w hz).toSame, (hkeeps z v a w hz).calls⟩)
          (fun z v a w hz => (hkeeps z v a w hz).pc) k
          ⟨hu.text, hu.tmp, hu.nullOk, hu.ignoreConst, hu.len, hu.decl⟩
          (by show L g.address = _; rw [shape_address hg2]; exact hf) (by omega)
        match hx : loop (exec h (unsafeCall h k)) k { u with pc := g.address } with
        | (.ok a, w) => exact En.popCall w
        | (.error e, w) => rw [hx] at hl; exact fun hh => hl (by cases hh; rfl)
    show ((do pushCall y; let f ← symAt y; jump f.address; loop (exec h (unsafeCall h k)) k; popCall : M Unit) v).1 ≠ _
    rw [M.bind_def]
    have h1 := En.pushCall y v
    match hp : pushCall y v with
    | (.error e, w) => rw [hp] at h1; exact fun hh => h1 (by cases hh; rfl)
    | (.ok _, w) =>
      obtain ⟨g, u, _, hk, _, rfl⟩ := pushCall_inv hp
      have hs := hsame.trans hk.toSame
      exact hloop _ ⟨hs.text, hs.tmp, hs.nullOk, hs.ignoreConst, hs.len, hs.decl⟩

/-! ## Calls of the interface -/

theorem En.pushArg (a : Arg) : En (pushArg a) := by
  cases a
  case str => exact En.pushString _
  all_goals exact En.push _

theorem En.pushArgs (ps : List Nat) : ∀ as : List Arg, En (pushArgs ps as) := by
  induction ps with
  | nil => intro as; exact En.pure _
  | cons p ps ih =>
    intro as
    cases as with
    | nil => exact En.pure _
    | cons a as => exact (En.symAt p).bind fun s => En.ite ((En.pushArg a).bind fun _ => ih as) (En.throw _)

theorem En.checkClass (t : Nat) (p : Option Nat) : En (checkClass t p) := by
  cases p with
  | none => exact En.pure _
  | some a =>
    refine En.get.bind fun v => ?_
    split
    · exact En.ub
    · split
      · exact En.ub
      · exact En.ite (En.pure _) (En.throw _)

theorem En.popRet (f : Sym) (r : RType) : En (popRet f r) := by
  cases r with
  | ignore =>
    unfold Daedalus.popRet
    exact En.ite (En.get.bind fun _ => (En.setSp _).bind fun _ => En.pure _) (En.pure _)
  | void => exact En.pure _
  | int => exact En.popInt.bind fun _ => En.pure _
  | float => exact En.popFloat.bind fun _ => En.pure _
  | str => exact En.popString.bind fun _ => En.pure _
  | inst t => exact En.popInst.bind fun _ => (En.checkClass _ _).bind fun _ => En.pure _
  | func => exact En.ub

/-- A step that ends and keeps the declarations, followed by something that ends from there. -/
theorem ends_bind {α β} {p : M α} {f : α → M β} {v0 v : Vm} (hp : En p) (hk : Kp p) (hs : Same v0 v)
    (hf : ∀ a w, Same v0 w → p v = (.ok a, w) → (f a w).1 ≠ .error .hang) : ((p >>= f) v).1 ≠ .error .hang := by
  rw [M.bind_def]
  have h1 := hp v
  have h2 := hk v
  unfold KpAt at h2
  match hx : p v with
  | (.error e, w) => rw [hx] at h1; exact fun hh => h1 (by cases hh; rfl)
  | (.ok a, w) => rw [hx] at h2; exact hf a w (hs.trans h2.toSame) hx

theorem callFunction_onward {h : Host} {v : Vm} {L : BitVec 32 → Option Nat} (hh : Prompt h) (hL : Straight h v.text L) {y : Nat}
    {f : Sym} {n : Nat} (hy : v.syms[y]? = some f) (hf : L f.address = some n) (args : List Arg) (r : RType) :
    (callFunction h (v.text.length + n + 2) (some y) args r v).1 ≠ .error .hang := by
  unfold callFunction
  dsimp only
  refine ends_bind (v0 := v) (En.symAt y) (Kp.symAt y) (Same.refl v) fun g w hw _ => ?_
  split
  · exact En.throw _ _
  · refine ends_bind (v0 := v) (En.params g) (Kp.params g) hw fun ps w hw _ => ?_
    split
    · exact En.throw _ _
    · split
      · exact En.throw _ _
      · refine ends_bind (v0 := v) (En.pushArgs _ _) (Kp.pushArgs _ _) hw fun _ w hw _ => ?_
        rw [M.bind_def]
        have h1 := unsafeCall_onward hh hL n _ (Nat.le_refl _) y f hy hf w hw
        match hx : unsafeCall h (v.text.length + n + 2) y w with
        | (.error e, w) => rw [hx] at h1; exact fun hh => h1 (by cases hh; rfl)
        | (.ok a, w) => exact En.popRet _ _ _

/-! ## Calls that do not end -/

theorem hang_bind {α β} {p : M α} {f : α → M β} {v : Vm} (h : (p v).1 = .error .hang) : ((p >>= f) v).1 = .error .hang := by
  rw [M.bind_def]
  match hx : p v with
  | (.ok a, w) => rw [hx] at h; cases h
  | (.error e, w) => rw [hx] at h; cases h; rfl

theorem fetch_at {v : Vm} {i : Instr} {t : Rs} (hlt : v.pc.toNat < v.text.length) (hd : decode ⟨v.text, v.pc.toNat⟩ = .ok (i, t)) :
    fetch v = (.ok i, { v with textPos := t.pos }) := by
  unfold fetch instructionAt
  rw [Rd.bind_ok (Rd.seek_beg (Nat.le_of_lt hlt)), hd]

theorem symAt_of {v : Vm} {y : Nat} {f : Sym} (hy : v.syms[y]? = some f) : symAt y v = (.ok f, v) := by
  unfold symAt
  rw [M.get_bind, hy]
  rfl

theorem params_eq {v : Vm} {f : Sym} (hp : f.index.toNat + f.count.toNat + 1 ≤ v.syms.length) :
    params f v = (.ok (List.range' (f.index.toNat + 1) f.count.toNat), v) := by
  unfold params
  rw [M.get_bind, if_neg (by omega)]
  rfl

theorem jump_eq {v : Vm} {a : BitVec 32} (ha : a.toNat < v.text.length) : jump a v = (.ok (), { v with pc := a }) := by
  unfold jump
  rw [M.get_bind, if_neg (by omega)]
  rfl

theorem pushCall_eq {v : Vm} {y : Nat} {f : Sym} (hy : v.syms[y]? = some f) (hl : f.hasLocals = false)
    (hp : f.index.toNat + f.count.toNat + 1 ≤ v.syms.length) :
    pushCall y v = (.ok (), { v with calls := ⟨y, v.pc, v.sp.setWidth 32 - f.count, v.instance_⟩ :: v.calls }) := by
  unfold pushCall
  rw [M.bind_ok (symAt_of hy), hl, if_neg (by simp)]
  dsimp only
  rw [M.bind_ok (params_eq hp), M.get_bind, M.set_def]
  simp

theorem unsafeCall_enter {h : Host} {k y : Nat} {v : Vm} {f : Sym} (hy : v.syms[y]? = some f) (hl : f.hasLocals = false)
    (hp : f.index.toNat + f.count.toNat + 1 ≤ v.syms.length) (ha : f.address.toNat < v.text.length) :
    unsafeCall h (k + 1) y v = (loop (exec h (unsafeCall h k)) k >>= fun _ => popCall)
      { v with pc := f.address, calls := ⟨y, v.pc, v.sp.setWidth 32 - f.count, v.instance_⟩ :: v.calls } := by
  show (do pushCall y; let f ← symAt y; jump f.address; loop (exec h (unsafeCall h k)) k; popCall : M Unit) v = _
  rw [M.bind_ok (pushCall_eq hy hl hp),
    M.bind_ok (symAt_of (v := { v with calls := ⟨y, v.pc, v.sp.setWidth 32 - f.count, v.instance_⟩ :: v.calls }) hy),
    M.bind_ok (jump_eq (v := { v with calls := ⟨y, v.pc, v.sp.setWidth 32 - f.count, v.instance_⟩ :: v.calls }) ha)]

theorem callFunction_hangs {h : Host} {fuel y : Nat} {v : Vm} {f : Sym} (hy : v.syms[y]? = some f) (ht : f.type = .function)
    (hc : f.count = 0) (hp : f.index.toNat + 1 ≤ v.syms.length) (hr : f.rtype = .void) (hu : (unsafeCall h fuel y v).1 = .error .hang) :
    (callFunction h fuel (some y) [] .void v).1 = .error .hang := by
  unfold callFunction
  dsimp only
  rw [M.bind_ok (symAt_of hy), if_neg (by simp [ht]), M.bind_ok (params_eq (by rw [hc]; simpa using hp)), hc, hr]
  exact hang_bind (p := unsafeCall h fuel y) hu

/-- A loop that stays inside of a set of states. -/
theorem loop_hangs {step : M Bool} {S : Vm → Prop}
    (hs : ∀ v, S v → (step v).1 = .error .hang ∨ ∃ w, step v = (.ok true, w) ∧ S w) (n : Nat) :
    ∀ v, S v → (loop step n v).1 = .error .hang := by
  induction n with
  | zero => exact fun _ _ => rfl
  | succ n ih =>
    intro v hv
    unfold loop
    rcases hs v hv with h | ⟨w, h, hw⟩
    · exact hang_bind h
    · rw [M.bind_ok h]
      exact ih w hw

end Verif.Daedalus
