import Verif.Lemmas.DaedalusConst

/-!
# Constants (C38)
-/

namespace Verif.Props

open Verif.Daedalus Verif.Spec.Daedalus

/-- **C38** (partial): no execution changes a constant: whatever function is called, in whatever state, however the call ends,
if the functions of the host do not change constants themselves. Missing: constants that are instances, for which the claim
is false. -/
theorem c38_execution_partial {h : Host} (hb : HostConst h) (fuel y : Nat) {v : Vm} (hv : Strict v) {z : Nat} {s : Sym}
    (hz : IsConst v z s) : (unsafeCall h fuel y v).2.syms[z]? = some s :=
  (Ck.unsafeCall hb fuel y v hv).const z s hz

/-- A single instruction. -/
theorem c38_instruction_partial {h : Host} (hb : HostConst h) (fuel : Nat) {v : Vm} (hv : Strict v) {z : Nat} {s : Sym}
    (hz : IsConst v z s) : (exec h (unsafeCall h fuel) v).2.syms[z]? = some s :=
  (Ck.exec hb (Ck.unsafeCall hb fuel) v hv).const z s hz

/-- What the accessors of the machine do with a constant. -/
theorem const_raises {y : Nat} {v : Vm} {s : Sym} (hs : v.syms[y]? = some s) (hc : s.isConst = true) (hi : v.ignoreConst = false) :
    checkConst y v = (.error (.throw .daedalusConst), v) := by
  unfold checkConst
  rw [M.bind_ok (symAt_some hs), M.get_bind, hc, hi]
  rfl

/-- **C38**: the setters of the machine raise for a constant and change nothing. -/
theorem c38_set_raises {y : Nat} {v : Vm} {s : Sym} (hs : v.syms[y]? = some s) (hc : s.isConst = true)
    (hi : v.ignoreConst = false) (i : Byte) (p : Option Nat) :
    (∀ x, vmSetInt y x i p v = (.error (.throw .daedalusConst), v)) ∧
    (∀ x, vmSetFloat y x i p v = (.error (.throw .daedalusConst), v)) ∧
    (∀ x, vmSetString y x i p v = (.error (.throw .daedalusConst), v)) := by
  have h := const_raises hs hc hi
  exact ⟨fun x => M.bind_err h, fun x => M.bind_err h, fun x => M.bind_err h⟩

/-- **C38**: with the specifier ignored the setter is the setter of the symbol. -/
theorem c38_ignored {y : Nat} {v : Vm} {s : Sym} (hs : v.syms[y]? = some s) (hi : v.ignoreConst = true ∨ s.isConst = false)
    (hm : s.isMember = false) (i : Byte) (p : Option Nat) :
    (∀ x, vmSetInt y x i p v = symSetInt y x i.toNat p v) ∧ (∀ x, vmSetFloat y x i p v = symSetFloat y x i.toNat p v) ∧
    (∀ x, vmSetString y x i p v = symSetString y x i.toNat p v) := by
  have h : checkConst y v = (.ok (), v) := by
    unfold checkConst
    rw [M.bind_ok (symAt_some hs), M.get_bind]
    rcases hi with hi | hi <;> rw [hi] <;> simp <;> rfl
  have hr : reaches s p v = true := by unfold reaches; rw [hm]; rfl
  refine ⟨fun x => ?_, fun x => ?_, fun x => ?_⟩
  · unfold vmSetInt
    rw [M.bind_ok h, M.bind_ok (symAt_some hs), M.get_bind, hr]
    rfl
  · unfold vmSetFloat
    rw [M.bind_ok h, M.bind_ok (symAt_some hs), M.get_bind, hr]
    rfl
  · unfold vmSetString
    rw [M.bind_ok h, M.bind_ok (symAt_some hs), M.get_bind, hr]
    rfl

/-- The instructions that write a number. -/
theorem c38_mov_raises {h : Host} {call : Nat → M Unit} {i : Instr} (hop : i.op = .movi ∨ i.op = .movvf) {y : Nat} {k : Byte}
    {p : Option Nat} {x : BitVec 32} {v u w : Vm} {s : Sym} (h1 : popRef v = (.ok (y, k, p), u)) (h2 : popInt u = (.ok x, w))
    (hs : w.syms[y]? = some s) (hc : s.isConst = true) (hi : w.ignoreConst = false) :
    execOp h call i v = (.error (.throw .daedalusConst), w) := by
  unfold execOp
  rcases hop with hop | hop <;> rw [hop] <;> dsimp only <;> rw [M.bind_ok h1] <;> dsimp only <;>
    rw [M.bind_ok h2, M.bind_err ((c38_set_raises hs hc hi k p).1 x)]

theorem c38_movf_raises {h : Host} {call : Nat → M Unit} {i : Instr} (hop : i.op = .movf) {y : Nat} {k : Byte}
    {p : Option Nat} {x : BitVec 32} {v u w : Vm} {s : Sym} (h1 : popRef v = (.ok (y, k, p), u)) (h2 : popFloat u = (.ok x, w))
    (hs : w.syms[y]? = some s) (hc : s.isConst = true) (hi : w.ignoreConst = false) :
    execOp h call i v = (.error (.throw .daedalusConst), w) := by
  unfold execOp
  rw [hop]
  dsimp only
  rw [M.bind_ok h1]
  dsimp only
  rw [M.bind_ok h2, M.bind_err ((c38_set_raises hs hc hi k p).2.1 x)]

theorem c38_movs_raises {h : Host} {call : Nat → M Unit} {i : Instr} (hop : i.op = .movs) {y : Nat} {k : Byte}
    {p : Option Nat} {x : Bytes} {v u w : Vm} {s : Sym} (h1 : popRef v = (.ok (y, k, p), u)) (h2 : popString u = (.ok x, w))
    (hs : w.syms[y]? = some s) (hc : s.isConst = true) (hi : w.ignoreConst = false) :
    execOp h call i v = (.error (.throw .daedalusConst), w) := by
  unfold execOp
  rw [hop]
  dsimp only
  rw [M.bind_ok h1]
  dsimp only
  rw [M.bind_ok h2, M.bind_err ((c38_set_raises hs hc hi k p).2.2 x)]

/-- The instructions that calculate with a variable, except for a division by zero, which raises before. -/
theorem c38_assign_raises {op : Op} {y : Nat} {k : Byte} {p : Option Nat} {x : BitVec 32} {v u w : Vm} {s : Sym}
    (h1 : popRef v = (.ok (y, k, p), u)) (h2 : popInt u = (.ok x, w)) (hx : ¬(op = .div ∧ x = 0))
    (hs : w.syms[y]? = some s) (hc : s.isConst = true) (hi : w.ignoreConst = false) :
    assignOp op v = (.error (.throw .daedalusConst), w) := by
  unfold assignOp
  rw [M.bind_ok h1]
  dsimp only
  rw [M.bind_ok h2, if_neg hx, M.bind_err (const_raises hs hc hi)]

/-- **C38** (negation): `MOVVI` does not look at the specifier: for every constant instance there is an execution of the
instruction that changes it. -/
theorem c38_instance_violation {h : Host} {call : Nat → M Unit} {i : Instr} (hop : i.op = .movvi) {y : Nat} {k : Byte}
    {p q r : Option Nat} {v u w : Vm} {s : Sym} (h1 : popRef v = (.ok (y, k, p), u)) (h2 : popInst u = (.ok q, w))
    (hs : w.syms[y]? = some s) (_hc : s.isConst = true) (_hi : w.ignoreConst = false) (ht : s.type = .instance)
    (hr : s.value = .inst r) (hne : q ≠ r) :
    ∃ w' s', execOp h call i v = (.ok .next, w') ∧ w'.syms[y]? = some s' ∧ s'.value = .inst q ∧ s' ≠ s := by
  have hset : s.setInstance q = .ok { s with value := .inst q } := by
    unfold Sym.setInstance
    rw [if_neg (by simp [ht]), hr]
  have hm : symSetInstance y q w = (.ok (), { w with syms := w.syms.set y { s with value := .inst q } }) := by
    unfold symSetInstance
    rw [M.bind_ok (symAt_some hs), hset]
    rfl
  refine ⟨{ w with syms := w.syms.set y { s with value := .inst q } }, { s with value := .inst q }, ?_, ?_, rfl, ?_⟩
  · unfold execOp
    rw [hop]
    dsimp only
    rw [M.bind_ok h1]
    dsimp only
    rw [M.bind_ok h2, M.bind_ok hm]
    rfl
  · exact List.getElem?_set_self (List.getElem?_eq_some_iff.mp hs).1
  · intro e
    have := congrArg Sym.value e
    rw [hr] at this
    cases this
    exact hne rfl

/-- A machine with a constant instance, and the stack for an assignment to it. -/
def constVm : Vm where
  syms := [{ type := .instance, flags := 1, value := .inst none, index := 0 },
    { type := .int, count := 1, flags := 1, value := .ints (some [some 42]), index := 1 },
    { type := .string, count := 1, value := .strs [[]], index := 2 }]
  heap := [⟨some 7, 0, []⟩]
  stack := [some (.inst (some 0)), some (.ref 0 0 none)]
  sp := 2
  tmp := 2

theorem constVm_strict : Strict constVm := by
  refine ⟨rfl, fun z f hz hl => ?_⟩
  match z, hz with
  | 0, hz => cases hz; cases hl
  | 1, hz => cases hz; cases hl
  | 2, hz => cases hz; cases hl
  | n + 3, hz => cases hz

example : IsConst constVm 1 { type := .int, count := 1, flags := 1, value := .ints (some [some 42]), index := 1 } :=
  ⟨rfl, rfl, by decide, by decide⟩

/-- The host without functions. -/
example : HostConst {} :=
  ⟨fun _ _ h => (by cases h), fun _ _ h => (by cases h), fun _ _ h => (by cases h), fun _ _ h => (by cases h),
    fun _ _ _ h => (by cases h)⟩

example {h : Host} {call : Nat → M Unit} : ∃ w' s', execOp h call { op := .movvi } constVm = (.ok .next, w') ∧
    w'.syms[0]? = some s' ∧ s'.value = .inst (some 0) ∧ s' ≠ { type := .instance, flags := 1, value := .inst none, index := 0 } :=
  c38_instance_violation (u := { constVm with sp := 1, stack := [some (.inst (some 0)), some (.ref 0 0 none)] })
    (w := { constVm with sp := 0, stack := [some (.inst none), some (.ref 0 0 none)] })
    (y := 0) (k := 0) (p := none) (q := some 0) (r := none) rfl rfl rfl rfl rfl rfl rfl rfl (by decide)

/-- The lenient exception handler of the library is a host function of the kind assumed above. -/
theorem lenient_keeps (e : Exc) (i : Instr) : KeepsConst (lenient e i) := by
  have : Lk (lenient e i) := by
    unfold lenient
    split
    all_goals first
      | exact (Lk.push _).bind fun _ => Lk.pure _
      | exact Lk.pure _
  exact this.ck

/-- So is the default external. -/
theorem default_keeps (y : Nat) : KeepsConst (defaultExternal y) := by
  have hp : ∀ y, Lk (defaultPop y) := fun y => (Lk.symAt y).bind fun p => by
    split
    · exact Lk.popInt.bind fun _ => Lk.pure _
    · exact Lk.popFloat.bind fun _ => Lk.pure _
    · exact Lk.popRef.bind fun _ => Lk.pure _
    · exact Lk.popRef.bind fun _ => Lk.pure _
    · exact Lk.pure _
  have : Lk (defaultExternal y) := by
    refine (Lk.symAt y).bind fun f => (Lk.params f).bind fun ps => (Lk.forM_ hp _).bind fun _ => ?_
    split
    · split
      · exact Lk.push _
      · exact Lk.push _
      · exact Lk.pushString _
      · exact Lk.push _
      · exact Lk.pure _
    · exact Lk.pure _
  exact this.ck

/-- With the default external and the lenient handler installed, no execution changes a constant. -/
theorem c38_default_host_partial (fuel y : Nat) {v : Vm} (hv : Strict v) {z : Nat} {s : Sym} (hz : IsConst v z s) :
    (unsafeCall { default_ := some defaultExternal, handler := some lenient } fuel y v).2.syms[z]? = some s :=
  c38_execution_partial ⟨fun _ _ h => (by cases h), fun _ _ h => (by cases h), fun d y h => (by cases h; exact default_keeps y),
    fun _ _ h => (by cases h), fun hd e i h => (by cases h; exact lenient_keeps e i)⟩ fuel y hv hz

end Verif.Props
