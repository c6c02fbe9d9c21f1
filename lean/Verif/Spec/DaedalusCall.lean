import Verif.Spec.Daedalus

/-!
# Calls: what a host may do, what a compiler guarantees (C33–C35)
-/

namespace Verif.Daedalus

/-- All of a symbol except for its value and its count. -/
def Sym.shape (s : Sym) : Sym := { s with value := .ints none, count := 0 }

/-- The kind of a value and its number of elements. -/
def SymVal.dims : SymVal → Nat × Nat
  | .ints none => (0, 0)
  | .ints (some a) => (1, a.length)
  | .floats a => (2, a.length)
  | .strs a => (3, a.length)
  | .inst _ => (4, 0)

/-- The declared count and the storage of a symbol. -/
def Sym.extent (s : Sym) : BitVec 32 × Nat × Nat := (s.count, s.value.dims)

/-- The code, the settings and the declarations of the symbols are the same, and so is the size of their values; the number of
temporary strings may differ. -/
structure Same (v w : Vm) : Prop where
  text : w.text = v.text
  tmp : w.tmp = v.tmp
  nullOk : w.nullOk = v.nullOk
  ignoreConst : w.ignoreConst = v.ignoreConst
  len : w.syms.length = v.syms.length
  decl : ∀ y s, v.syms[y]? = some s → ∃ s', w.syms[y]? = some s' ∧ s'.shape = s.shape ∧ (y ≠ v.tmp → s'.extent = s.extent)

/-- The position in the code, the context and the call stack are the same too. -/
structure Keeps (v w : Vm) : Prop extends Same v w where
  pc : w.pc = v.pc
  instance_ : w.instance_ = v.instance_
  calls : w.calls = v.calls

end Verif.Daedalus

namespace Verif.Spec.Daedalus

open Verif.Daedalus

/-- A function of the host that returns leaves the code and the call stack alone. -/
def Returns (p : M Unit) : Prop := ∀ v w, p v = (.ok (), w) → Same v w ∧ w.calls = v.calls

/-- The functions of a host do, and there is no exception handler. They may have any effect on the stack and on variables. -/
structure Balanced (h : Host) : Prop where
  external : ∀ y p, h.external y = some p → Returns p
  override_ : ∀ a p, h.override_ a = some p → Returns p
  default_ : ∀ d y, h.default_ = some d → Returns (d y)
  trap : ∀ t y, h.trap = some t → Returns (t y)
  handler : h.handler = none

/-- Types of values. -/
def isValue : DType → Prop
  | .int | .float | .string | .instance | .function => True
  | _ => False

/-! ## Code as a compiler emits it

`H` says how many values a function has on the stack at each of its addresses, arguments included. -/

/-- Number of values a function returns. -/
def results (f : Sym) : Nat := if f.hasReturn then 1 else 0

/-- A host function that, when it returns, has taken its arguments from the stack and has pushed its results. -/
def Consumes (p : M Unit) (n m : Nat) : Prop :=
  ∀ v w fs args, p v = (.ok (), w) → Stk v (fs ++ args) → args.length = n →
    w.pc = v.pc ∧ ∃ rs, rs.length = m ∧ Stk w (fs ++ rs)

/-- A host function that does not touch what is below of its arguments. -/
def Respects (p : M Unit) (n : Nat) : Prop :=
  ∀ v w fs args, p v = (.ok (), w) → Stk v (fs ++ args) → args.length = n → ∃ rs, Stk w (fs ++ rs)

/-- A function that has code of that kind. It may save its locals. -/
structure Callable (H : BitVec 32 → Option Nat) (f : Sym) : Prop where
  entry : H f.address = some f.count.toNat
  value : f.hasReturn = true → isValue f.rtype

/-- How the number of values changes over an instruction. -/
def Flow (h : Host) (v : Vm) (H : BitVec 32 → Option Nat) (p : BitVec 32) (n : Nat) (i : Instr) : Prop :=
  let next := H (p + BitVec.ofNat 32 i.size)
  match i.op with
  | .add | .sub | .mul | .div | .mod | .or | .andb | .lt | .gt | .lsl | .lsr | .lte | .eq | .neq | .gte | .orr | .and =>
    2 ≤ n ∧ next = some (n - 1)
  | .plus | .negate | .not | .cmpl => 1 ≤ n ∧ next = some n
  | .nop | .gmovi | .unknown _ => next = some n
  | .pushi | .pushvv => next = some (n + 1)
  | .pushv | .pushvi => next = some (n + 1) ∧ ∀ t y, h.trap = some t → Consumes (t y) 0 1
  | .movi | .movvf | .movf | .movs | .addmovi | .submovi | .mulmovi | .divmovi | .movvi => 2 ≤ n ∧ next = some (n - 2)
  | .movss | .rsr => True
  | .b => H i.address = some n
  | .bz => 1 ≤ n ∧ next = some (n - 1) ∧ H i.address = some (n - 1)
  | .bl => ∃ y f, findByAddress v.syms i.address = some y ∧ v.syms[y]? = some f ∧ f.count.toNat ≤ n ∧
      next = some (n - f.count.toNat + results f) ∧
      match h.override_ i.address with
      | some cb => Consumes cb f.count.toNat (results f)
      | none => Callable H f
  | .be => ∃ f, v.syms[i.symbol.toNat]? = some f ∧ f.count.toNat ≤ n ∧ next = some (n - f.count.toNat + results f) ∧
      f.type = .function ∧ (f.hasReturn = true → isValue f.rtype) ∧
      match h.external i.symbol.toNat with
      | some cb => Respects cb f.count.toNat
      | none => ∀ d, h.default_ = some d → Consumes (d i.symbol.toNat) f.count.toNat (results f)

/-- Code whose number of values is known at every address that can be reached. -/
structure Compiled (h : Host) (v : Vm) (H : BitVec 32 → Option Nat) : Prop where
  code : ∀ p n, H p = some n → p.toNat < v.text.length ∧
    ∀ i s, decode ⟨v.text, p.toNat⟩ = .ok (i, s) → Flow h v H p n i
  /-- The temporary strings are not a function. -/
  tmp : ∀ t, v.syms[v.tmp]? = some t → t.type = .string
  /-- They are not a local of a function either. -/
  locals : ∀ (y : Nat) f, v.syms[y]? = some f → f.hasLocals = true → v.tmp ∉ localsOf v f

end Verif.Spec.Daedalus
