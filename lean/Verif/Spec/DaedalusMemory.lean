import Verif.Spec.DaedalusCall
import Verif.Spec.DaedalusLocals
import Verif.Spec.Daedalus
import Verif.Model.DaedalusApi

/-!
# When a script can do no harm (C100)

`Tidy`: what the memory of the machine must look like. `Fits`: what the symbol of a function must look like. `Careful`: what the script
must see to before each instruction.
-/

namespace Verif.Spec.Daedalus

open Verif.Daedalus

/-- The symbol has room for all of its elements, and they have values. -/
def Stored (s : Sym) : Prop :=
  s.isMember = false →
  match s.value with
  | .ints (some a) => (s.type = .int ∨ s.type = .function) → s.count.toNat ≤ a.length ∧ none ∉ a
  | .ints none => True
  | .floats a => s.type = .float → s.count.toNat ≤ a.length ∧ none ∉ a
  | .strs a => s.type = .string → s.count.toNat ≤ a.length
  | .inst _ => True

/-- The symbol claims to have numbers but has none: a function with parameters, which `count` counts. -/
def Hollow (s : Sym) : Prop := (s.type = .int ∨ s.type = .function) ∧ s.isMember = false ∧ s.value = .ints none ∧ s.count ≠ 0

/-- The memory of an instance holds the elements of a member. Scripts can name the first 256 only. -/
def HasMember (n : Inst) (s : Sym) : Prop :=
  ∀ k, k < s.count.toNat → k < 256 →
    match s.type with
    | .int | .function => ∃ x, cellAt n.cells (s.memberOffset + BitVec.ofNat 32 (k * 4)).toNat = some (.int x)
    | .float => ∃ x, cellAt n.cells (s.memberOffset + BitVec.ofNat 32 (k * 4)).toNat = some (.float x)
    | .string => ∃ x, cellAt n.cells (s.memberOffset + BitVec.ofNat 32 (k * 32)).toNat = some (.str x)
    | _ => True

/-- The first `n` slots of the stack have been written. -/
def Written (v : Vm) (n : Nat) : Prop := ∀ i < n, ∃ f, v.stack[i]? = some (some f)

/-- References on the stack are to symbols that hold what they claim to hold, and pointers on it to instances that exist. -/
structure GoodFrame (v : Vm) (f : Frame) : Prop where
  ref : ∀ y i p, f = .ref y i p → ∃ s, v.syms[y]? = some s ∧ ¬ Hollow s
  inst : ∀ a, f = .inst (some a) → a < v.heap.length

/-- The memory of the machine is in order: symbols have their elements, instances have the members of their class, the stack pointer is
inside of the stack and everything below of it has been written. -/
structure Tidy (v : Vm) : Prop where
  stored : ∀ (y : Nat) (s : Sym), v.syms[y]? = some s → Stored s
  temp : ∃ s a, v.syms[v.tmp]? = some s ∧ s.type = .string ∧ s.isMember = false ∧ s.value = .strs a ∧ s.count ≠ 0
  objects : ∀ (a : Nat) (n : Inst), v.heap[a]? = some n →
    n.type.isSome ∧ ∀ (y : Nat) (s : Sym), v.syms[y]? = some s → s.isMember = true → s.registeredTo = n.type → HasMember n s
  held : ∀ (y : Nat) (s : Sym) (a : Nat), v.syms[y]? = some s → s.value = .inst (some a) → a < v.heap.length
  depth : v.sp.toNat ≤ 2048
  written : Written v v.sp.toNat
  frames : ∀ (i : Nat) (f : Frame), v.stack[i]? = some (some f) → GoodFrame v f

/-- The symbol of a function: its parameters are in the table; if its locals are saved, they are variables, and it returns what it
says. -/
def Fits (v : Vm) (y : Nat) : Prop :=
  ∃ f, v.syms[y]? = some f ∧ y ≠ v.tmp ∧ f.index.toNat + f.count.toNat < v.syms.length ∧
    (f.hasLocals = true → (f.hasReturn = true → isValue f.rtype) ∧ slotsOf v (localsOf v f) < 2 ^ 31 ∧
      ∀ l ∈ localsOf v f, l ≠ v.tmp ∧ ∀ s, v.syms[l]? = some s → ¬ Hollow s)

/-- The activations on the call stack. -/
def CallsFit (v : Vm) : Prop := ∀ c ∈ v.calls, Fits v c.fn ∧ c.sp.toNat ≤ 2048 ∧ Written v c.sp.toNat

/-- All that can be called. -/
structure Callables (h : Host) (v : Vm) : Prop where
  code : ∀ a y, findByAddress v.syms a = some y → Fits v y
  external : ∀ y, (h.external y).isSome → y < v.syms.length → Fits v y
  override_ : ∀ a, (h.override_ a).isSome → (findByAddress v.syms a).isSome

structure Good (h : Host) (v : Vm) : Prop where
  sound : Tidy v
  calls : CallsFit v
  callables : Callables h v

/-- The current function has not taken values of its caller. -/
def Untouched (v : Vm) : Prop := ∀ c rest, v.calls = c :: rest → c.sp.toNat ≤ v.sp.toNat

/-- A billion strings are in use at once. -/
def Full (v : Vm) : Prop := ∃ s a, v.syms[v.tmp]? = some s ∧ s.value = .strs a ∧ 2 ^ 30 ≤ a.length

/-! ## The functions of the host -/

/-- The symbol is in the table and the parameters it declares are too. -/
def HasParams (v : Vm) (y : Nat) : Prop := ∃ f, v.syms[y]? = some f ∧ f.index.toNat + f.count.toNat < v.syms.length

/-- A function was entered: its `n` arguments are the topmost values of the stack. -/
def Entered (v : Vm) (y n : Nat) : Prop := ∃ c rest, v.calls = c :: rest ∧ c.fn = y ∧ v.sp.toNat = c.sp.toNat + n

/-- A function of the host leaves the memory of the machine in order, if it is called in a state in which `P`. -/
def Leaves (h : Host) (P : Vm → Prop) {α} (p : M α) (Q : α → Vm → Prop) : Prop :=
  ∀ v, Good h v → P v →
    match p v with
    | (.ok a, w) => Good h w ∧ Same v w ∧ v.calls.length ≤ w.calls.length ∧ Q a w
    | (.error .ub, w) => Full w
    | (.error _, w) => Good h w ∧ Same v w ∧ v.calls.length ≤ w.calls.length

/-- The functions of the host leave the memory of a machine with these symbols in order; a function that the script declares gets as
many arguments as it declares. -/
structure TameHost (h : Host) (v : Vm) : Prop where
  external : ∀ y p f, h.external y = some p → v.syms[y]? = some f → Leaves h (Entered · y f.count.toNat) p fun _ w => Untouched w
  override_ : ∀ a p, h.override_ a = some p → Leaves h (fun _ => True) p fun _ _ => True
  default_ : ∀ d y, h.default_ = some d → Leaves h (HasParams · y) (d y) fun _ _ => True
  trap : ∀ t y, h.trap = some t → Leaves h (fun v => y < v.syms.length) (t y) fun _ _ => True
  handler : ∀ hd e i, h.handler = some hd → Leaves h (fun _ => True) (hd e i) fun s w => s = .return_ → Untouched w

/-- A callback of `register_external`: it takes nothing from the stack, gives no function (such
callbacks cannot be registered) and only instances that exist. -/
def Polite (h : Host) (cb : List PVal → M XVal) : Prop :=
  ∀ xs v, Good h v →
    match cb xs v with
    | (.ok r, w) => Good h w ∧ Same v w ∧ w.calls = v.calls ∧ v.sp.toNat ≤ w.sp.toNat ∧ (∀ y, r ≠ .func y) ∧
        ∀ a, r = .inst (some a) → a < w.heap.length
    | (.error .ub, w) => Full w
    | (.error _, w) => Good h w ∧ Same v w ∧ v.calls.length ≤ w.calls.length

/-- A symbol whose numbers were all in the file, and which is no variable of type function. -/
def Whole (s : Sym) : Prop :=
  s.isMember = false → (s.type = .function → s.isConst = true) ∧
    match s.value with
    | .ints (some a) => none ∉ a
    | .floats a => none ∉ a
    | _ => True

/-! ## The script -/

/-- The function of the script that the next instruction calls. -/
def callee (h : Host) (v : Vm) : Option Nat :=
  match fetch v with
  | (.ok i, _) =>
    match i.op, h.override_ i.address with
    | .bl, none => findByAddress v.syms i.address
    | _, _ => none
  | _ => none

/-- The numbers that the next two calls of `pop_int` give. -/
def operands (v : Vm) : Option (BitVec 32 × BitVec 32) :=
  match popInt v with
  | (.ok a, w) =>
    match popInt w with
    | (.ok b, _) => some (a, b)
    | _ => none
  | _ => none

/-- The variable that is assigned to, its value, and the number that comes with it. -/
def assigned (v : Vm) : Option (BitVec 32 × BitVec 32) :=
  match popRef v with
  | (.ok (y, i, p), w) =>
    match popInt w with
    | (.ok b, u) =>
      match symGetInt y i.toNat p u with
      | (.ok x, _) => some (x, b)
      | _ => none
    | _ => none
  | _ => none

/-- The result of an operator is defined, or there is an exception. -/
def Calculable (op : Op) (a b : BitVec 32) : Prop := OpDefined op a.toInt b.toInt ∨ (op = .div ∨ op = .mod) ∧ b = 0

/-- What a script must see to before each instruction: it has not taken values of the calling function; results are in the range of
their type; functions with parameters are not used as variables; functions get their arguments. -/
def Careful (h : Host) (v : Vm) : Prop :=
  Untouched v ∧ ∀ i w, fetch v = (.ok i, w) →
    match i.op with
    | .add | .sub | .mul | .div | .mod | .lsl | .lsr => ∀ a b, operands w = some (a, b) → Calculable i.op a b
    | .negate => ∀ a w', popInt w = (.ok a, w') → a.toInt ≠ -2147483648
    | .addmovi => ∀ x b, assigned w = some (x, b) → Calculable .add x b
    | .submovi => ∀ x b, assigned w = some (x, b) → Calculable .sub x b
    | .mulmovi => ∀ x b, assigned w = some (x, b) → Calculable .mul x b
    | .divmovi => ∀ x b, assigned w = some (x, b) → Calculable .div x b
    | .pushv | .pushvi | .pushvv => ∀ s, v.syms[i.symbol.toNat]? = some s → ¬ Hollow s
    | .bl => ∀ y f, callee h v = some y → v.syms[y]? = some f → f.count.toNat ≤ v.sp.toNat
    | .be => ∀ f, v.syms[i.symbol.toNat]? = some f → HasParams v i.symbol.toNat ∧
        ((h.external i.symbol.toNat).isSome → f.count.toNat ≤ v.sp.toNat)
    | _ => True

/-- The states of a loop of instructions before each of them; `inner` gives those of the calls. -/
def loopStates (step : M Bool) (inner : Vm → List Vm) : Nat → Vm → List Vm
  | 0, _ => []
  | n + 1, v =>
    v :: inner v ++
      match step v with
      | (.ok true, w) => loopStates step inner n w
      | _ => []

/-- The states of the machine before each instruction of a call, those of inner calls included. -/
def states (h : Host) : Nat → Nat → Vm → List Vm
  | 0, _, _ => []
  | fuel + 1, y, v =>
    match (do pushCall y; let f ← symAt y; jump f.address : M Unit) v with
    | (.ok _, w) =>
      loopStates (exec h (unsafeCall h fuel)) (fun u => match callee h u with
        | some z => states h fuel z (fetch u).2
        | none => []) fuel w
    | _ => []

end Verif.Spec.Daedalus
