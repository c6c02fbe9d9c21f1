import Verif.Model.DaedalusVm

/-!
# What the machine prints about a script that fails

`DaedalusVm::print_stack_trace` (`src/DaedalusVm.cc:854-967`) and the machine that calls it. In `Model/DaedalusVm.lean` a script fails without
a report; here `exec` prints one (`src/DaedalusVm.cc:434-447`). Simplifications: a report is either complete or fails, the lines that are
printed before it fails are not kept; numbers are not turned to text.
-/

namespace Verif.Daedalus

/-- What is printed for the value of a symbol; of an object, the type. -/
inductive Shown where
  | float (v : BitVec 32)
  | int (v : BitVec 32)
  | str (v : Bytes)
  | fn (name : Bytes)
  | object (type : Nat)
  | null
  | invalid
  deriving DecidableEq, Repr

/-- The calls of `ZKLOGE` in `print_stack_trace`. -/
inductive Line where
  | callHead
  | call (name : Bytes) (pc : BitVec 32)
  | stackHead
  | ref (slot : Nat) (name : Bytes) (index : Byte) (value : Shown)
  | value (slot : Nat) (value : Shown)
  | globalHead
  | global (name : Bytes) (symbol : Bytes) (index : BitVec 32)
  | globalNull (name : Bytes)
  | globalTransient (name : Bytes)
  | this (symbol : Bytes) (index : BitVec 32)
  | thisNull
  | thisTransient
  deriving DecidableEq, Repr

/-- The type of an instance, `inst->_m_type->name()`. -/
def typeOf (v : Vm) (a : Nat) : Except Fail Nat :=
  match v.heap[a]? with
  | none => .error .ub
  | some n =>
    match n.type with
    | none => .error .ub
    | some t => .ok t

/-- The value of a reference (`src/DaedalusVm.cc:879-905`). Members are read from the current instance, not from the one of the reference. -/
def showRef (v : Vm) (s : Sym) (index : Byte) : Except Fail Shown :=
  match s.type with
  | .float => (s.getFloat index.toNat (instAt v v.instance_)).map .float
  | .int => (s.getInt index.toNat (instAt v v.instance_)).map .int
  | .string => (s.getString index.toNat (instAt v v.instance_)).map .str
  | .function =>
    match s.getInt index.toNat (instAt v v.instance_) with
    | .error e => .error e
    | .ok i =>
      match v.syms[i.toNat]? with
      | none => .error .ub
      | some t => .ok (.fn t.name)
  | .instance =>
    match s.getInstance with
    | .error e => .error e
    | .ok none => .ok .null
    | .ok (some a) => (typeOf v a).map .object
  | _ => .ok .invalid

/-- One slot of the stack (`src/DaedalusVm.cc:873-928`). -/
def slotLine (v : Vm) (slot : Nat) : Except Fail Line :=
  match (stackGet slot v).1 with
  | .error e => .error e
  | .ok (.int x) => .ok (.value slot (.int x))
  | .ok (.float x) => .ok (.value slot (.float x))
  | .ok (.inst none) => .ok (.value slot .null)
  | .ok (.inst (some a)) => (typeOf v a).map fun t => .value slot (.object t)
  | .ok (.ref y i _) =>
    match v.syms[y]? with
    | none => .error .ub
    | some s => (showRef v s i).map fun x => .ref slot s.name i x

/-- The slots below a number, from the top (`src/DaedalusVm.cc:872-929`). -/
def slotLines (v : Vm) : Nat → Except Fail (List Line)
  | 0 => .ok []
  | n + 1 =>
    match slotLine v n with
    | .error e => .error e
    | .ok l => (slotLines v n).map (l :: ·)

/-- The active functions (`src/DaedalusVm.cc:862-868`), `pc` is where the first of them is. -/
def callLines (v : Vm) : BitVec 32 → List Call → Except Fail (List Line)
  | _, [] => .ok []
  | pc, c :: cs =>
    match v.syms[c.fn]? with
    | none => .error .ub
    | some s => (callLines v c.pc cs).map (.call s.name pc :: ·)

/-- What is printed about a pointer to an instance (`src/DaedalusVm.cc:944-956`, 959-966): `find_symbol_by_instance` may be null. -/
def instLine (v : Vm) (p : Option Nat) (known : Bytes → BitVec 32 → Line) (null transient : Line) : Except Fail Line :=
  match p with
  | none => .ok null
  | some a =>
    match v.heap[a]? with
    | none => .error .ub
    | some n =>
      if n.symIndex = BitVec.allOnes 32 then .ok transient
      else
        match v.syms[n.symIndex.toNat]? with
        | none => .error .ub
        | some s => .ok (known s.name n.symIndex)

/-- The names of the symbols that the constructor looks up (`src/DaedalusVm.cc:81-85`), in the order of the report
(`src/DaedalusVm.cc:933-939`). -/
def globalNames : List Bytes := [b!"HERO", b!"SELF", b!"OTHER", b!"VICTIM", b!"ITEM"]

/-- The global variables (`src/DaedalusVm.cc:941-957`). -/
def globalLines (v : Vm) : List Bytes → Except Fail (List Line)
  | [] => .ok []
  | n :: ns =>
    match findByName v.syms n with
    | none => globalLines v ns
    | some y =>
      match v.syms[y]? with
      | none => .error .ub
      | some s =>
        match s.getInstance with
        | .error e => .error e
        | .ok p =>
          match instLine v p (.global s.name) (.globalNull s.name) (.globalTransient s.name) with
          | .error e => .error e
          | .ok l => (globalLines v ns).map (l :: ·)

/-- `DaedalusVm::print_stack_trace` (`src/DaedalusVm.cc:854-967`). It does not change the machine. -/
def report (v : Vm) : Except Fail (List Line) := do
  let calls ← callLines v v.pc v.calls
  let slots ← slotLines v v.sp.toNat
  let globals ← globalLines v globalNames
  let this ← instLine v v.instance_ .this .thisNull .thisTransient
  return .callHead :: calls ++ .stackHead :: slots ++ .globalHead :: globals ++ [this]

/-- Print a report, then `throw;`. -/
def rethrow {α} (e : Exc) : M α := fun v =>
  match report v with
  | .ok _ => (.error (.throw e), v)
  | .error e' => (.error e', v)

/-- What `exec` does with an exception (`src/DaedalusVm.cc:428-451`), reports included. -/
def execCatchR (h : Host) (e : Exc) (i : Instr) : M Bool := do
  let v ← M.get
  match h.handler with
  | none => rethrow e
  | some hd =>
    match ← hd e i with
    | .fail => rethrow e
    | .return_ => return false
    | .continue_ =>
      let v' ← M.get
      if v'.pc = v.pc then advance i
      return true

/-- `exec` after the instruction was decoded. -/
def execInstrR (h : Host) (call : Nat → M Unit) (i : Instr) : M Bool := fun v =>
  match execOp h call i v with
  | (.ok .next, v') => (do advance i; return true : M Bool) v'
  | (.ok .stay, v') => (.ok true, v')
  | (.ok .ret, v') => (.ok false, v')
  | (.error (.throw e), v') => if isScriptError e then execCatchR h e i v' else (.error (.throw e), v')
  | (.error e, v') => (.error e, v')

/-- `exec` (`src/DaedalusVm.cc:129-455`). -/
def execR (h : Host) (call : Nat → M Unit) : M Bool := do
  let i ← fetch
  execInstrR h call i

/-- `unsafe_call` (`src/DaedalusVm.cc:106-115`). -/
def unsafeCallR (h : Host) : Nat → Nat → M Unit
  | 0, _ => M.fail .hang
  | fuel + 1, y => do
    pushCall y
    let f ← symAt y
    jump f.address
    loop (execR h (unsafeCallR h fuel)) fuel
    popCall

end Verif.Daedalus
