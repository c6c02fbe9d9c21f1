import Verif.Model.Daedalus

/-!
# The Daedalus virtual machine

`src/DaedalusVm.cc`, `include/zenkit/DaedalusVm.hh`.

An operation of the machine is a function of its state that gives an outcome and the state afterwards; the state survives an
exception. Functions of the host (externals, overrides, the default external, the access trap and the exception handler)
are arbitrary operations. Logging and `print_stack_trace` are not modelled.
-/

namespace Verif.Daedalus

/-- `struct DaedalusStackFrame` (`include/zenkit/DaedalusVm.hh:72-77`). `reference` is true exactly for the frames that hold
a symbol, so the flag and the variant are one type here; the index of all other frames is zero. The index is assigned from a
`uint8_t` only. -/
inductive Frame where
  | int (v : BitVec 32)
  | float (v : BitVec 32)
  | ref (sym : Nat) (index : Byte) (ctx : Option Nat)
  | inst (p : Option Nat)
  deriving DecidableEq, Repr

/-- What is left in a frame after its content was moved: shared pointers are null. -/
def Frame.moved : Frame → Frame
  | .ref y i _ => .ref y i none
  | .inst _ => .inst none
  | f => f

/-- `struct DaedalusCallStackFrame` (`include/zenkit/DaedalusVm.hh:80-85`). -/
structure Call where
  fn : Nat
  pc : BitVec 32
  sp : BitVec 32
  ctx : Option Nat
  deriving DecidableEq, Repr

/-- `class DaedalusVm` (`include/zenkit/DaedalusVm.hh:102-1024`) with its base `DaedalusScript`. `stack` is
`_m_stack` up to the highest slot written so far, `none` for slots that were never written; `sp` is `_m_stack_ptr`;
`tmp` the index of `_m_temporary_strings`; `textPos` the position of the reader of the code. -/
structure Vm where
  syms : List Sym
  heap : List Inst := []
  text : Bytes := []
  textPos : Nat := 0
  stack : List (Option Frame) := []
  sp : BitVec 16 := 0
  calls : List Call := []
  instance_ : Option Nat := none
  pc : BitVec 32 := 0
  free : List (BitVec 32) := [0]
  tmp : Nat
  nullOk : Bool := false
  ignoreConst : Bool := false
  deriving DecidableEq, Repr

/-- `stack_size` (`include/zenkit/DaedalusVm.hh:104`). -/
def stackSize : Nat := 2048

/-! ## Operations -/

/-- An operation of the machine. -/
def M (α : Type) := Vm → Except Fail α × Vm

namespace M

def pure {α} (a : α) : M α := fun v => (.ok a, v)

def bind {α β} (p : M α) (f : α → M β) : M β := fun v =>
  match p v with
  | (.ok a, v') => f a v'
  | (.error e, v') => (.error e, v')

instance : Monad M where
  pure := M.pure
  bind := M.bind

def fail {α} (e : Fail) : M α := fun v => (.error e, v)
def throw {α} (e : Exc) : M α := fail (.throw e)
def ub {α} : M α := fail .ub
def get : M Vm := fun v => (.ok v, v)
def set (v : Vm) : M Unit := fun _ => (.ok (), v)

/-- The outcome of a function that does not change the machine. -/
def lift {α} (r : Except Fail α) : M α := fun v => (r, v)

end M

/-! ## The stack -/

/-- `_m_stack[i]` for reading. Slots that were never written hold indeterminate values. -/
def stackGet (i : Nat) : M Frame := fun v =>
  if i ≥ stackSize then (.error .ub, v)
  else
    match v.stack[i]? with
    | some (some f) => (.ok f, v)
    | _ => (.error .ub, v)

/-- The slots after an assignment to one of them. -/
def putSlot (stack : List (Option Frame)) (i : Nat) (f : Frame) : List (Option Frame) :=
  if i < stack.length then stack.set i (some f)
  else stack ++ List.replicate (i - stack.length) none ++ [some f]

/-- `_m_stack[i] = f`. -/
def stackPut (i : Nat) (f : Frame) : M Unit := fun v =>
  if i ≥ stackSize then (.error .ub, v) else (.ok (), { v with stack := putSlot v.stack i f })

def setSp (sp : BitVec 16) : M Unit := fun v => (.ok (), { v with sp := sp })

/-- The common part of `push_int`, `push_float`, `push_reference` and `push_instance` (`src/DaedalusVm.cc:646-685`). -/
def push (f : Frame) : M Unit := do
  let v ← M.get
  if v.sp = BitVec.ofNat 16 stackSize then M.throw .daedalusVm
  else
    stackPut v.sp.toNat f
    setSp (v.sp + 1)

/-- `std::move(_m_stack[--_m_stack_ptr])`. -/
def take : M Frame := do
  let v ← M.get
  setSp (v.sp - 1)
  let f ← stackGet (v.sp - 1).toNat
  stackPut (v.sp - 1).toNat f.moved
  return f

/-- `push_int` (`src/DaedalusVm.cc:646-652`), `push_float` (671-677), `push_instance` (679-685). -/
def pushInt (x : BitVec 32) : M Unit := push (.int x)
def pushFloat (x : BitVec 32) : M Unit := push (.float x)
def pushInst (p : Option Nat) : M Unit := push (.inst p)

/-- `push_reference` (`src/DaedalusVm.cc:654-660`). -/
def pushRef (y : Nat) (index : Byte) : M Unit := do
  let v ← M.get
  push (.ref y index v.instance_)

/-! ## Symbols and instances -/

/-- Dereferencing a pointer to a symbol. -/
def symAt (y : Nat) : M Sym := do
  let v ← M.get
  match v.syms[y]? with
  | some s => return s
  | none => M.ub

/-- `.get()` of a shared pointer to an instance, for reading from it. -/
def instAt (v : Vm) (p : Option Nat) : Option Inst :=
  match p with
  | none => none
  | some a => v.heap[a]?

/-- The machine after a setter of a symbol changed the symbol or the context. -/
def storeSym (y : Nat) (p : Option Nat) (s : Sym) (i : Option Inst) : M Unit := fun v =>
  (.ok (), { v with
    syms := v.syms.set y s
    heap := match p, i with
      | some a, some i => v.heap.set a i
      | _, _ => v.heap })

/-- `find_symbol_by_index` (`src/DaedalusScript.cc:152-157`) followed by the test for null. -/
def symByIndex (index : BitVec 32) : M (Nat × Sym) := do
  let v ← M.get
  match v.syms[index.toNat]? with
  | some s => return (index.toNat, s)
  | none => M.throw .daedalusVm

/-- `DaedalusSymbol::get_int(index, context)` on a symbol of the machine, and so on. -/
def symGetInt (y : Nat) (index : Nat) (p : Option Nat) : M (BitVec 32) := do
  let s ← symAt y
  let v ← M.get
  M.lift (s.getInt index (instAt v p))

def symGetFloat (y : Nat) (index : Nat) (p : Option Nat) : M (BitVec 32) := do
  let s ← symAt y
  let v ← M.get
  M.lift (s.getFloat index (instAt v p))

def symGetString (y : Nat) (index : Nat) (p : Option Nat) : M Bytes := do
  let s ← symAt y
  let v ← M.get
  M.lift (s.getString index (instAt v p))

def symGetInstance (y : Nat) : M (Option Nat) := do
  let s ← symAt y
  M.lift s.getInstance

def symSetInt (y : Nat) (x : BitVec 32) (index : Nat) (p : Option Nat) : M Unit := do
  let s ← symAt y
  let v ← M.get
  let (s, i) ← M.lift (s.setInt x index (instAt v p))
  storeSym y p s i

def symSetFloat (y : Nat) (x : BitVec 32) (index : Nat) (p : Option Nat) : M Unit := do
  let s ← symAt y
  let v ← M.get
  let (s, i) ← M.lift (s.setFloat x index (instAt v p))
  storeSym y p s i

def symSetString (y : Nat) (x : Bytes) (index : Nat) (p : Option Nat) : M Unit := do
  let s ← symAt y
  let v ← M.get
  let (s, i) ← M.lift (s.setString x index (instAt v p))
  storeSym y p s i

def symSetInstance (y : Nat) (q : Option Nat) : M Unit := do
  let s ← symAt y
  let s ← M.lift (s.setInstance q)
  storeSym y none s none

/-! ## Temporary strings -/

/-- The numbers `from, …, to - 1` pushed one after the other onto a stack whose top is the head. -/
def pushRange (free : List (BitVec 32)) (lo hi : Nat) : List (BitVec 32) :=
  ((List.range (hi - lo)).map fun k => BitVec.ofNat 32 (lo + k)).reverse ++ free

/-- `get_free_string` (`src/DaedalusVm.cc:1152-1166`). -/
def getFreeString : M (BitVec 32) := do
  let v ← M.get
  match v.free with
  | i :: rest => M.set { v with free := rest }; return i
  | [] =>
    let s ← symAt v.tmp
    let s' ← M.lift (s.grow (s.count * 2))
    let v := { v with syms := v.syms.set v.tmp s', free := pushRange [] s.count.toNat s'.count.toNat }
    M.set v
    match v.free with
    | i :: rest => M.set { v with free := rest }; return i
    | [] => M.ub

/-- `mark_free_string` (`src/DaedalusVm.cc:1148-1150`). -/
def markFree (i : Byte) : M Unit := fun v => (.ok (), { v with free := BitVec.ofNat 32 i.toNat :: v.free })

/-- `push_string` (`src/DaedalusVm.cc:662-669`): the index of the slot is cut to 16 bits for `set_string` and to 8 bits for
`push_reference`. -/
def pushString (s : Bytes) : M Unit := do
  let i ← getFreeString
  let v ← M.get
  symSetString v.tmp s (i.toNat % 65536) none
  pushRef v.tmp (UInt8.ofNat i.toNat)

/-! ## Popping -/

/-- `DaedalusVm::get_int` (`src/DaedalusVm.cc:1060-1078`). -/
def vmGetInt (y : Nat) (index : Byte) (p : Option Nat) : M (BitVec 32) := do
  let s ← symAt y
  let v ← M.get
  if s.isMember && p.isNone then
    if v.nullOk then return 0 else M.throw .daedalusNoContext
  else symGetInt y index.toNat p

/-- `DaedalusVm::get_float` (`src/DaedalusVm.cc:1080-1098`). -/
def vmGetFloat (y : Nat) (index : Byte) (p : Option Nat) : M (BitVec 32) := do
  let s ← symAt y
  let v ← M.get
  if s.isMember && p.isNone then
    if v.nullOk then return 0 else M.throw .daedalusNoContext
  else symGetFloat y index.toNat p

/-- `pop_int` (`src/DaedalusVm.cc:687-703`). -/
def popInt : M (BitVec 32) := do
  let v ← M.get
  if v.sp = 0 then return 0
  else
    match ← take with
    | .ref y i p => vmGetInt y i p
    | .int x => return x
    | _ => M.throw .daedalusVm

/-- `pop_float` (`src/DaedalusVm.cc:705-730`). -/
def popFloat : M (BitVec 32) := do
  let v ← M.get
  if v.sp = 0 then return 0
  else
    match ← take with
    | .ref y i p => vmGetFloat y i p
    | .float x => return x
    | .int x => return x
    | _ => M.throw .daedalusVm

/-- `pop_reference` (`src/DaedalusVm.cc:732-751`). -/
def popRef : M (Nat × Byte × Option Nat) := do
  let v ← M.get
  if v.sp = 0 then M.throw .daedalusVm
  else
    match ← take with
    | .ref y i p =>
      let s ← symAt y
      let t ← symAt v.tmp
      if s.index = t.index then markFree i
      return (y, i, p)
    | _ => M.throw .daedalusVm

/-- `pop_instance` (`src/DaedalusVm.cc:761-777`). -/
def popInst : M (Option Nat) := do
  let v ← M.get
  if v.sp = 0 then M.throw .daedalusVm
  else
    match ← take with
    | .ref y _ _ => symGetInstance y
    | .inst p => return p
    | _ => M.throw .daedalusVm

/-- `pop_string` (`src/DaedalusVm.cc:779-795`). -/
def popString : M Bytes := do
  let (y, i, p) ← popRef
  let s ← symAt y
  let v ← M.get
  if s.isMember && p.isNone then
    if v.nullOk then return [] else M.throw .daedalusNoContext
  else symGetString y i.toNat p

/-! ## Writing variables -/

/-- The test at the start of `set_int`, `set_float`, `set_string` (`src/DaedalusVm.cc:1100-1146`). -/
def checkConst (y : Nat) : M Unit := do
  let s ← symAt y
  let v ← M.get
  if s.isConst && !v.ignoreConst then M.throw .daedalusConst else return ()

/-- Whether the access goes to the symbol (`src/DaedalusVm.cc:1108-1109`). -/
def reaches (s : Sym) (p : Option Nat) (v : Vm) : Bool := !s.isMember || p.isSome || !v.nullOk

/-- `DaedalusVm::set_int` (`src/DaedalusVm.cc:1100-1114`). -/
def vmSetInt (y : Nat) (x : BitVec 32) (i : Byte) (p : Option Nat) : M Unit := do
  checkConst y
  let s ← symAt y
  let v ← M.get
  if reaches s p v then symSetInt y x i.toNat p else return ()

/-- `DaedalusVm::set_float` (`src/DaedalusVm.cc:1116-1130`). -/
def vmSetFloat (y : Nat) (x : BitVec 32) (i : Byte) (p : Option Nat) : M Unit := do
  checkConst y
  let s ← symAt y
  let v ← M.get
  if reaches s p v then symSetFloat y x i.toNat p else return ()

/-- `DaedalusVm::set_string` (`src/DaedalusVm.cc:1132-1146`). -/
def vmSetString (y : Nat) (x : Bytes) (i : Byte) (p : Option Nat) : M Unit := do
  checkConst y
  let s ← symAt y
  let v ← M.get
  if reaches s p v then symSetString y x i.toNat p else return ()

/-! ## Integer operators

Signed overflow, division of the least value by `-1` and shifts by less than zero or more than 31 are undefined in C++; a left
shift of any value is defined since C++20, which the project requires (`CMakeLists.txt`). -/

/-- A result of type `int32_t`. -/
def i32 (x : Int) : Except Fail (BitVec 32) :=
  if -2147483648 ≤ x ∧ x < 2147483648 then .ok (BitVec.ofInt 32 x) else .error .ub

def bool32 (b : Bool) : BitVec 32 := if b then 1 else 0

/-- The binary operators of `exec` (`src/DaedalusVm.cc:137-227`): `a` is popped first. -/
def binop (op : Op) (a b : BitVec 32) : Except Fail (BitVec 32) :=
  match op with
  | .add => i32 (a.toInt + b.toInt)
  | .sub => i32 (a.toInt - b.toInt)
  | .mul => i32 (a.toInt * b.toInt)
  | .div => if b = 0 then .error (.throw .daedalusVm) else i32 (a.toInt.tdiv b.toInt)
  | .mod =>
    if b = 0 then .error (.throw .daedalusVm)
    else if a.toInt = -2147483648 ∧ b.toInt = -1 then .error .ub
    else i32 (a.toInt.tmod b.toInt)
  | .or => .ok (a ||| b)
  | .andb => .ok (a &&& b)
  | .lt => .ok (bool32 (decide (a.toInt < b.toInt)))
  | .gt => .ok (bool32 (decide (a.toInt > b.toInt)))
  | .lsl => if b.toInt < 0 ∨ 32 ≤ b.toInt then .error .ub else .ok (a <<< b.toNat)
  | .lsr => if b.toInt < 0 ∨ 32 ≤ b.toInt then .error .ub else .ok (a.sshiftRight b.toNat)
  | .lte => .ok (bool32 (decide (a.toInt ≤ b.toInt)))
  | .eq => .ok (bool32 (decide (a = b)))
  | .neq => .ok (bool32 (decide (a ≠ b)))
  | .gte => .ok (bool32 (decide (a.toInt ≥ b.toInt)))
  | .orr => .ok (bool32 (decide (a ≠ 0 ∨ b ≠ 0)))
  | .and => .ok (bool32 (decide (a ≠ 0 ∧ b ≠ 0)))
  | _ => .error .ub

/-- The unary operators of `exec` (`src/DaedalusVm.cc:206-217`). -/
def unop (op : Op) (a : BitVec 32) : Except Fail (BitVec 32) :=
  match op with
  | .plus => .ok a
  | .negate => i32 (-a.toInt)
  | .not => .ok (bool32 (decide (a = 0)))
  | .cmpl => .ok (~~~a)
  | _ => .error .ub

/-! ## Calls -/

/-- `StackGuard::fix` (`src/DaedalusVm.cc:50-70`). -/
def fix (t : DType) : M Unit :=
  match t with
  | .float => pushFloat 0
  | .int | .function => pushInt 0
  | .string => pushString []
  | .instance => pushInst none
  | _ => return ()

/-- A block with a `StackGuard` (`src/DaedalusVm.cc:26-75`) that is inhibited at its end: when an exception leaves the block
the destructor pushes a default value. Destructors are `noexcept`: an exception there terminates the program. -/
def guarded {α} (t : DType) (p : M α) : M α := fun v =>
  match p v with
  | (.error (.throw e), v') =>
    match fix t v' with
    | (.ok _, v'') => (.error (.throw e), v'')
    | (.error (.throw _), v'') => (.error .terminate, v'')
    | (.error e', v'') => (.error e', v'')
  | r => r

/-- `find_parameters_for_function` (`src/DaedalusScript.cc:195-198`): the indices. The iterators must stay in the table. -/
def params (f : Sym) : M (List Nat) := do
  let v ← M.get
  if f.index.toNat + f.count.toNat + 1 > v.syms.length then M.ub
  else return List.range' (f.index.toNat + 1) f.count.toNat

/-- The slots a local needs (`src/DaedalusVm.cc:520-537`). -/
def localSlots (s : Sym) : Nat :=
  match s.type with
  | .float | .function | .int | .string => s.count.toNat
  | .instance => 1
  | _ => 0

/-- Runs an operation for each element. -/
def forM_ {α} (f : α → M Unit) : List α → M Unit
  | [] => return ()
  | a :: as => do f a; forM_ f as

/-- Saving one local (`src/DaedalusVm.cc:556-583`). -/
def saveLocal (y : Nat) : M Unit := do
  let l ← symAt y
  match l.type with
  | .float => forM_ (fun i => do pushFloat (← symGetFloat y (i % 65536) none)) (List.range l.count.toNat)
  | .function | .int => forM_ (fun i => do pushInt (← symGetInt y (i % 65536) none)) (List.range l.count.toNat)
  | .string => forM_ (fun i => do pushString (← symGetString y (i % 65536) none)) (List.range l.count.toNat)
  | .instance => do pushInst (← symGetInstance y)
  | _ => return ()

/-- Restoring one local (`src/DaedalusVm.cc:608-638`). -/
def restoreLocal (y : Nat) : M Unit := do
  let l ← symAt y
  match l.type with
  | .float => forM_ (fun i => do symSetFloat y (← popFloat) (i % 65536) none) (List.range l.count.toNat).reverse
  | .function | .int => forM_ (fun i => do symSetInt y (← popInt) (i % 65536) none) (List.range l.count.toNat).reverse
  | .string => forM_ (fun i => do symSetString y (← popString) (i % 65536) none) (List.range l.count.toNat).reverse
  | .instance => do symSetInstance y (← popInst)
  | _ => return ()

/-- Moving one argument (`src/DaedalusVm.cc:551-553`). -/
def moveSlot (src dst : Nat) : M Unit := do
  let f ← stackGet src
  if src = dst then return ()
  else
    stackPut dst f
    stackPut src f.moved

/-- Number of activations of a function on the call stack. -/
def activations (v : Vm) (y : Nat) : Nat := (v.calls.filter fun c => c.fn == y).length

/-- The locals of a function: their indices. -/
def localsOf (v : Vm) (f : Sym) : List Nat := List.range' (findLocals v.syms f).1 (findLocals v.syms f).2

/-- `push_local_variables` (`src/DaedalusVm.cc:503-586`). -/
def pushLocals (y : Nat) : M Unit := do
  let v ← M.get
  if activations v y = 0 then return ()
  else
    let f ← symAt y
    let ps ← params f
    let ls := localsOf v f
    let size := (ls.map fun i => match v.syms[i]? with | some s => localSlots s | none => 0).sum % 2 ^ 32
    if (v.sp.toNat + size) % 2 ^ 32 > stackSize then M.throw .daedalusVm
    else if v.sp.toNat < ps.length then M.throw .daedalusVm
    else
      let base := v.sp.toNat - ps.length
      setSp (BitVec.ofNat 16 base)
      forM_ (fun i => moveSlot (base + i) (base + size + i)) (List.range ps.length)
      forM_ saveLocal ls
      let v ← M.get
      setSp (v.sp + BitVec.ofNat 16 ps.length)

/-- `pop_local_variables` (`src/DaedalusVm.cc:588-644`). -/
def popLocals (y : Nat) : M Unit := do
  let v ← M.get
  if activations v y ≤ 1 then return ()
  else
    let f ← symAt y
    if f.hasReturn then
      let ret ← take
      forM_ restoreLocal (localsOf v f).reverse
      let v ← M.get
      stackPut v.sp.toNat ret
      setSp (v.sp + 1)
    else forM_ restoreLocal (localsOf v f).reverse

/-- `push_call` (`src/DaedalusVm.cc:457-463`). The stack pointer is 32 bits wide here. -/
def pushCall (y : Nat) : M Unit := do
  let f ← symAt y
  if f.hasLocals then pushLocals y
  let ps ← params f
  let v ← M.get
  M.set { v with calls := ⟨y, v.pc, v.sp.setWidth 32 - BitVec.ofNat 32 ps.length, v.instance_⟩ :: v.calls }

/-- The part of `pop_call` that repairs the stack (`src/DaedalusVm.cc:468-491`). -/
def fixStack (c : Call) (f : Sym) : M Unit := do
  let v ← M.get
  if !f.hasReturn then setSp (c.sp.setWidth 16)
  else
    let remaining := v.sp.setWidth 32 - c.sp
    if remaining = 0 then fix f.rtype
    else if remaining.toNat > 1 then
      let r ← stackGet (v.sp - 1).toNat
      stackPut (c.sp.setWidth 16).toNat r
      setSp (c.sp.setWidth 16 + 1)
    else return ()

/-- `pop_call` (`src/DaedalusVm.cc:465-501`). -/
def popCall : M Unit := do
  let v ← M.get
  match v.calls with
  | [] => M.ub
  | c :: _ =>
    let f ← symAt c.fn
    fixStack c f
    if f.hasLocals then popLocals c.fn
    let v ← M.get
    M.set { v with pc := c.pc, instance_ := c.ctx, calls := v.calls.tail }

/-- `jump` (`src/DaedalusVm.cc:797-803`). -/
def jump (address : BitVec 32) : M Unit := do
  let v ← M.get
  if address.toNat ≥ v.text.length then M.throw .daedalusVm else M.set { v with pc := address }

/-! ## Execution -/

/-- `enum class DaedalusVmExceptionStrategy` (`include/zenkit/DaedalusVm.hh:60-69`). -/
inductive Strategy where
  | continue_ | return_ | fail
  deriving DecidableEq, Repr

/-- The functions of the host: `_m_externals`, `_m_function_overrides`, `_m_default_external`, `_m_access_trap`,
`_m_exception_handler`. -/
structure Host where
  external : Nat → Option (M Unit) := fun _ => none
  override_ : BitVec 32 → Option (M Unit) := fun _ => none
  default_ : Option (Nat → M Unit) := none
  trap : Option (Nat → M Unit) := none
  handler : Option (Exc → Instr → M Strategy) := none

/-- How the switch of `exec` is left: `next` is `break`, `stay` is `return true`, `ret` is `return false`. -/
inductive Step where
  | next | stay | ret
  deriving DecidableEq, Repr

/-- The body of `ADDMOVI`, `SUBMOVI`, `MULMOVI`, `DIVMOVI` (`src/DaedalusVm.cc:320-394`). -/
def assignOp (op : Op) : M Unit := do
  let (y, i, p) ← popRef
  let value ← popInt
  if op = .div ∧ value = 0 then M.throw .daedalusVm
  else
    checkConst y
    let s ← symAt y
    let v ← M.get
    if reaches s p v then
      let x ← symGetInt y i.toNat p
      let r ← M.lift (binop op x value)
      symSetInt y r i.toNat p
    else return ()

/-- The access trap or a push of the symbol (`src/DaedalusVm.cc:284-295`). -/
def pushVar (h : Host) (y : Nat) (s : Sym) : M Unit :=
  match h.trap with
  | some t => if s.hasAccessTrap then t y else pushRef y 0
  | none => pushRef y 0

/-- A binary operator: pop, pop, push. -/
def execBin (op : Op) : M Step := do
  let a ← popInt
  let b ← popInt
  pushInt (← M.lift (binop op a b))
  return .next

/-- A unary operator. -/
def execUn (op : Op) : M Step := do
  let a ← popInt
  pushInt (← M.lift (unop op a))
  return .next

/-- `BL` (`src/DaedalusVm.cc:233-252`). -/
def execBl (h : Host) (call : Nat → M Unit) (address : BitVec 32) : M Step := do
  let v ← M.get
  match h.override_ address with
  | some cb =>
    match findByAddress v.syms address with
    | none => M.ub
    | some y =>
      let s ← symAt y
      guarded s.rtype cb
      return .next
  | none =>
    match findByAddress v.syms address with
    | none => M.throw .daedalusVm
    | some y => call y; return .next

/-- `BE` (`src/DaedalusVm.cc:253-280`). -/
def execBe (h : Host) (index : BitVec 32) : M Step := do
  let (y, s) ← symByIndex index
  guarded s.rtype (match h.external y with
    | some cb => do pushCall y; cb; popCall
    | none =>
      match h.default_ with
      | some d => d y
      | none => M.throw .daedalusVm)
  return .next

/-- The switch of `exec` (`src/DaedalusVm.cc:136-425`); `call` is `unsafe_call`. Opcodes without a case fall through. -/
def execOp (h : Host) (call : Nat → M Unit) (i : Instr) : M Step :=
  match i.op with
  | .add | .sub | .mul | .div | .mod | .or | .andb | .lt | .gt | .lsl | .lsr | .lte | .eq | .neq | .gte | .orr | .and =>
    execBin i.op
  | .plus | .negate | .not | .cmpl => execUn i.op
  | .nop => return .next
  | .rsr => return .ret
  | .bl => execBl h call i.address
  | .be => execBe h i.symbol
  | .pushi => do pushInt i.immediate; return .next
  | .pushv | .pushvi => do
    let (y, s) ← symByIndex i.symbol
    pushVar h y s
    return .next
  | .movi | .movvf => do
    let (y, k, p) ← popRef
    let x ← popInt
    vmSetInt y x k p
    return .next
  | .movf => do
    let (y, k, p) ← popRef
    let x ← popFloat
    vmSetFloat y x k p
    return .next
  | .movs => do
    let (y, k, p) ← popRef
    let x ← popString
    vmSetString y x k p
    return .next
  | .movss => M.throw .daedalusVm
  | .addmovi => do assignOp .add; return .next
  | .submovi => do assignOp .sub; return .next
  | .mulmovi => do assignOp .mul; return .next
  | .divmovi => do assignOp .div; return .next
  | .movvi => do
    let (y, _, _) ← popRef
    let q ← popInst
    symSetInstance y q
    return .next
  | .b => do jump i.address; return .stay
  | .bz => do
    let x ← popInt
    if x = 0 then
      jump i.address
      return .stay
    else return .next
  | .gmovi => do
    let (y, _) ← symByIndex i.symbol
    let p ← symGetInstance y
    let v ← M.get
    M.set { v with instance_ := p }
    return .next
  | .pushvv => do
    let (y, _) ← symByIndex i.symbol
    pushRef y i.index
    return .next
  | .unknown _ => return .next

/-- Classes derived from `DaedalusScriptError` (`include/zenkit/DaedalusScript.hh:356-453`,
`include/zenkit/DaedalusVm.hh:28-58`). -/
def isScriptError : Exc → Bool
  | .daedalusVm | .daedalusType | .daedalusIndex | .daedalusConst | .daedalusNoContext | .daedalusUnbound
  | .daedalusContextType | .daedalusExternal | .daedalusNotFound | .daedalusMember => true
  | _ => false

/-- `_m_pc += instr.size`. -/
def advance (i : Instr) : M Unit := fun v => (.ok (), { v with pc := v.pc + BitVec.ofNat 32 i.size })

/-- `instruction_at(_m_pc)`. -/
def fetch : M Instr := fun v =>
  match instructionAt v.text v.textPos v.pc.toNat with
  | .ok (i, pos) => (.ok i, { v with textPos := pos })
  | .error e => (.error e, v)

/-- What `exec` does with an exception (`src/DaedalusVm.cc:428-451`). -/
def execCatch (h : Host) (e : Exc) (i : Instr) : M Bool := do
  let v ← M.get
  match h.handler with
  | none => M.throw e
  | some hd =>
    match ← hd e i with
    | .fail => M.throw e
    | .return_ => return false
    | .continue_ =>
      let v' ← M.get
      if v'.pc = v.pc then advance i
      return true

/-- `exec` after the instruction was decoded. -/
def execInstr (h : Host) (call : Nat → M Unit) (i : Instr) : M Bool := fun v =>
  match execOp h call i v with
  | (.ok .next, v') => (do advance i; return true : M Bool) v'
  | (.ok .stay, v') => (.ok true, v')
  | (.ok .ret, v') => (.ok false, v')
  | (.error (.throw e), v') => if isScriptError e then execCatch h e i v' else (.error (.throw e), v')
  | (.error e, v') => (.error e, v')

/-- `exec` (`src/DaedalusVm.cc:129-455`). -/
def exec (h : Host) (call : Nat → M Unit) : M Bool := do
  let i ← fetch
  execInstr h call i

/-- `while (exec());` -/
def loop (step : M Bool) : Nat → M Unit
  | 0 => M.fail .hang
  | n + 1 => do
    if ← step then loop step n else return ()

/-- `unsafe_call` (`src/DaedalusVm.cc:106-115`); the fuel bounds the depth of the calls and the instructions of each. -/
def unsafeCall (h : Host) : Nat → Nat → M Unit
  | 0, _ => M.fail .hang
  | fuel + 1, y => do
    pushCall y
    let f ← symAt y
    jump f.address
    loop (exec h (unsafeCall h fuel)) fuel
    popCall

/-! ## Registering functions -/

/-- `register_default_external` (`src/DaedalusVm.cc:809-836`): the function it stores, without the callback. -/
def defaultPop (y : Nat) : M Unit := do
  let p ← symAt y
  match p.type with
  | .int => do let _ ← popInt; return ()
  | .float => do let _ ← popFloat; return ()
  | .instance | .string => do let _ ← popRef; return ()
  | _ => return ()

def defaultExternal (y : Nat) : M Unit := do
  let f ← symAt y
  let ps ← params f
  forM_ defaultPop ps.reverse
  if f.hasReturn then
    match f.rtype with
    | .float => pushFloat 0
    | .int => pushInt 0
    | .string => pushString []
    | .instance => pushInst none
    | _ => return ()

/-- `lenient_vm_exception_handler` (`src/DaedalusVm.cc:988-1058`). -/
def lenient (_ : Exc) (i : Instr) : M Strategy :=
  match i.op with
  | .add | .sub | .mul | .div | .mod | .or | .andb | .lt | .gt | .orr | .and | .lsl | .lsr | .lte | .eq | .neq | .gte
  | .plus | .negate | .not | .cmpl | .pushi | .pushv | .pushvi | .pushvv => do pushInt 0; return .continue_
  | _ => return .continue_

end Verif.Daedalus
