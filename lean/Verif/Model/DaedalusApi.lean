import Verif.Model.DaedalusVm

/-!
# The interface of the virtual machine to its host

`include/zenkit/DaedalusVm.hh`: calling functions, creating instances, registering externals; `src/DaedalusVm.cc:89-104`.

The templates are modelled by one function each whose type arguments are values.
-/

namespace Verif.Daedalus

/-! ## Calling functions -/

/-- The arguments `call_function` accepts (`include/zenkit/DaedalusVm.hh:931-936`). A `DaedalusSymbol*` passes the constraint
but does not compile. -/
inductive Arg where
  | int (x : BitVec 32)
  | bool (b : Bool)
  | float (x : BitVec 32)
  | str (s : Bytes)
  | inst (p : Option Nat)
  deriving DecidableEq, Repr

/-- Whether an argument is accepted for a parameter (`include/zenkit/DaedalusVm.hh:938-957`). -/
def Arg.fits : Arg → DType → Bool
  | .int _, t | .bool _, t => t == .int || t == .function
  | .float _, t => t == .float
  | .str _, t => t == .string
  | .inst _, t => t == .instance

/-- The pushes of `push_call_parameters` (`include/zenkit/DaedalusVm.hh:942-956`). -/
def pushArg : Arg → M Unit
  | .int x => pushInt x
  | .bool b => pushInt (bool32 b)
  | .float x => pushFloat x
  | .str s => pushString s
  | .inst p => pushInst p

/-- `push_call_parameters` (`include/zenkit/DaedalusVm.hh:937-962`). The lists have the same length where it is called. -/
def pushArgs : List Nat → List Arg → M Unit
  | p :: ps, a :: as => do
    let s ← symAt p
    if a.fits s.type then
      pushArg a
      pushArgs ps as
    else M.throw .daedalusExternal
  | _, _ => return ()

/-- The result types of `call_function` (`include/zenkit/DaedalusVm.hh:902-908`): `ignore` is `IgnoreReturnValue`, `inst t` is
a shared pointer to the class `t`, `func` is `DaedalusFunction`. -/
inductive RType where
  | ignore | void | int | float | str
  | inst (t : Nat)
  | func
  deriving DecidableEq, Repr

/-- `check_call_return_type` (`include/zenkit/DaedalusVm.hh:909-926`). -/
def RType.fits : RType → DType → Bool
  | .ignore, _ => true
  | .void, t => t == .void
  | .int, t | .func, t => t == .int || t == .function
  | .float, t => t == .float
  | .str, t => t == .string
  | .inst _, t => t == .instance

/-- What `call_function` returns. -/
inductive RVal where
  | none
  | int (x : BitVec 32)
  | float (x : BitVec 32)
  | str (s : Bytes)
  | inst (p : Option Nat)
  deriving DecidableEq, Repr

/-- The test of the class of an instance that was popped (`include/zenkit/DaedalusVm.hh:969-981`, `793-805`, `810-822`): an
instance without a class is dereferenced through the null pointer. -/
def checkClass (t : Nat) (p : Option Nat) : M (Option Nat) := do
  match p with
  | .none => return .none
  | some a =>
    let v ← M.get
    match v.heap[a]? with
    | .none => M.ub
    | some i =>
      match i.type with
      | .none => M.ub
      | some c => if c = t then return some a else M.throw .daedalusVm

/-- `pop_call_return_value` (`include/zenkit/DaedalusVm.hh:964-992`) and the end of `call_function` (150-159). There is no
branch for `DaedalusFunction`, whose function ends without a `return`. -/
def popRet (f : Sym) : RType → M RVal
  | .ignore => do
    if f.hasReturn then
      let v ← M.get
      setSp (v.sp - 1)
    return .none
  | .void => return .none
  | .int => do return .int (← popInt)
  | .float => do return .float (← popFloat)
  | .str => do return .str (← popString)
  | .inst t => do return .inst (← checkClass t (← popInst))
  | .func => M.ub

/-- `call_function` (`include/zenkit/DaedalusVm.hh:122-160`). -/
def callFunction (h : Host) (fuel : Nat) (y : Option Nat) (args : List Arg) (r : RType) : M RVal := do
  match y with
  | .none => M.throw .daedalusVm
  | some y =>
    let f ← symAt y
    if f.type ≠ .function then M.throw .daedalusVm
    else
      let ps ← params f
      if ps.length ≠ args.length then M.throw .daedalusVm
      else if !r.fits f.rtype then M.throw .daedalusVm
      else
        pushArgs ps args
        unsafeCall h fuel y
        popRet f r

/-! ## Creating instances -/

/-- `while (parent->type() != CLASS) parent = find_symbol_by_index(parent->parent())`
(`include/zenkit/DaedalusVm.hh:303-305`): null is dereferenced. -/
def classLoop (syms : List Sym) : Nat → Option Sym → Except Fail Sym
  | 0, _ => .error .hang
  | _ + 1, none => .error .ub
  | n + 1, some p => if p.type = .class_ then .ok p else classLoop syms n syms[p.parent.toNat]?

/-- `allocate_instance` (`include/zenkit/DaedalusVm.hh:285-316`) for an object of the class `t` at the address `a`; comparing
the class of an unregistered symbol dereferences the null pointer. -/
def allocateInstance (fuel : Nat) (t a : Nat) (y : Option Nat) : M Unit := do
  match y with
  | none => M.throw .daedalusVm
  | some y =>
    let s ← symAt y
    if s.type ≠ .instance then M.throw .daedalusVm
    else
      let v ← M.get
      match v.syms[s.parent.toNat]? with
      | none => M.throw .daedalusVm
      | some p =>
        let c ← M.lift (classLoop v.syms fuel (some p))
        match c.registeredTo with
        | none => M.ub
        | some r =>
          if r ≠ t then M.throw .daedalusVm
          else
            match v.heap[a]? with
            | none => M.ub
            | some i =>
              M.set { v with heap := v.heap.set a { i with type := some t, symIndex := s.index } }
              symSetInstance y (some a)

/-- Reading and assigning `SELF` (`include/zenkit/DaedalusVm.hh:217-220,226`); a script may have none. -/
def getSelf : Option Nat → M (Option Nat)
  | none => return none
  | some y => symGetInstance y

def setSelf : Option Nat → Option Nat → M Unit
  | none, _ => return ()
  | some y, p => symSetInstance y p

/-- The part of `init_instance` behind `allocate_instance` (`include/zenkit/DaedalusVm.hh:215-227`). -/
def initCall (h : Host) (fuel : Nat) (self : Option Nat) (a y : Nat) : M Unit := do
  let v ← M.get
  let old := v.instance_
  let oldSelf ← getSelf self
  M.set { v with instance_ := some a }
  setSelf self (some a)
  unsafeCall h fuel y
  let v ← M.get
  M.set { v with instance_ := old }
  setSelf self oldSelf

/-- `init_instance` (`include/zenkit/DaedalusVm.hh:207-227`) of an object that exists. -/
def initInstance (h : Host) (fuel : Nat) (self : Option Nat) (t a : Nat) (y : Option Nat) : M Unit := do
  allocateInstance fuel t a y
  match y with
  | none => M.ub
  | some y => initCall h fuel self a y

/-- The loop of `init_opaque_instance` (`src/DaedalusVm.cc:90-93`), which tests for null. -/
def opaqueLoop (syms : List Sym) : Nat → Option Sym → Except Fail (Option Sym)
  | 0, _ => .error .hang
  | _ + 1, none => .ok none
  | n + 1, some p => if p.type = .class_ then .ok (some p) else opaqueLoop syms n syms[p.parent.toNat]?

/-- The symbols of a list of indices. -/
def symsAt (syms : List Sym) (is : List Nat) : List Sym := is.filterMap fun i => syms[i]?

/-- `init_opaque_instance` (`src/DaedalusVm.cc:89-104`): the address of the new instance; `t` is the class
`DaedalusOpaqueInstance`. A null symbol ends in its name being read. -/
def initOpaque (h : Host) (fuel : Nat) (self : Option Nat) (t : Nat) (y : Option Nat) : M Nat := do
  match y with
  | none => M.ub
  | some y =>
    let s ← symAt y
    let v ← M.get
    match ← M.lift (opaqueLoop v.syms fuel (some s)) with
    | none => M.throw .daedalusVm
    | some c =>
      let cells ← M.lift (construct c.classSize.toNat (symsAt v.syms (classMembers v.syms c)))
      M.set { v with heap := v.heap ++ [⟨none, BitVec.allOnes 32, cells⟩] }
      initInstance h fuel self t v.heap.length (some y)
      return v.heap.length

/-! ## Externals -/

/-- The parameter types of externals (`include/zenkit/DaedalusVm.hh:780-787`): `inst none` is a pointer to `DaedalusInstance`
itself, `inst (some t)` one to the class `t`, shared or not. -/
inductive PType where
  | int | bool | float | str
  | inst (t : Option Nat)
  | sym
  | func
  deriving DecidableEq, Repr

/-- What a callback gets. A `std::string_view` is a reference to the string of a symbol; `empty` is the one to the static empty
string (`src/DaedalusVm.cc:753-759`). -/
inductive PVal where
  | int (x : BitVec 32)
  | bool (b : Bool)
  | float (x : BitVec 32)
  | view (y : Nat) (i : Byte) (ctx : Option Nat)
  | empty
  | inst (p : Option Nat)
  | sym (y : Nat)
  | func (y : Option Nat)
  deriving DecidableEq, Repr

/-- Following a variable of type function (`include/zenkit/DaedalusVm.hh:839-843`); `id` is the index it starts from. -/
def resolve : Nat → BitVec 32 → M (Option Nat)
  | 0, _ => M.fail .hang
  | n + 1, id => do
    let v ← M.get
    match v.syms[id.toNat]? with
    | none => return none
    | some s =>
      if s.type = .function ∧ ¬ s.isConst then
        let x ← symGetInt id.toNat 0 none
        resolve n x
      else if s.type ≠ .function then return none
      else return some id.toNat

/-- `pop_string` (`src/DaedalusVm.cc:779-795`) without reading the string it refers to. Getting the reference makes the same
tests as reading it. -/
def popView : M PVal := do
  let (y, i, p) ← popRef
  let s ← symAt y
  let v ← M.get
  if s.isMember && p.isNone then
    if v.nullOk then return .empty else M.throw .daedalusNoContext
  else
    let _ ← symGetString y i.toNat p
    return .view y i p

/-- What a callback reads through a `std::string_view`. -/
def readView : PVal → M Bytes
  | .view y i p => symGetString y i.toNat p
  | _ => return []

/-- `pop_value_for_external` (`include/zenkit/DaedalusVm.hh:788-853`). -/
def popValue (fuel : Nat) : PType → M PVal
  | .int => do return .int (← popInt)
  | .bool => do return .bool ((← popInt) != 0)
  | .float => do return .float (← popFloat)
  | .str => popView
  | .inst none => do return .inst (← popInst)
  | .inst (some t) => do return .inst (← checkClass t (← popInst))
  | .sym => do let (y, _, _) ← popRef; return .sym y
  | .func => do return .func (← resolve fuel (← popInt))

/-- `pop_values_for_external` (`include/zenkit/DaedalusVm.hh:890-900`): the last parameter is popped first. -/
def popValues (fuel : Nat) : List PType → M (List PVal)
  | [] => return []
  | t :: ts => do
    let xs ← popValues fuel ts
    let x ← popValue fuel t
    return x :: xs

/-- The result types of externals (`include/zenkit/DaedalusVm.hh:862-868`); `int` is every integral type and `bool`. -/
inductive XRet where
  | void | int | float | str | inst | func
  deriving DecidableEq, Repr

/-- The result of a callback; a function may be null. -/
inductive XVal where
  | void
  | int (x : BitVec 32)
  | float (x : BitVec 32)
  | str (s : Bytes)
  | inst (p : Option Nat)
  | func (y : Option Nat)
  deriving DecidableEq, Repr

/-- `push_value_from_external` (`include/zenkit/DaedalusVm.hh:869-883`). -/
def pushValue : XVal → M Unit
  | .void => return ()
  | .int x => pushInt x
  | .float x => pushFloat x
  | .str s => pushString s
  | .inst p => pushInst p
  | .func none => M.ub
  | .func (some y) => do
    let s ← symAt y
    pushInt s.index

/-- The function `register_external` stores (`include/zenkit/DaedalusVm.hh:460-477`). -/
def external (fuel : Nat) (ts : List PType) (cb : List PVal → M XVal) : M Unit := do
  let xs ← popValues fuel ts
  let r ← cb xs
  pushValue r

/-- The tests of the result type (`include/zenkit/DaedalusVm.hh:423-441`): whether `register_external` goes on. -/
def XRet.check (f : Sym) : XRet → Except Fail Unit
  | .void => if f.hasReturn then .error (.throw .daedalusExternal) else .ok ()
  | .inst => if !f.hasReturn || f.rtype ≠ .instance then .error (.throw .daedalusExternal) else .ok ()
  | .float => if !f.hasReturn || f.rtype ≠ .float then .error (.throw .daedalusExternal) else .ok ()
  | .int => if !f.hasReturn || f.rtype ≠ .int then .error (.throw .daedalusExternal) else .ok ()
  | .str => if !f.hasReturn || f.rtype ≠ .string then .error (.throw .daedalusExternal) else .ok ()
  | .func => if !f.hasReturn then .error (.throw .daedalusExternal) else .error (.throw .daedalusVm)

/-- `check_external_params` (`include/zenkit/DaedalusVm.hh:745-766`) for one parameter. -/
def PType.fits : PType → DType → Bool
  | .inst _, t | .sym, t => t == .instance
  | .float, t => t == .float
  | .int, t | .bool, t | .func, t => t == .int || t == .function
  | .str, t => t == .string

/-- `register_external` (`include/zenkit/DaedalusVm.hh:416-478`): `none` if there is no such symbol, else the symbol whose
entry in `_m_externals` is set. -/
def registerExternal (name : Bytes) (r : XRet) (ts : List PType) : M (Option Nat) := do
  let v ← M.get
  match findByName v.syms name with
  | none => return none
  | some y =>
    let f ← symAt y
    if !f.isExternal then M.throw .daedalusVm
    else
      M.lift (r.check f)
      let ps ← params f
      if ps.length ≠ ts.length then M.throw .daedalusExternal
      else if (symsAt v.syms ps).map Sym.type |>.zip ts |>.all fun p => p.2.fits p.1 then return some y
      else M.throw .daedalusExternal

end Verif.Daedalus
