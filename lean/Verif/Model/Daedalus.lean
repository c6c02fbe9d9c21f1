import Verif.Model.Stream

/-!
# Daedalus scripts: instructions, symbols, instances

`src/DaedalusScript.cc`, `include/zenkit/DaedalusScript.hh`.

Pointers to symbols are indices into the symbol table (the table does not change its size after the VM was built), pointers
to instances are indices into a heap. `int32_t` and `float` are their bit patterns.
-/

namespace Verif.Daedalus

/-! ## Instructions -/

/-- `enum class DaedalusOpcode` (`include/zenkit/DaedalusScript.hh:84-267`); `unknown` is any other byte. -/
inductive Op where
  | add | sub | mul | div | mod | or | andb | lt | gt | movi | orr | and | lsl | lsr | lte | eq | neq | gte
  | addmovi | submovi | mulmovi | divmovi | plus | negate | not | cmpl | nop | rsr | bl | be | pushi | pushv | pushvi
  | movs | movss | movvf | movf | movvi | b | bz | gmovi | pushvv
  | unknown (byte : Byte)
  deriving DecidableEq, Repr

/-- `static_cast<DaedalusOpcode>` with the values of the enumeration (`include/zenkit/DaedalusScript.hh:84-267`). -/
def Op.ofByte (v : Byte) : Op :=
  if v = 0 then .add else if v = 1 then .sub else if v = 2 then .mul else if v = 3 then .div else if v = 4 then .mod
  else if v = 5 then .or else if v = 6 then .andb else if v = 7 then .lt else if v = 8 then .gt else if v = 9 then .movi
  else if v = 11 then .orr else if v = 12 then .and else if v = 13 then .lsl else if v = 14 then .lsr
  else if v = 15 then .lte else if v = 16 then .eq else if v = 17 then .neq else if v = 18 then .gte
  else if v = 19 then .addmovi else if v = 20 then .submovi else if v = 21 then .mulmovi else if v = 22 then .divmovi
  else if v = 30 then .plus else if v = 31 then .negate else if v = 32 then .not else if v = 33 then .cmpl
  else if v = 45 then .nop else if v = 60 then .rsr else if v = 61 then .bl else if v = 62 then .be
  else if v = 64 then .pushi else if v = 65 then .pushv else if v = 67 then .pushvi else if v = 70 then .movs
  else if v = 71 then .movss else if v = 72 then .movvf else if v = 73 then .movf else if v = 74 then .movvi
  else if v = 75 then .b else if v = 76 then .bz else if v = 80 then .gmovi else if v = 245 then .pushvv
  else .unknown v

/-- `struct DaedalusInstruction` (`include/zenkit/DaedalusScript.hh:737-751`). -/
structure Instr where
  op : Op
  address : BitVec 32 := 0
  symbol : BitVec 32 := 0
  immediate : BitVec 32 := 0
  index : Byte := 0
  size : Nat := 1
  deriving DecidableEq, Repr

/-- `DaedalusInstruction::decode` (`src/DaedalusScript.cc:55-88`). -/
def decode : Rd Instr := do
  let c ← Rd.char
  let op := Op.ofByte c
  match op with
  | .bl | .bz | .b => let a ← Rd.u32; return { op := op, address := a, size := 1 + 4 }
  | .pushi => let i ← Rd.u32; return { op := op, immediate := i, size := 1 + 4 }
  | .be | .pushv | .pushvi | .gmovi => let y ← Rd.u32; return { op := op, symbol := y, size := 1 + 4 }
  | .pushvv =>
    let y ← Rd.u32
    let i ← Rd.char
    return { op := op, symbol := y, index := i, size := 1 + (4 + 1) }
  | _ => return { op := op }

/-- `DaedalusScript::instruction_at` (`src/DaedalusScript.cc:121-124`) on the text; the reader stands where the
previous instruction ended (`rest`), which matters only for addresses behind the text. -/
def instructionAt (text : Bytes) (rest : Nat) (address : Nat) : Except Fail (Instr × Nat) :=
  match (do Rd.seek address .beg; decode : Rd Instr) ⟨text, rest⟩ with
  | .ok (i, s) => .ok (i, s.pos)
  | .error e => .error e

/-! ## Data types and symbols -/

/-- `enum class DaedalusDataType` (`include/zenkit/DaedalusScript.hh:22-40`); `other` is any other value. -/
inductive DType where
  | void | float | int | string | class_ | function | prototype | instance | other
  deriving DecidableEq, Repr

/-- `static_cast<DaedalusDataType>`. -/
def DType.ofCode : Nat → DType
  | 0 => .void
  | 1 => .float
  | 2 => .int
  | 3 => .string
  | 4 => .class_
  | 5 => .function
  | 6 => .prototype
  | 7 => .instance
  | _ => .other

/-- `DaedalusSymbol::_m_value` (`include/zenkit/DaedalusScript.hh:709-713`). `none` for an array is the null pointer (the
variant holds one before it is assigned), `none` for an element is a value that was never initialised. -/
inductive SymVal where
  | ints (a : Option (List (Option (BitVec 32))))
  | floats (a : List (Option (BitVec 32)))
  | strs (a : List Bytes)
  | inst (p : Option Nat)
  deriving DecidableEq, Repr

/-- `class DaedalusSymbol` (`include/zenkit/DaedalusScript.hh:456-734`) without the source locations and
`_m_class_offset`. `registeredTo` stands for the `std::type_info`. -/
structure Sym where
  name : Bytes := []
  value : SymVal := .ints none
  address : BitVec 32 := BitVec.allOnes 32
  parent : BitVec 32 := BitVec.allOnes 32
  count : BitVec 32 := 0
  type : DType := .void
  flags : BitVec 32 := 0
  generated : Bool := false
  memberOffset : BitVec 32 := BitVec.allOnes 32
  classSize : BitVec 32 := BitVec.allOnes 32
  rtype : DType := .void
  index : BitVec 32 := BitVec.allOnes 32
  registeredTo : Option Nat := none
  deriving DecidableEq, Repr

namespace Sym

/-- `is_const`, `has_return`, `is_member`, `is_external`, `has_access_trap`, `has_local_variables_enabled`
(`include/zenkit/DaedalusScript.hh:568-612`) with the flags of lines 55-62. -/
def isConst (s : Sym) : Bool := s.flags.getLsbD 0
def hasReturn (s : Sym) : Bool := s.flags.getLsbD 1
def isMember (s : Sym) : Bool := s.flags.getLsbD 2
def isExternal (s : Sym) : Bool := s.flags.getLsbD 3
def hasAccessTrap (s : Sym) : Bool := s.flags.getLsbD 6
def hasLocals (s : Sym) : Bool := s.flags.getLsbD 7

end Sym

/-! ## Instances -/

/-- An object inside of the storage of an instance. -/
inductive Cell where
  | int (v : BitVec 32)
  | float (v : BitVec 32)
  | str (v : Bytes)
  deriving DecidableEq, Repr

/-- `class DaedalusInstance` (`include/zenkit/DaedalusScript.hh:273-303`): `_m_type`, `_m_symbol_index`, and the objects
in the memory `data()` points to, by offset. Accessing an offset at which no object of the type lives is undefined.
Transient instances (`DaedalusTransientInstance`), whose accessors belong to the user, are not modelled. -/
structure Inst where
  type : Option Nat
  symIndex : BitVec 32
  cells : List (Nat × Cell)
  deriving DecidableEq, Repr

/-- The object at an offset. -/
def cellAt (cells : List (Nat × Cell)) (off : Nat) : Option Cell :=
  match cells with
  | [] => none
  | (o, c) :: rest => if o = off then some c else cellAt rest off

/-- Assigns to the object at an offset. -/
def setCell (cells : List (Nat × Cell)) (off : Nat) (v : Cell) : List (Nat × Cell) :=
  match cells with
  | [] => []
  | (o, c) :: rest => if o = off then (o, v) :: rest else (o, c) :: setCell rest off v

namespace Sym

/-- `get_member_ptr` (`include/zenkit/DaedalusScript.hh:686-704`): the offset in the storage of the context. The sum is
32 bits wide. -/
def memberOff (s : Sym) (index : Nat) (size : Nat) (ctx : Inst) : Except Fail Nat :=
  match s.registeredTo with
  | none => .error (.throw .daedalusUnbound)
  | some r =>
    match ctx.type with
    | none => .error .ub
    | some t =>
      if r ≠ t then .error (.throw .daedalusContextType)
      else .ok (s.memberOffset + BitVec.ofNat 32 (index * size)).toNat

/-- `sizeof(std::string)` and `alignof(std::string)` of libstdc++ on 64-bit targets. -/
def strSize : Nat := 32
def strAlign : Nat := 8

/-- `DaedalusSymbol::get_int` (`src/DaedalusScript.cc:460-482`). -/
def getInt (s : Sym) (index : Nat) (ctx : Option Inst) : Except Fail (BitVec 32) :=
  if s.type ≠ .int ∧ s.type ≠ .function then .error (.throw .daedalusType)
  else if s.count.toNat ≤ index then .error (.throw .daedalusIndex)
  else if s.isMember then
    match ctx with
    | none => .error (.throw .daedalusNoContext)
    | some i =>
      match s.memberOff index 4 i with
      | .error e => .error e
      | .ok off =>
        match cellAt i.cells off with
        | some (.int v) => .ok v
        | _ => .error .ub
  else
    match s.value with
    | .ints (some a) =>
      match a[index]? with
      | some (some v) => .ok v
      | _ => .error .ub
    | .ints none => .error .ub
    | _ => .error (.throw .badVariantAccess)

/-- `DaedalusSymbol::get_float` (`src/DaedalusScript.cc:436-458`); for members the index is cut to eight bits. -/
def getFloat (s : Sym) (index : Nat) (ctx : Option Inst) : Except Fail (BitVec 32) :=
  if s.type ≠ .float then .error (.throw .daedalusType)
  else if s.count.toNat ≤ index then .error (.throw .daedalusIndex)
  else if s.isMember then
    match ctx with
    | none => .error (.throw .daedalusNoContext)
    | some i =>
      match s.memberOff (index % 256) 4 i with
      | .error e => .error e
      | .ok off =>
        match cellAt i.cells off with
        | some (.float v) => .ok v
        | _ => .error .ub
  else
    match s.value with
    | .floats a =>
      match a[index]? with
      | some (some v) => .ok v
      | _ => .error .ub
    | _ => .error (.throw .badVariantAccess)

/-- `DaedalusSymbol::get_string` (`src/DaedalusScript.cc:412-434`). -/
def getString (s : Sym) (index : Nat) (ctx : Option Inst) : Except Fail Bytes :=
  if s.type ≠ .string then .error (.throw .daedalusType)
  else if s.count.toNat ≤ index then .error (.throw .daedalusIndex)
  else if s.isMember then
    match ctx with
    | none => .error (.throw .daedalusNoContext)
    | some i =>
      match s.memberOff index strSize i with
      | .error e => .error e
      | .ok off =>
        match cellAt i.cells off with
        | some (.str v) => .ok v
        | _ => .error .ub
  else
    match s.value with
    | .strs a =>
      match a[index]? with
      | some v => .ok v
      | none => .error .ub
    | _ => .error (.throw .badVariantAccess)

/-- `DaedalusSymbol::set_int` (`src/DaedalusScript.cc:534-557`): the symbol and the context afterwards. -/
def setInt (s : Sym) (v : BitVec 32) (index : Nat) (ctx : Option Inst) : Except Fail (Sym × Option Inst) :=
  if s.type ≠ .int ∧ s.type ≠ .function then .error (.throw .daedalusType)
  else if s.count.toNat ≤ index then .error (.throw .daedalusIndex)
  else if s.isMember then
    match ctx with
    | none => .error (.throw .daedalusNoContext)
    | some i =>
      match s.memberOff index 4 i with
      | .error e => .error e
      | .ok off =>
        match cellAt i.cells off with
        | some (.int _) => .ok (s, some { i with cells := setCell i.cells off (.int v) })
        | _ => .error .ub
  else
    match s.value with
    | .ints (some a) =>
      if index < a.length then .ok ({ s with value := .ints (some (a.set index (some v))) }, ctx) else .error .ub
    | .ints none => .error .ub
    | _ => .error (.throw .badVariantAccess)

/-- `DaedalusSymbol::set_float` (`src/DaedalusScript.cc:509-532`). -/
def setFloat (s : Sym) (v : BitVec 32) (index : Nat) (ctx : Option Inst) : Except Fail (Sym × Option Inst) :=
  if s.type ≠ .float then .error (.throw .daedalusType)
  else if s.count.toNat ≤ index then .error (.throw .daedalusIndex)
  else if s.isMember then
    match ctx with
    | none => .error (.throw .daedalusNoContext)
    | some i =>
      match s.memberOff index 4 i with
      | .error e => .error e
      | .ok off =>
        match cellAt i.cells off with
        | some (.float _) => .ok (s, some { i with cells := setCell i.cells off (.float v) })
        | _ => .error .ub
  else
    match s.value with
    | .floats a =>
      if index < a.length then .ok ({ s with value := .floats (a.set index (some v)) }, ctx) else .error .ub
    | _ => .error (.throw .badVariantAccess)

/-- `DaedalusSymbol::set_string` (`src/DaedalusScript.cc:484-507`). -/
def setString (s : Sym) (v : Bytes) (index : Nat) (ctx : Option Inst) : Except Fail (Sym × Option Inst) :=
  if s.type ≠ .string then .error (.throw .daedalusType)
  else if s.count.toNat ≤ index then .error (.throw .daedalusIndex)
  else if s.isMember then
    match ctx with
    | none => .error (.throw .daedalusNoContext)
    | some i =>
      match s.memberOff index strSize i with
      | .error e => .error e
      | .ok off =>
        match cellAt i.cells off with
        | some (.str _) => .ok (s, some { i with cells := setCell i.cells off (.str v) })
        | _ => .error .ub
  else
    match s.value with
    | .strs a =>
      if index < a.length then .ok ({ s with value := .strs (a.set index v) }, ctx) else .error .ub
    | _ => .error (.throw .badVariantAccess)

/-- `DaedalusSymbol::get_instance` (`src/DaedalusScript.cc:559-565`). -/
def getInstance (s : Sym) : Except Fail (Option Nat) :=
  if s.type ≠ .instance then .error (.throw .daedalusType)
  else
    match s.value with
    | .inst p => .ok p
    | _ => .error (.throw .badVariantAccess)

/-- `DaedalusSymbol::set_instance` (`src/DaedalusScript.cc:567-573`). -/
def setInstance (s : Sym) (p : Option Nat) : Except Fail Sym :=
  if s.type ≠ .instance then .error (.throw .daedalusType)
  else
    match s.value with
    | .inst _ => .ok { s with value := .inst p }
    | _ => .error (.throw .badVariantAccess)

/-- `DaedalusSymbol::grow` (`src/DaedalusScript.cc:575-606`); the count is 32 bits wide. Elements behind the array are
never reached because the array has `count` elements. -/
def grow (s : Sym) (n : BitVec 32) : Except Fail Sym :=
  let total := (s.count + n).toNat
  match s.value with
  | .strs a => .ok { s with value := .strs (a ++ List.replicate (total - a.length) []), count := s.count + n }
  | .ints (some a) => .ok { s with value := .ints (some (a ++ List.replicate (total - a.length) (some 0))), count := s.count + n }
  | .ints none => .error .ub
  | .floats a => .ok { s with value := .floats (a ++ List.replicate (total - a.length) (some 0)), count := s.count + n }
  | .inst _ => .error (.throw .daedalusType)

end Sym

/-! ## The symbol table -/

/-- `toupper` in the C locale. -/
def toupper (c : Byte) : Byte := if 97 ≤ c ∧ c ≤ 122 then c - 32 else c

/-- The last index whose symbol satisfies a condition: what a map filled in the order of the table finds. -/
def lastIndex (p : Sym → Bool) : List Sym → Option Nat
  | [] => none
  | s :: rest =>
    match lastIndex p rest with
    | some i => some (i + 1)
    | none => if p s then some 0 else none

/-- `find_symbol_by_name` (`src/DaedalusScript.cc:133-142`) with the map filled by `load`
(`src/DaedalusScript.cc:105`). -/
def findByName (syms : List Sym) (name : Bytes) : Option Nat :=
  lastIndex (fun s => s.name == name.map toupper) syms

/-- What goes into `_m_symbols_by_address` (`src/DaedalusScript.cc:108-111`). -/
def hasCode (s : Sym) : Bool :=
  s.type == .prototype || s.type == .instance || (s.type == .function && s.isConst && !s.isMember)

/-- `find_symbol_by_address` (`src/DaedalusScript.cc:144-150`). -/
def findByAddress (syms : List Sym) (address : BitVec 32) : Option Nat :=
  lastIndex (fun s => hasCode s && s.address == address) syms

/-- `find_class_members` (`src/DaedalusScript.cc:218-227`). -/
def classMembers (syms : List Sym) (cls : Sym) : List Nat :=
  (List.range syms.length).filter fun i =>
    match syms[i]? with
    | some s => s.isMember && s.parent == cls.index
    | none => false

/-- `find_locals_for_function` (`src/DaedalusScript.cc:200-211`): the range of indices. A name of exactly the
length of the parent's has NUL behind its end. -/
def isLocalOf (parent name : Bytes) : Bool :=
  (parent.isPrefixOf name) && (name.drop parent.length).headD 0 == 46

def localsEnd (parent : Bytes) : List Sym → Nat → Option Nat
  | [], _ => none
  | s :: rest, i => if isLocalOf parent s.name then localsEnd parent rest (i + 1) else some i

/-- The locals: first index and number. -/
def findLocals (syms : List Sym) (f : Sym) : Nat × Nat :=
  let first := (f.index + 1 + f.count).toNat
  match localsEnd f.name (syms.drop first) first with
  | some last => (first, last - first)
  | none => (first, 0)

/-! ## Opaque instances -/

/-- One member of `register_as_opaque` (`src/DaedalusScript.cc:235-262`): its offset, and the size of the class
afterwards; 32 bits wide. -/
def layoutMember (size : BitVec 32) (m : Sym) : Option (BitVec 32) × BitVec 32 :=
  match m.type with
  | .string =>
    let remain := size.toNat % Sym.strAlign
    let start := size + BitVec.ofNat 32 (if remain = 0 then 0 else Sym.strAlign - remain)
    (some start, start + BitVec.ofNat 32 (Sym.strSize * m.count.toNat))
  | .other => (none, size)
  | _ => (some size, size + 4 * m.count)

/-- `register_as_opaque` (`src/DaedalusScript.cc:229-267`): the offsets of the members in order, and the size. -/
def layout : BitVec 32 → List Sym → List (Option (BitVec 32)) × BitVec 32
  | size, [] => ([], size)
  | size, m :: ms =>
    let (off, size) := layoutMember size m
    let (offs, size) := layout size ms
    (off :: offs, size)

/-- The members as `register_as_opaque` leaves them (`src/DaedalusScript.cc:229-267`); `typ` is the `std::type_info` of
`DaedalusOpaqueInstance`. -/
def registered (typ : Nat) : List Sym → List (Option (BitVec 32)) → List Sym
  | m :: ms, off :: offs =>
    { m with registeredTo := some typ, memberOffset := off.getD m.memberOffset } :: registered typ ms offs
  | _, _ => []

/-- The size, the alignment and the first value of the objects of a member (`src/DaedalusScript.cc:637-662`). -/
def memberObject : DType → Option (Nat × Nat × Cell)
  | .float => some (4, 4, .float 0)
  | .string => some (Sym.strSize, Sym.strAlign, .str [])
  | .other => none
  | _ => some (4, 4, .int 0)

/-- `real_offset` of `construct_at` (`src/DaedalusScript.cc:672-678`). -/
def alignUp (align o : Nat) : Nat := if o % align = 0 then o else o + (align - o % align)

/-- The objects for a list of offsets; writing behind the storage is undefined. -/
def constructAll (size : Nat) (sz al : Nat) (c : Cell) : List Nat → Except Fail (List (Nat × Cell))
  | [] => .ok []
  | o :: os =>
    if alignUp al o + sz ≤ size then
      match constructAll size sz al c os with
      | .ok cs => .ok ((alignUp al o, c) :: cs)
      | .error e => .error e
    else .error .ub

/-- The objects of one member (`src/DaedalusScript.cc:634-663`); the offset is 32 bits wide. -/
def constructMember (size : Nat) (m : Sym) : Except Fail (List (Nat × Cell)) :=
  match memberObject m.type with
  | none => .ok []
  | some (sz, al, c) =>
    constructAll size sz al c ((List.range m.count.toNat).map fun i => (m.memberOffset + BitVec.ofNat 32 (sz * i)).toNat)

/-- `DaedalusOpaqueInstance::DaedalusOpaqueInstance` (`src/DaedalusScript.cc:622-664`): the storage. -/
def construct (size : Nat) : List Sym → Except Fail (List (Nat × Cell))
  | [] => .ok []
  | m :: ms =>
    match constructMember size m with
    | .error e => .error e
    | .ok cs =>
      match construct size ms with
      | .ok ds => .ok (cs ++ ds)
      | .error e => .error e

end Verif.Daedalus
