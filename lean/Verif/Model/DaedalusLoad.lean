import Verif.Model.Daedalus

/-!
# Loading of compiled scripts

Model of `DaedalusScript::load`, `DaedalusSymbol::load` and the lookups in the loaded table (`src/DaedalusScript.cc:90-216`,
`289-410`). Both functions write into the object they are called on, so the model takes the former state. Not
modelled: running out of memory for the number of symbols a file announces, and the sort table, which is skipped.
-/

namespace Verif.Daedalus

/-- `class DaedalusSymbol` with the members `Sym` leaves out (`include/zenkit/DaedalusScript.hh:717-727`). -/
structure LSym where
  sym : Sym := {}
  classOffset : BitVec 32 := BitVec.allOnes 32
  fileIndex : BitVec 32 := 0
  lineStart : BitVec 32 := 0
  lineCount : BitVec 32 := 0
  charStart : BitVec 32 := 0
  charCount : BitVec 32 := 0
  deriving DecidableEq, Repr

/-- `zk_internal_escape` (`src/DaedalusScript.cc:289-306`). The byte behind the end is NUL. -/
def unescape : Bytes → Bytes
  | [] => []
  | 92 :: 110 :: r => 10 :: unescape r
  | 92 :: 116 :: r => 9 :: unescape r
  | c :: r => c :: unescape r

/-- `std::isspace` in the C locale. -/
def isSpace (c : BitVec 32) : Bool := c == 32 || (9 ≤ c && c ≤ 13)

/-- `new T[n]` for a four byte `T`, then `read` into it (`src/DaedalusScript.cc:342-353`): elements the file does not
reach are not initialised. An element of which only a part was read counts as not initialised. -/
def wordsOf (n : Nat) (bs : Bytes) : List (Option (BitVec 32)) :=
  (List.range n).map fun i => if 4 * i + 4 ≤ bs.length then some (decW 32 ((bs.drop (4 * i)).take 4)) else none

/-- What a name from the file sets (`src/DaedalusScript.cc:310-316`). -/
def LSym.setName (s : LSym) (n : Bytes) : LSym :=
  match n with
  | 255 :: r => { s with sym := { s.sym with name := 36 :: r, generated := true } }
  | _ => { s with sym := { s.sym with name := n } }

/-- The name (`src/DaedalusScript.cc:309-317`). Without one the former name stays. -/
def LSym.loadName (s : LSym) : Rd LSym := do
  let has ← Rd.u32
  if has = 0 then return s
  else do
    let n ← Rd.line false
    return s.setName n

/-- What the properties set (`src/DaedalusScript.cc:322-332`). -/
def LSym.setProps (s : LSym) (vary props : BitVec 32) : LSym :=
  let y := { s.sym with count := props &&& 0xFFF, type := DType.ofCode ((props >>> 12) &&& 0xF).toNat,
                        flags := (props >>> 16) &&& 0x3F }
  { s with sym :=
      if y.isMember then { y with memberOffset := vary }
      else if y.type = .class_ then { y with classSize := vary }
      else if y.type = .function then { y with rtype := DType.ofCode vary.toNat }
      else y }

/-- The properties (`src/DaedalusScript.cc:319-332`). -/
def LSym.loadProps (s : LSym) : Rd LSym := do
  let vary ← Rd.u32
  let props ← Rd.u32
  return s.setProps vary props

/-- The source location (`src/DaedalusScript.cc:334-338`). -/
def LSym.loadPlace (s : LSym) : Rd LSym := do
  let fi ← Rd.u32
  let ls ← Rd.u32
  let lc ← Rd.u32
  let cs ← Rd.u32
  let cc ← Rd.u32
  return { s with fileIndex := fi &&& 0x7FFFF, lineStart := ls &&& 0x7FFFF, lineCount := lc &&& 0x7FFFF,
                  charStart := cs &&& 0xFFFFFF, charCount := cc &&& 0xFFFFFF }

/-- The value (`src/DaedalusScript.cc:340-382`). -/
def LSym.loadValue (s : LSym) : Rd LSym :=
  let n := s.sym.count.toNat
  match s.sym.type with
  | .float => do
    let bs ← Rd.read (n * 4)
    return { s with sym := { s.sym with value := .floats (wordsOf n bs) } }
  | .int => do
    let bs ← Rd.read (n * 4)
    return { s with sym := { s.sym with value := .ints (some (wordsOf n bs)) } }
  | .string => do
    let ls ← Rd.times (do let l ← Rd.line false; return unescape l) n
    return { s with sym := { s.sym with value := .strs ls } }
  | .class_ => do
    let o ← Rd.u32
    return { s with classOffset := o }
  | .instance => do
    let a ← Rd.u32
    return { s with sym := { s.sym with value := .inst none, address := a } }
  | .function => do
    let a ← Rd.u32
    return { s with sym := { s.sym with value := if s.sym.isConst then s.sym.value else .ints (some [none]), address := a } }
  | .prototype => do
    let a ← Rd.u32
    return { s with sym := { s.sym with address := a } }
  | _ => return s

/-- The search for the parent -1 (`src/DaedalusScript.cc:393-401`): `n` attempts. -/
def seekParent : Nat → Rd Bool
  | 0 => return false
  | n + 1 => do
    Rd.seek (-3) .cur
    let v ← Rd.u32
    if v = BitVec.allOnes 32 then return true else seekParent n

/-- The heuristic (`src/DaedalusScript.cc:388-409`). When the search fails, the next four bytes are taken. -/
def searchParent : Rd (BitVec 32) := do
  let save ← Rd.tell
  let found ← seekParent 4
  if found then return BitVec.allOnes 32
  else do
    Rd.seek save .beg
    Rd.u32

/-- The parent (`src/DaedalusScript.cc:384-409`). -/
def LSym.loadParent (s : LSym) : Rd LSym := do
  let p ← Rd.u32
  if s.sym.type = .string ∧ s.sym.isMember = false ∧ s.sym.isConst = true ∧ isSpace (p &&& 0xFF) = true then do
    let p ← searchParent
    return { s with sym := { s.sym with parent := p } }
  else return { s with sym := { s.sym with parent := p } }

/-- `DaedalusSymbol::load` (`src/DaedalusScript.cc:308-410`). -/
def LSym.load (old : LSym) : Rd LSym := do
  let s ← old.loadName
  let s ← s.loadProps
  let s ← s.loadPlace
  let s ← (if s.sym.isMember then Pure.pure s else s.loadValue)
  s.loadParent

/-- `class DaedalusScript` (`include/zenkit/DaedalusScript.hh:954-959`). The maps are lists with the latest assignment
first. -/
structure Script where
  version : BitVec 8 := 0
  syms : List LSym := []
  byName : List (Bytes × Nat) := []
  byAddress : List (BitVec 32 × Nat) := []
  text : Option Bytes := none
  deriving DecidableEq, Repr

/-- `std::vector::resize`. -/
def resized (old : List LSym) (n : Nat) : List LSym := old.take n ++ List.replicate (n - old.length) { : LSym }

/-- What the loop does with a symbol (`src/DaedalusScript.cc:102-111`). -/
def Script.enter (sc : Script) (i : Nat) (s : LSym) : Script :=
  let s := { s with sym := { s.sym with index := BitVec.ofNat 32 i } }
  { sc with syms := sc.syms ++ [s], byName := (s.sym.name, i) :: sc.byName,
            byAddress := if hasCode s.sym then (s.sym.address, i) :: sc.byAddress else sc.byAddress }

/-- The loop over the symbols (`src/DaedalusScript.cc:101-112`); `olds` are the elements not yet loaded. -/
def Script.loadSyms (sc : Script) : Nat → List LSym → Rd Script
  | _, [] => return sc
  | i, old :: olds => do
    let s ← old.load
    (sc.enter i s).loadSyms (i + 1) olds

/-- `DaedalusScript::load` (`src/DaedalusScript.cc:90-119`). -/
def Script.load (sc : Script) : Rd Script := do
  let v ← Rd.u8
  let n ← Rd.u32
  Rd.seek (n.toNat * 4) .cur
  let sc ← ({ sc with version := v, syms := [] } : Script).loadSyms 0 (resized sc.syms n.toNat)
  let k ← Rd.u32
  let code ← Rd.readPadded k.toNat
  return { sc with text := some code }

/-- `unordered_map::find`. -/
def assoc {α} [DecidableEq α] (k : α) : List (α × Nat) → Option Nat
  | [] => none
  | (a, i) :: r => if a = k then some i else assoc k r

/-- `find_symbol_by_index` (`src/DaedalusScript.cc:126-131`). -/
def Script.findByIndex (sc : Script) (i : Nat) : Option LSym := sc.syms[i]?

/-- `find_symbol_by_name` (`src/DaedalusScript.cc:133-142`). -/
def Script.findByName (sc : Script) (name : Bytes) : Option LSym :=
  (assoc (name.map toupper) sc.byName).bind sc.findByIndex

/-- `find_symbol_by_address` (`src/DaedalusScript.cc:144-150`). -/
def Script.findByAddress (sc : Script) (a : BitVec 32) : Option LSym :=
  (assoc a sc.byAddress).bind sc.findByIndex

/-- The loop of `enumerate_instances_by_class_name` (`src/DaedalusScript.cc:183-192`): the symbols passed to the
callback, which does not change the table here. -/
def enumLoop (cls : BitVec 32) (protos : List (BitVec 32)) : List LSym → List LSym
  | [] => []
  | s :: r =>
    if s.sym.type = .prototype ∧ s.sym.parent = cls then enumLoop cls (protos ++ [s.sym.index]) r
    else if s.sym.type = .instance ∧ s.sym.isConst = true ∧ (s.sym.parent ∈ protos ∨ s.sym.parent = cls) then
      s :: enumLoop cls protos r
    else enumLoop cls protos r

/-- `enumerate_instances_by_class_name` (`src/DaedalusScript.cc:178-193`). -/
def Script.enumerate (sc : Script) (name : Bytes) : List LSym :=
  match sc.findByName name with
  | none => []
  | some cls => enumLoop cls.sym.index [] sc.syms

/-- `find_parameters_for_function` (`src/DaedalusScript.cc:195-198`): a range that leaves the table is undefined. -/
def Script.parameters (sc : Script) (f : LSym) : Except Fail (List LSym) :=
  let first := f.sym.index.toNat + 1
  let n := f.sym.count.toNat
  if first + n ≤ sc.syms.length then .ok ((sc.syms.drop first).take n) else .error .ub

/-- The loop of `find_locals_for_function` (`src/DaedalusScript.cc:202-209`): `none` when it does not find the end. -/
def localsLoop (f : Bytes) : List LSym → Option (List LSym)
  | [] => none
  | s :: r => if isLocalOf f s.sym.name then (localsLoop f r).map (s :: ·) else some []

/-- `find_locals_for_function` (`src/DaedalusScript.cc:200-211`). -/
def Script.locals (sc : Script) (f : LSym) : List LSym :=
  (localsLoop f.sym.name (sc.syms.drop (f.sym.index + 1 + f.sym.count).toNat)).getD []

end Verif.Daedalus
