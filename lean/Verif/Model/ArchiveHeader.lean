import Verif.Model.ArchiveBinsafe

/-!
# Archive headers

Model of `ArchiveHeader::load`, `ReadArchive::from` (`src/Archive.cc`) and the `write_header`/`read_header`
functions of the three formats.
-/

namespace Verif.Ar

/-- `enum class ArchiveFormat` (`include/zenkit/Archive.hh:19-27`). -/
inductive Fmt where
  | binary
  | binsafe
  | ascii
  deriving DecidableEq, Repr

/-- What `write_header` takes from its environment: the formatted date and the name of the user. -/
structure Env where
  date : Bytes
  user : Bytes
  deriving DecidableEq, Repr

def Fmt.archiver : Fmt → Bytes
  | .binsafe => b!"zCArchiverBinSafe"
  | _ => b!"zCArchiverGeneric"

def Fmt.name : Fmt → Bytes
  | .binary => b!"BINARY"
  | .binsafe => b!"BIN_SAFE"
  | .ascii => b!"ASCII"

/-- The lines all formats share (`src/archive/ArchiveBinary.cc:249-258`, `src/archive/ArchiveBinsafe.cc:414-423`,
`src/archive/ArchiveAscii.cc:433-442`). -/
def writeLines (fmt : Fmt) (save : Bool) (e : Env) (w : Ws) : Ws :=
  let w := w.line b!"ZenGin Archive"
  let w := w.line b!"ver 1"
  let w := w.line fmt.archiver
  let w := w.line fmt.name
  let w := w.line (if save then b!"saveGame 1" else b!"saveGame 0")
  let w := (w.string b!"date ").line e.date
  let w := (w.string b!"user ").line e.user
  w.line b!"END"

/-- The number of objects, printed with `std::to_chars` into a field of `width` spaces, of which `limit` may be
used (`src/archive/ArchiveBinary.cc:260-262`, `src/archive/ArchiveAscii.cc:444-446`). Simplification: a number that
does not fit leaves the field empty; the standard leaves its content unspecified. -/
def countField (limit width : Nat) (n : BitVec 32) : Bytes :=
  let digits := dec n.toNat
  if digits.length ≤ limit then digits ++ List.replicate (width - digits.length) 32 else List.replicate width 32

/-- `WriteArchiveBinary::write_header` and `WriteArchiveAscii::write_header`
(`src/archive/ArchiveBinary.cc:235-271`, `src/archive/ArchiveAscii.cc:419-455`). -/
def writeCountHeader (fmt : Fmt) (limit width : Nat) (head : Nat) (save : Bool) (e : Env) (index : BitVec 32)
    (w : Ws) : Ws :=
  let cur := w.pos
  let w := w.seek head .beg
  let w := writeLines fmt save e w
  let w := (w.string b!"objects ").line (countField limit width index)
  let w := w.line b!"END\n"
  if cur ≠ head then w.seek cur .beg else w

/-- `WriteArchiveBinary::write_header`. -/
def Bin.writeHeader : Nat → Bool → Env → BitVec 32 → Ws → Ws := writeCountHeader .binary 9 10

/-- `WriteArchiveBinsafe::write_header` (`src/archive/ArchiveBinsafe.cc:400-457`). -/
def Bs.writeHeader (head : Nat) (save : Bool) (e : Env) (index : BitVec 32) (keys : Bs.Keys) (w : Ws) : Ws :=
  let cur := w.pos
  let w := w.seek head .beg
  let w := writeLines .binsafe save e w
  let w := ((w.u32 2).u32 index).u32 (BitVec.ofNat 32 cur)
  let cur' := if cur ≠ head then cur else w.pos
  let w := if cur ≠ head then w.seek cur .beg else w
  let w := Bs.writeTable keys w
  w.seek cur' .beg

/-- `ArchiveHeader` (`include/zenkit/Archive.hh:38-66`). -/
structure Header where
  version : Int
  archiver : Bytes
  format : Fmt
  save : Bool
  date : Bytes
  user : Bytes
  deriving DecidableEq, Repr

/-- `std::stoi` as used by the headers: `std::invalid_argument` is turned into a `ParserError`, while
`std::out_of_range` is not caught. -/
def stoi (s : Bytes) : Rd Int :=
  match strtol s with
  | none => Rd.fail (.throw .parser)
  | some (i, _) => if -2 ^ 31 ≤ i ∧ i < 2 ^ 31 then return i else Rd.fail (.throw .stdConversion)

/-- `s.substr(s.find(' ') + 1)` -/
def afterSpace (s : Bytes) : Bytes := (s.dropWhile (· != 32)).drop 1

/-- `ArchiveHeader::load` (`src/Archive.cc:182-232`). An unknown format name leaves the value-initialised format,
`BINARY`. -/
def loadHeader : Rd Header := do
  if (← Rd.line true) != b!"ZenGin Archive" then Rd.fail (.throw .parser)
  else
  let ver ← Rd.line true
  if !b!"ver ".isPrefixOf ver then Rd.fail (.throw .parser)
  else
  let version ← stoi (afterSpace ver)
  if version != 1 then Rd.fail (.throw .parser)
  else
  let archiver ← Rd.line true
  let fmt ← Rd.line true
  let format := if fmt == b!"ASCII" then Fmt.ascii else if fmt == b!"BINARY" then .binary
    else if fmt == b!"BIN_SAFE" then .binsafe else .binary
  let sg ← Rd.line true
  if !b!"saveGame ".isPrefixOf sg then Rd.fail (.throw .parser)
  else
  let save ← stoi (afterSpace sg)
  let opt ← Rd.line true
  let (date, opt) ← if b!"date ".isPrefixOf opt then (do return (afterSpace opt, ← Rd.line true)) else pure ([], opt)
  let (user, opt) ← if b!"user ".isPrefixOf opt then (do return (afterSpace opt, ← Rd.line true)) else pure ([], opt)
  if opt != b!"END" then Rd.fail (.throw .parser)
  else return ⟨version, archiver, format, save != 0, date, user⟩

/-- `ReadArchiveBinary::read_header` and `ReadArchiveAscii::read_header` (`src/archive/ArchiveBinary.cc:11-28`,
`src/archive/ArchiveAscii.cc:17-34`): `ignore` are the characters ignored behind `END`. -/
def readCountHeader (ignore : Bytes) : Rd Int := do
  let objects ← Rd.line true
  if !b!"objects ".isPrefixOf objects then Rd.fail (.throw .parser)
  else
  let n ← stoi (afterSpace objects)
  if (← Rd.lineThenIgnore ignore) != b!"END" then Rd.fail (.throw .parser)
  else return n

/-- What `ReadArchive::from` (`src/Archive.cc:234-253`) finds in front of the content. -/
structure Opened where
  header : Header
  /-- `_m_objects` (BINARY, ASCII) or `_m_object_count` (BINSAFE) -/
  count : Int
  /-- `_m_hash_table_entries` (BINSAFE) -/
  table : List (Bytes × BitVec 32)
  deriving DecidableEq, Repr

/-- `ReadArchive::from` (`src/Archive.cc:234-253`). -/
def openArchive : Rd Opened := do
  let h ← loadHeader
  match h.format with
  | .ascii => return ⟨h, ← readCountHeader Rd.lineSpaces, []⟩
  | .binary => return ⟨h, ← readCountHeader [10], []⟩
  | .binsafe => do
    let (_, count, es) ← Bs.readHeader
    return ⟨h, count.toNat, es⟩

end Verif.Ar
