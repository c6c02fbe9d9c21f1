import Verif.Model.ArchiveHeader
import Verif.Base.Float

/-!
# ASCII archives

Model of `src/archive/ArchiveAscii.cc`. Every entry is a line `name=type:value`, every object is enclosed by the lines
`[name class version index]` and `[]`; lines are indented with tabs.
-/

namespace Verif.Ar.Asc

/-- State of `WriteArchiveAscii` (`src/archive/ArchiveAscii.hh:75-79`) without `_m_head`. -/
structure Wr where
  ws : Ws
  /-- `_m_index` -/
  index : BitVec 32
  /-- `_m_indent` -/
  indent : BitVec 32
  /-- What `std::to_chars` leaves in its buffer when a number does not fit; the standard does not say. -/
  junk : Bytes
  deriving DecidableEq, Repr

/-- `intosv` (`src/archive/ArchiveAscii.cc:248-253`): the text of a number printed into a buffer of `size` characters.
When it does not fit `std::to_chars` returns the end of the buffer, whose content is unspecified. -/
def intosv (size : Nat) (junk text : Bytes) : Bytes :=
  if text.length ≤ size then text else (junk ++ List.replicate size 0).take size

/-- A hexadecimal digit as printed by `std::to_chars`. -/
def hexDigit (n : Nat) : Byte := UInt8.ofNat (if n < 10 then 48 + n else 87 + n)

/-- The loop of `write_raw` (`src/archive/ArchiveAscii.cc:374-386`) with the content of `buf[1]`, which is not reset
between bytes: a byte below 16 only stores `buf[0]`. -/
def hexText : Byte → Bytes → Bytes
  | _, [] => []
  | buf1, b :: bs =>
    let n := b.toNat
    let (c0, c1) := if n < 16 then (hexDigit n, buf1) else (hexDigit (n / 16), hexDigit (n % 16))
    (if c1 = 0 then [48, c0] else [c0, c1]) ++ hexText c1 bs

/-- `write_raw_float` (`src/archive/ArchiveAscii.cc:391-402`) behind the colon. -/
def floatsText (vs : List F32) : Bytes := (vs.map (fun v => FText.print v ++ [32])).flatten

/-- The type and the text of a value (`src/archive/ArchiveAscii.cc:301-402`). The components of a matrix are
transposed first. -/
def valText (junk : Bytes) : Val → Bytes × Bytes
  | .string v => (b!"string", v)
  | .int v => (b!"int", intosv 10 junk (decInt v.toInt))
  | .float v => (b!"float", FText.print v)
  | .byte v => (b!"byte", intosv 3 junk (dec v.toNat))
  | .word v => (b!"word", intosv 5 junk (dec v.toNat))
  | .enum v => (b!"enum", intosv 10 junk (dec v.toNat))
  | .bool v => (b!"bool", if v then b!"1" else b!"0")
  | .color v => (b!"color", dec v.r.toNat ++ 32 :: (dec v.g.toNat ++ 32 :: (dec v.b.toNat ++ 32 :: dec v.a.toNat)))
  | .vec3 v => (b!"vec3", FText.print v.x ++ 32 :: (FText.print v.y ++ 32 :: FText.print v.z))
  | .vec2 v => (b!"rawFloat", floatsText [v.x, v.y])
  | .bbox v => (b!"rawFloat", floatsText [v.min.x, v.min.y, v.min.z, v.max.x, v.max.y, v.max.z])
  | .mat3 v =>
    let t := v.transpose
    (b!"rawFloat", floatsText [t.c0.x, t.c0.y, t.c0.z, t.c1.x, t.c1.y, t.c1.z, t.c2.x, t.c2.y, t.c2.z])
  | .raw v => (b!"raw", hexText 0 (v.take (v.length % 65536)))

/-- `write_indent` (`src/archive/ArchiveAscii.cc:413-417`). -/
def writeIndent (n : BitVec 32) (w : Ws) : Ws := w.write (List.replicate n.toNat 9)

/-- `write_entry` (`src/archive/ArchiveAscii.cc:404-411`); `write_raw` and `write_raw_float` write the same way. -/
def writeEntry (name type value : Bytes) (w : Wr) : Wr :=
  let ws := writeIndent w.indent w.ws
  let ws := (((ws.string name).string b!"=").string type).string b!":"
  { w with ws := ws.line value }

/-- `write_object_begin` (`src/archive/ArchiveAscii.cc:255-276`). -/
def objBegin (name cls : Bytes) (version : BitVec 16) (w : Wr) : Wr :=
  let ws := writeIndent w.indent w.ws
  let e := emptyClass cls
  let ws := ((ws.string b!"[").string name).string b!" "
  let ws := (ws.string (if e then nullClass else cls)).string b!" "
  let ws := (ws.string (intosv 10 w.junk (dec version.toNat))).string b!" "
  let ws := (ws.string (intosv 10 w.junk (dec (if e then 0 else w.index).toNat))).string b!"]"
  { w with ws := ws.string b!"\n", index := if e then w.index else w.index + 1, indent := w.indent + 1 }

/-- `write_object_end` (`src/archive/ArchiveAscii.cc:278-283`). -/
def objEnd (w : Wr) : Wr :=
  { w with ws := (writeIndent (w.indent - 1) w.ws).line b!"[]", indent := w.indent - 1 }

/-- `write_ref` (`src/archive/ArchiveAscii.cc:285-299`). -/
def ref (name : Bytes) (index : BitVec 32) (w : Wr) : Wr :=
  let ws := writeIndent w.indent w.ws
  let ws := ((ws.string b!"[").string name).string (b!" " ++ refClass ++ b!" 0 ")
  let ws := ((ws.string (intosv 10 w.junk (dec index.toNat))).string b!"]").string b!"\n"
  { w with ws := (writeIndent w.indent ws).line b!"[]" }

/-- One call of the writer. -/
def call (w : Wr) : Call → Wr
  | .begin n c v => objBegin n c v w
  | .finish => objEnd w
  | .ref n i => ref n i w
  | .val n v => writeEntry n (valText w.junk v).1 (valText w.junk v).2 w

def calls (w : Wr) (cs : List Call) : Wr := cs.foldl call w

/-- `%127s` of `sscanf`. -/
def scanStr (s : Bytes) : Option (Bytes × Bytes) :=
  let t := s.dropWhile isSpace
  let tok := (t.takeWhile (fun c => !isSpace c)).take 127
  if tok.isEmpty then none else some (tok, t.drop tok.length)

/-- `%u` of `sscanf`, read as `unsigned long` and truncated to the size of the variable. -/
def scanUns (s : Bytes) : Option (BitVec 64 × Bytes) :=
  match strtol s with
  | none => none
  | some (i, r) => some (if i.natAbs < 2 ^ 64 then BitVec.ofInt 64 i else BitVec.allOnes 64, r)

/-- `sscanf(line, "[%127s %127s %hu %u]", ...)` with four results (`src/archive/ArchiveAscii.cc:52-53`). -/
def scanHdr (line : Bytes) : Option Hdr :=
  match line with
  | c :: r =>
    if c != 91 then none
    else match scanStr r with
    | none => none
    | some (name, r) =>
      match scanStr r with
      | none => none
      | some (cls, r) =>
        match scanUns r with
        | none => none
        | some (version, r) =>
          match scanUns r with
          | none => none
          | some (index, _) => some ⟨name, cls, version.truncate 16, index.truncate 32⟩
  | [] => none

/-- `read_object_begin` (`src/archive/ArchiveAscii.cc:36-62`). -/
def readObjBegin : Rd (Option Hdr) := do
  if ← Rd.eof then return none
  let mark ← Rd.tell
  let line ← Rd.line true
  match (if line.length ≤ 2 then none else scanHdr line) with
  | none =>
    Rd.seek mark .beg
    return none
  | some h => return some h

/-- `read_object_end` (`src/archive/ArchiveAscii.cc:64-88`). -/
def readObjEnd : Rd Bool := do
  if ← Rd.eof then return false
  let mark ← Rd.tell
  let line ← Rd.line true
  if line.dropWhile isSpace != b!"[]" then
    Rd.seek mark .beg
    return false
  return true

/-- `s.substr(s.find(c) + 1)`: all of `s` when `c` is not found. -/
def afterChar (c : Byte) (s : Bytes) : Bytes := if c ∈ s then (s.dropWhile (· != c)).drop 1 else s

/-- `read_entry` (`src/archive/ArchiveAscii.cc:90-101`). -/
def readEntry (type : Bytes) : Rd Bytes := do
  let line ← Rd.line true
  let line := afterChar 61 line
  if line.takeWhile (· != 58) != type then Rd.fail (.throw .parser)
  else return afterChar 58 line

/-- `std::stoul`, turned into a `ParserError` when there is no number. -/
def stoul (s : Bytes) : Rd (BitVec 64) :=
  match strtol s with
  | none => Rd.fail (.throw .parser)
  | some (i, _) => if i.natAbs < 2 ^ 64 then return BitVec.ofInt 64 i else Rd.fail (.throw .stdConversion)

/-- `std::stof`, turned into a `ParserError` when there is no number. -/
def stof (s : Bytes) : Rd F32 :=
  match (FText.strtof s).1 with
  | .invalid => Rd.fail (.throw .parser)
  | .overflow _ => Rd.fail (.throw .stdConversion)
  | .num v underflow => if underflow then Rd.fail (.throw .stdConversion) else return v

/-- `stream >> x` of an `uint16_t`: its value and the rest, `none` when the stream failed. A `none` value means that
`x` was not written. -/
def extractU16 (s : Bytes) : Option (BitVec 16) × Option Bytes :=
  if (s.dropWhile isSpace).isEmpty then (none, none)
  else match strtol s with
  | none => (some 0, none)
  | some (i, r) => if i.natAbs < 65536 then (some (BitVec.ofInt 16 i), some r) else (some 65535, none)

/-- `in >> r >> g >> b >> a` (`src/archive/ArchiveAscii.cc:159-163`); `none` when one of the variables, which are not
initialised, was not written. -/
def extractColor (s : Bytes) : Option Color :=
  match extractU16 s with
  | (some r, some s) =>
    match extractU16 s with
    | (some g, some s) =>
      match extractU16 s with
      | (some b, some s) =>
        match extractU16 s with
        | (some a, _) => some ⟨r.truncate 8, g.truncate 8, b.truncate 8, a.truncate 8⟩
        | (none, _) => none
      | _ => none
    | _ => none
  | _ => none

/-- `n` extractions of a `float` into variables that hold zero. -/
def extractFloats : Nat → Option Bytes → List F32
  | 0, _ => []
  | n + 1, none => 0 :: extractFloats n none
  | n + 1, some s => (FText.extract s).1 :: extractFloats n (FText.extract s).2

/-- The value of a hexadecimal digit for `std::from_chars`. -/
def hexVal (c : Byte) : Option Nat :=
  if 48 ≤ c ∧ c ≤ 57 then some (c.toNat - 48)
  else if 97 ≤ c ∧ c ≤ 102 then some (c.toNat - 87)
  else if 65 ≤ c ∧ c ≤ 70 then some (c.toNat - 55)
  else none

/-- `std::from_chars(p, p + 2, x, 16)` on an `x` that holds zero. -/
def hexPair (a b : Byte) : Byte :=
  match hexVal a with
  | none => 0
  | some x =>
    match hexVal b with
    | none => UInt8.ofNat x
    | some y => UInt8.ofNat (x * 16 + y)

/-- The bytes of a `raw` entry; a last single character is left out. -/
def unhex : Bytes → Bytes
  | a :: b :: rest => hexPair a b :: unhex rest
  | _ => []

/-- The typed `read_*` functions (`src/archive/ArchiveAscii.cc:103-241`). Simplification: in `mat3`, bytes given by
invalid hexadecimal digits are zero; in C++ they keep what the uninitialised variable held. -/
def readVal : Kind → Rd Val
  | .string => do return .string (← readEntry b!"string")
  | .int => do return .int (BitVec.ofInt 32 (← stoi (← readEntry b!"int")))
  | .float => do return .float (← stof (← readEntry b!"float"))
  | .byte => do return .byte ((← stoul (← readEntry b!"int")).truncate 8)
  | .word => do return .word ((← stoul (← readEntry b!"int")).truncate 16)
  | .enum => do return .enum ((← stoul (← readEntry b!"enum")).truncate 32)
  | .bool => do return .bool ((← stoul (← readEntry b!"bool")) != 0)
  | .color => do
    match extractColor (← readEntry b!"color") with
    | some c => return .color c
    | none => Rd.fail .ub
  | .vec3 => do
    match extractFloats 3 (some (← readEntry b!"vec3")) with
    | [x, y, z] => return .vec3 ⟨x, y, z⟩
    | _ => Rd.fail .ub
  | .vec2 => do
    match extractFloats 2 (some (← readEntry b!"rawFloat")) with
    | [x, y] => return .vec2 ⟨x, y⟩
    | _ => Rd.fail .ub
  | .bbox => do
    match extractFloats 6 (some (← readEntry b!"rawFloat")) with
    | [a, b, c, d, e, f] => return .bbox ⟨⟨a, b, c⟩, ⟨d, e, f⟩⟩
    | _ => Rd.fail .ub
  | .mat3 => do
    let text ← readEntry b!"raw"
    if text.length < 72 then Rd.fail (.throw .parser)
    else
      let bs := unhex text
      let f i : F32 := decW 32 ((bs.drop (4 * i)).take 4)
      return .mat3 (Mat3.transpose ⟨⟨f 0, f 1, f 2⟩, ⟨f 3, f 4, f 5⟩, ⟨f 6, f 7, f 8⟩⟩)
  | .raw n => do
    let text ← readEntry b!"raw"
    if text.length / 2 < n then Rd.fail (.throw .parser) else return .raw (unhex text)

/-- One round of the loop of `ReadArchive::skip_object` (`src/Archive.cc:534-540`): how the level changes.
`skip_entry` reads a line (`src/archive/ArchiveAscii.cc:182-184`). -/
def skipStep : Rd Int := do
  match ← readObjBegin with
  | some _ => return 1
  | none =>
    if ← readObjEnd then return -1
    else
      let _ ← Rd.line true
      return 0

/-- The loop of `ReadArchive::skip_object` (`src/Archive.cc:533-541`). -/
def skipLoop : Nat → Int → Rd Unit
  | 0, _ => Rd.fail .hang
  | fuel + 1, level => do
    let d ← skipStep
    if level + d > 0 then skipLoop fuel (level + d) else return ()

/-- `ReadArchive::skip_object` (`src/Archive.cc:529-542`). Every round that does not stay at the end of the file reads
at least one character. -/
def skipObj (current : Bool) : Rd Unit := fun s =>
  skipLoop (s.data.length - s.pos + 2) (if current then 1 else 0) s

/-- `ReadArchiveAscii` as a reader. -/
def reader : Reader Rs where
  objBegin := readObjBegin
  objEnd := readObjEnd
  val := readVal
  skipObj := skipObj

/-- `WriteArchiveAscii::write_header` (`src/archive/ArchiveAscii.cc:419-455`). -/
def writeHeader : Nat → Bool → Env → BitVec 32 → Ws → Ws := writeCountHeader .ascii 10 11

end Verif.Ar.Asc
