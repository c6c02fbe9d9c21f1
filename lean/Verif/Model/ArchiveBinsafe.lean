import Verif.Model.Archive

/-!
# BINSAFE archives

Model of `src/archive/ArchiveBinsafe.cc`. Every entry carries its type and a number that stands for its name;
the names are stored in a table behind the content.
-/

namespace Verif.Ar.Bs

/-- `enum class ArchiveEntryType` (`include/zenkit/Archive.hh:94-106`). -/
def tSTRING : BitVec 8 := 0x1
def tINTEGER : BitVec 8 := 0x2
def tFLOAT : BitVec 8 := 0x3
def tBYTE : BitVec 8 := 0x4
def tWORD : BitVec 8 := 0x5
def tBOOL : BitVec 8 := 0x6
def tVEC3 : BitVec 8 := 0x7
def tCOLOR : BitVec 8 := 0x8
def tRAW : BitVec 8 := 0x9
def tRAW_FLOAT : BitVec 8 := 0x10
def tENUM : BitVec 8 := 0x11
def tHASH : BitVec 8 := 0x12

/-! ## Writing -/

/-- `_m_hash_keys` in the order of insertion (`src/archive/ArchiveBinsafe.hh:125`): a map from names to
`uint16_t`. -/
abbrev Keys := List (Bytes × BitVec 16)

/-- `std::map::find`. -/
def Keys.find (ks : Keys) (name : Bytes) : Option (BitVec 16) :=
  (List.find? (fun p => p.1 == name) ks).map (·.2)

/-- State of `WriteArchiveBinsafe` without `_m_head`. -/
structure Wr where
  ws : Ws
  /-- `_m_index` -/
  index : BitVec 32
  keys : Keys
  deriving DecidableEq, Repr

/-- `write_entry` (`src/archive/ArchiveBinsafe.cc:459-472`): a new name is written with the size of the map and
stored with that size truncated to 16 bits. -/
def writeEntry (name : Bytes) (type : BitVec 8) (w : Wr) : Wr :=
  let ws := w.ws.u8 tHASH
  match w.keys.find name with
  | none =>
    { w with ws := (ws.u32 (BitVec.ofNat 32 w.keys.length)).u8 type,
             keys := w.keys ++ [(name, BitVec.ofNat 16 w.keys.length)] }
  | some k => { w with ws := (ws.u32 (k.zeroExtend 32)).u8 type }

/-- `write_raw(name, ptr, length)` (`src/archive/ArchiveBinsafe.cc:388-392`) behind the entry head, for
`length = v.size()` truncated to 16 bits (`src/archive/ArchiveBinsafe.cc:384-386`). -/
def writeBlob (v : Bytes) (w : Ws) : Ws :=
  let length := BitVec.ofNat 16 v.length
  (w.u16 length).write (v.take length.toNat)

/-- The typed `write_*` functions (`src/archive/ArchiveBinsafe.cc:321-398`). -/
def writeVal (name : Bytes) (v : Val) (w : Wr) : Wr :=
  match v with
  | .string v =>
    let w := writeEntry name tSTRING w
    { w with ws := (w.ws.u16 (BitVec.ofNat 16 v.length)).string v }
  | .int v => let w := writeEntry name tINTEGER w; { w with ws := w.ws.u32 v }
  | .float v => let w := writeEntry name tFLOAT w; { w with ws := w.ws.f32 v }
  | .byte v => let w := writeEntry name tBYTE w; { w with ws := w.ws.u8 v }
  | .word v => let w := writeEntry name tWORD w; { w with ws := w.ws.u16 v }
  | .enum v => let w := writeEntry name tENUM w; { w with ws := w.ws.u32 v }
  | .bool v => let w := writeEntry name tBOOL w; { w with ws := w.ws.u32 (if v then 1 else 0) }
  | .color v => let w := writeEntry name tCOLOR w; { w with ws := w.ws.colorBgra v }
  | .vec3 v => let w := writeEntry name tVEC3 w; { w with ws := w.ws.vec3 v }
  | .vec2 v => let w := writeEntry name tRAW_FLOAT w; { w with ws := (w.ws.u16 8).write v.mem }
  | .bbox v =>
    let w := writeEntry name tRAW_FLOAT w
    { w with ws := (w.ws.u16 24).write (v.min.mem ++ v.max.mem) }
  | .mat3 v => let w := writeEntry name tRAW w; { w with ws := writeBlob v.transpose.mem w.ws }
  | .raw v => let w := writeEntry name tRAW w; { w with ws := writeBlob v w.ws }

/-- A C string printed with `%.127s`. Simplification: the `string_view` is followed by a NUL. -/
def cstr127 (s : Bytes) : Bytes := (s.takeWhile (· != 0)).take 127

/-- The text printed with `"[%.127s %.127s %d %d]"` (`src/archive/ArchiveBinsafe.cc:287-293, 311`); it always fits
the buffer. The index is printed as a signed number. -/
def hdrText (name cls : Bytes) (version : BitVec 16) (index : BitVec 32) : Bytes :=
  [91] ++ cstr127 name ++ [32] ++ cstr127 cls ++ [32] ++ decInt version.toNat ++ [32] ++ decInt index.toInt ++ [93]

/-- A `STRING` outside of an entry: object begin and end. -/
def writeMark (text : Bytes) (w : Ws) : Ws :=
  ((w.u8 tSTRING).u16 (BitVec.ofNat 16 text.length)).string text

/-- `write_object_begin` (`src/archive/ArchiveBinsafe.cc:280-299`). -/
def objBegin (name cls : Bytes) (version : BitVec 16) (w : Wr) : Wr :=
  let text := hdrText name (if cls.isEmpty then nullClass else cls) version (if emptyClass cls then 0 else w.index)
  { w with ws := writeMark text w.ws, index := if emptyClass cls then w.index else w.index + 1 }

/-- `write_object_end` (`src/archive/ArchiveBinsafe.cc:301-305`). -/
def objEnd (w : Wr) : Wr := { w with ws := writeMark b!"[]" w.ws }

/-- `write_ref` (`src/archive/ArchiveBinsafe.cc:307-319`). -/
def ref (name : Bytes) (index : BitVec 32) (w : Wr) : Wr :=
  { w with ws := writeMark b!"[]" (writeMark (hdrText name refClass 0 index) w.ws) }

/-- One call of the writer. -/
def call (w : Wr) : Call → Wr
  | .begin n c v => objBegin n c v w
  | .finish => objEnd w
  | .ref n i => ref n i w
  | .val n v => writeVal n v w

/-- A sequence of calls. -/
def calls (w : Wr) (cs : List Call) : Wr := cs.foldl call w

/-- The hash of a name (`src/archive/ArchiveBinsafe.cc:446-451`); characters are signed. -/
def keyHash (key : Bytes) : BitVec 32 :=
  key.foldl (fun h c => h * 0x21 + (BitVec.ofNat 8 c.toNat).signExtend 32) 0 % 0x61

/-- The table behind the content (`src/archive/ArchiveBinsafe.cc:437-453`), sorted by number. The order in which
`std::map` lists the names does not matter while the numbers are distinct. -/
def writeTable (ks : Keys) (w : Ws) : Ws :=
  (ks.mergeSort (fun a b => a.2.toNat ≤ b.2.toNat)).foldl (fun w p =>
    (((w.u16 (BitVec.ofNat 16 p.1.length)).u16 p.2).u32 (keyHash p.1)).string p.1)
    (w.u32 (BitVec.ofNat 32 ks.length))

/-! ## Reading -/

/-- Characters that separate tokens: `" ]"`. -/
def isDelim (c : Byte) : Bool := c == 32 || c == 93

/-- `strtok(s, " ]")`: the next token and the text behind its delimiter. -/
def strtok (s : Bytes) : Option (Bytes × Bytes) :=
  let s := s.dropWhile isDelim
  if s.isEmpty then none
  else some (s.takeWhile (fun c => !isDelim c), (s.dropWhile (fun c => !isDelim c)).drop 1)

/-- `atoi`, as `(int) strtol(s, nullptr, 10)`. Simplification: out of range values, which C leaves undefined,
saturate to 64 bits and are truncated, as the C libraries of the supported platforms do. -/
def atoi (s : Bytes) : BitVec 32 :=
  match strtol s with
  | none => 0
  | some (i, _) => BitVec.ofInt 32 (max (-2 ^ 63) (min (2 ^ 63 - 1) i))

/-- The text of an object begin (`src/archive/ArchiveBinsafe.cc:49-75`), `none` when it is not one. -/
def parseHdr (line : Bytes) : Option Hdr :=
  if line.length ≤ 2 then none
  else match line with
  | 91 :: it =>
    match strtok (it.takeWhile (· != 0)) with
    | none => none
    | some (name, r) =>
      match strtok r with
      | none => none
      | some (cls, r) =>
        match strtok r with
        | none => none
        | some (version, r) =>
          match strtok r with
          | none => none
          | some (index, _) => some ⟨name, cls, (atoi version).truncate 16, atoi index⟩
  | _ => none

/-- `read_object_begin` (`src/archive/ArchiveBinsafe.cc:38-76`). -/
def readObjBegin : Rd (Option Hdr) := do
  if ← Rd.eof then return none
  let mark ← Rd.tell
  let ty ← Rd.u8
  if ty != tSTRING then
    Rd.seek mark .beg
    return none
  let len ← Rd.u16
  let line ← Rd.string len.toNat
  match parseHdr line with
  | none =>
    Rd.seek mark .beg
    return none
  | some h => return some h

/-- `read_object_end` (`src/archive/ArchiveBinsafe.cc:78-98`). -/
def readObjEnd : Rd Bool := do
  if ← Rd.eof then return true
  let mark ← Rd.tell
  let ty ← Rd.u8
  if ty != tSTRING then
    Rd.seek mark .beg
    return false
  let len ← Rd.u16
  if len != 2 then
    Rd.seek mark .beg
    return false
  let text ← Rd.string 2
  if text != b!"[]" then
    Rd.seek mark .beg
    return false
  return true

/-- `ensure_entry_meta<tp>` (`src/archive/ArchiveBinsafe.cc:250-273`) without the length: all callers of the
fixed-size types ignore the result. -/
def ensureMeta (tp : BitVec 8) : Rd Unit := do
  let ty ← Rd.u8
  if ty != tHASH then Rd.fail (.throw .parser)
  else
    Rd.seek 4 .cur
    let ty ← Rd.u8
    if ty != tp then Rd.fail (.throw .parser)
    else return ()

/-- `ensure_entry_meta<tp>` for `STRING`, `RAW` and `RAW_FLOAT`. -/
def ensureMetaLen (tp : BitVec 8) : Rd Nat := do
  ensureMeta tp
  let len ← Rd.u16
  return len.toNat

/-- `read_vec2`, `read_bbox` and `read_mat3x3` (`src/archive/ArchiveBinsafe.cc:159-203`): a value of `size` bytes at
the start of an entry that may be longer. -/
def readPrefix {α} (tp : BitVec 8) (size : Nat) (p : Rd α) : Rd α := do
  let len ← ensureMetaLen tp
  if len < size then Rd.fail (.throw .parser)
  else
    let v ← p
    Rd.seek ((len - size : Nat) : Int) .cur
    return v

/-- `read_raw` (`src/archive/ArchiveBinsafe.cc:205-219`): gives everything the entry holds. -/
def readRaw (size : Nat) : Rd Bytes := do
  let len ← ensureMetaLen tRAW
  if len < size then Rd.fail (.throw .parser)
  else Rd.readPadded len

/-- `read_string` (`src/archive/ArchiveBinsafe.cc:109-111`). -/
def readString : Rd Bytes := do
  let len ← ensureMetaLen tSTRING
  Rd.string len

/-- The typed `read_*` functions (`src/archive/ArchiveBinsafe.cc:109-219`). -/
def readVal : Kind → Rd Val
  | .string => do return .string (← readString)
  | .int => do ensureMeta tINTEGER; return .int (← Rd.u32)
  | .float => do ensureMeta tFLOAT; return .float (← Rd.f32)
  | .byte => do ensureMeta tBYTE; return .byte (← Rd.u8)
  | .word => do ensureMeta tWORD; return .word (← Rd.u16)
  | .enum => do ensureMeta tENUM; return .enum (← Rd.u32)
  | .bool => do ensureMeta tBOOL; return .bool ((← Rd.u32) != 0)
  | .color => do ensureMeta tCOLOR; return .color (← Rd.colorBgra)
  | .vec3 => do ensureMeta tVEC3; return .vec3 (← Rd.vec3)
  | .vec2 => do return .vec2 (← readPrefix tRAW_FLOAT 8 Rd.vec2)
  | .bbox => do return .bbox (← readPrefix tRAW_FLOAT 24 Aabb.load)
  | .mat3 => do return .mat3 (← readPrefix tRAW 36 Rd.mat3)
  | .raw n => do return .raw (← readRaw n)

/-- `skip_entry` (`src/archive/ArchiveBinsafe.cc:221-248`). -/
def skipEntry : Rd Unit := do
  let ty ← Rd.u8
  if ty == tSTRING || ty == tRAW || ty == tRAW_FLOAT then
    let len ← Rd.u16
    Rd.seek len.toNat .cur
  else if ty == tENUM || ty == tHASH || ty == tINTEGER || ty == tFLOAT || ty == tBOOL || ty == tCOLOR then
    let _ ← Rd.u32
    return ()
  else if ty == tBYTE then
    let _ ← Rd.u8
    return ()
  else if ty == tWORD then
    let _ ← Rd.u16
    return ()
  else if ty == tVEC3 then
    let _ ← Rd.f32
    let _ ← Rd.f32
    let _ ← Rd.f32
    return ()
  else return ()

/-- The body of the loop of `ReadArchive::skip_object` (`src/Archive.cc:534-540`): the change of the level. -/
def skipStep : Rd Int := do
  match ← readObjBegin with
  | some _ => return 1
  | none =>
    if ← readObjEnd then return -1
    else
      skipEntry
      return 0

/-- The loop of `ReadArchive::skip_object` (`src/Archive.cc:533-541`). Simplification: the level, an `int32_t`,
is unbounded; it never exceeds the size of the file. -/
def skipLoop : Nat → Int → Rd Unit
  | 0, _ => Rd.fail .hang
  | fuel + 1, level => do
    let d ← skipStep
    if level + d > 0 then skipLoop fuel (level + d) else return ()

/-- `ReadArchive::skip_object` (`src/Archive.cc:529-542`). -/
def skipObj (current : Bool) : Rd Unit := fun s =>
  skipLoop (2 * (s.data.length - s.pos) + 3) (if current then 1 else 0) s

/-- `ReadArchiveBinsafe` as a reader. -/
def reader : Reader Rs where
  objBegin := readObjBegin
  objEnd := readObjEnd
  val := readVal
  skipObj := skipObj

/-- `ReadArchiveBinsafe::read_header` (`src/archive/ArchiveBinsafe.cc:13-36`), loop over the table. Storing at an
index outside of the vector is undefined behaviour. -/
def readTable : Nat → List (Bytes × BitVec 32) → Rd (List (Bytes × BitVec 32))
  | 0, es => return es
  | n + 1, es => do
    let len ← Rd.u16
    let ix ← Rd.u16
    let hash ← Rd.u32
    let key ← Rd.string len.toNat
    if ix.toNat < es.length then readTable n (es.set ix.toNat (key, hash)) else Rd.fail .ub

/-- `ReadArchiveBinsafe::read_header` (`src/archive/ArchiveBinsafe.cc:13-36`): version, object count and table.
Simplification: `resize` succeeds for every size. -/
def readHeader : Rd (BitVec 32 × BitVec 32 × List (Bytes × BitVec 32)) := do
  let version ← Rd.u32
  let count ← Rd.u32
  let off ← Rd.u32
  let mark ← Rd.tell
  Rd.seek off.toNat .beg
  let size ← Rd.u32
  let es ← readTable size.toNat (List.replicate size.toNat ([], 0))
  Rd.seek mark .beg
  return (version, count, es)

/-- `get_entry_key` (`src/archive/ArchiveBinsafe.cc:100-107`): the name of the entry the reader is in front of. -/
def entryKey (es : List (Bytes × BitVec 32)) : Rd Bytes := do
  let ty ← Rd.u8
  if ty != tHASH then Rd.fail (.throw .parser)
  else
    let hash ← Rd.u32
    match es[hash.toNat]? with
    | some e => return e.1
    | none => Rd.fail .ub

end Verif.Ar.Bs
