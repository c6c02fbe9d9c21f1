import Verif.Model.Archive

/-!
# BINARY archives

Model of `src/archive/ArchiveBinary.cc`. Entries carry neither names nor types. An object starts with its
size in bytes, which is patched when the object ends.
-/

namespace Verif.Ar.Bin

/-- State of `WriteArchiveBinary` (`src/archive/ArchiveBinary.hh:75-79`) without `_m_head`. -/
structure Wr where
  ws : Ws
  /-- `_m_index` -/
  index : BitVec 32
  /-- `_m_objects`, top first -/
  objects : List Nat
  deriving DecidableEq, Repr

/-- The typed `write_*` functions (`src/archive/ArchiveBinary.cc:172-233`); the name is ignored, an enum is
truncated to one byte. -/
def writeVal : Val → Ws → Ws
  | .string v => Ws.string0 v
  | .int v => Ws.u32 v
  | .float v => Ws.f32 v
  | .byte v => Ws.u8 v
  | .word v => Ws.u16 v
  | .enum v => Ws.u8 (v.truncate 8)
  | .bool v => Ws.u8 (if v then 1 else 0)
  | .color v => Ws.colorBgra v
  | .vec3 v => Ws.vec3 v
  | .vec2 v => Ws.vec2 v
  | .bbox v => v.save
  | .mat3 v => Ws.mat3 v
  | .raw v => Ws.write v

/-- `write_object_begin` (`src/archive/ArchiveBinary.cc:131-144`). The size written first is a placeholder. -/
def objBegin (name cls : Bytes) (version : BitVec 16) (w : Wr) : Wr :=
  let objects := w.ws.pos :: w.objects
  let ws := w.ws.u32 (BitVec.ofNat 32 (6 + name.length + cls.length + 2))
  let ws := ws.u16 version
  let ws := ws.u32 (if emptyClass cls then 0 else w.index)
  let ws := ws.string0 name
  let ws := ws.string0 cls
  ⟨ws, if emptyClass cls then w.index else w.index + 1, objects⟩

/-- `write_object_end` (`src/archive/ArchiveBinary.cc:146-155`). `none`: `top()` of an empty stack. -/
def objEnd (w : Wr) : Option Wr :=
  match w.objects with
  | [] => none
  | prev :: rest =>
    let cur := w.ws.pos
    let ws := w.ws.seek prev .beg
    let ws := ws.u32 (BitVec.ofInt 32 (cur - prev))
    let ws := ws.seek cur .beg
    some { w with ws := ws, objects := rest }

/-- `write_ref` (`src/archive/ArchiveBinary.cc:157-170`). -/
def ref (name : Bytes) (index : BitVec 32) (w : Wr) : Wr :=
  let start := w.ws.pos
  let ws := w.ws.u32 (BitVec.ofNat 32 (6 + name.length + 1 + 2))
  let ws := ws.u16 0
  let ws := ws.u32 index
  let ws := ws.string0 name
  let ws := ws.string0 refClass
  let cur := ws.pos
  let ws := ws.seek start .beg
  let ws := ws.u32 (BitVec.ofInt 32 (cur - start))
  { w with ws := ws.seek cur .beg }

/-- One call of the writer. `none`: undefined behaviour. -/
def call (w : Wr) : Call → Option Wr
  | .begin n c v => some (objBegin n c v w)
  | .finish => objEnd w
  | .ref n i => some (ref n i w)
  | .val _ v => some { w with ws := writeVal v w.ws }

/-- A sequence of calls. -/
def calls (w : Wr) (cs : List Call) : Option Wr := cs.foldlM call w

/-- State of `ReadArchiveBinary`: the stream and `_m_object_end`, top first. The sum of a position and a 32 bit
size does not wrap around in the `uint64_t` of the stack. -/
structure Rr where
  rs : Rs
  ends : List Nat
  deriving DecidableEq, Repr

/-- A read of the underlying stream. -/
def lift {α} (p : Rd α) (s : Rr) : Except Fail (α × Rr) :=
  match p s.rs with
  | .ok (a, rs) => .ok (a, { s with rs := rs })
  | .error e => .error e

/-- `read_object_begin` (`src/archive/ArchiveBinary.cc:30-41`), without the push. -/
def readHdr : Rd (Nat × Hdr) := do
  let pos ← Rd.tell
  let size ← Rd.u32
  let version ← Rd.u16
  let index ← Rd.u32
  let name ← Rd.line false
  let cls ← Rd.line false
  return (pos + size.toNat, ⟨name, cls, version, index⟩)

/-- `read_object_begin` (`src/archive/ArchiveBinary.cc:30-41`). -/
def readObjBegin (s : Rr) : Except Fail (Option Hdr × Rr) :=
  if s.rs.pos ≥ s.rs.data.length then .ok (none, s)
  else match readHdr s.rs with
    | .ok ((end_, h), rs) => .ok (some h, ⟨rs, end_ :: s.ends⟩)
    | .error e => .error e

/-- `read_object_end` (`src/archive/ArchiveBinary.cc:43-50`). -/
def readObjEnd (s : Rr) : Except Fail (Bool × Rr) :=
  match s.ends with
  | [] => .error .ub
  | top :: rest =>
    if s.rs.pos = top then .ok (true, { s with ends := rest })
    else .ok (decide (s.rs.pos ≥ s.rs.data.length), s)

/-- The typed `read_*` functions (`src/archive/ArchiveBinary.cc:52-111`). -/
def readVal : Kind → Rd Val
  | .string => do return .string (← Rd.line false)
  | .int => do return .int (← Rd.u32)
  | .float => do return .float (← Rd.f32)
  | .byte => do return .byte (← Rd.u8)
  | .word => do return .word (← Rd.u16)
  | .enum => do return .enum ((← Rd.u8).zeroExtend 32)
  | .bool => do return .bool ((← Rd.u8) != 0)
  | .color => do return .color (← Rd.colorBgra)
  | .vec3 => do return .vec3 (← Rd.vec3)
  | .vec2 => do return .vec2 (← Rd.vec2)
  | .bbox => do return .bbox (← Aabb.load)
  | .mat3 => do return .mat3 (← Rd.mat3)
  | .raw n => do return .raw (← Rd.readPadded n)

/-- `skip_object(true)` (`src/archive/ArchiveBinary.cc:117-120`) -/
def skipCurrent (s : Rr) : Except Fail (Unit × Rr) :=
  match s.ends with
  | [] => .error .ub
  | top :: rest => lift (Rd.seek top .beg) { s with ends := rest }

/-- `skip_object(false)` (`src/archive/ArchiveBinary.cc:121-123`): the difference is computed in `uint32_t`. -/
def skipNext : Rd Unit := do
  let size ← Rd.u32
  Rd.seek ((size - 4).toNat : Int) .cur

/-- `ReadArchiveBinary` as a reader. -/
def reader : Reader Rr where
  objBegin := readObjBegin
  objEnd := readObjEnd
  val k := lift (readVal k)
  skipObj cur s := if cur then skipCurrent s else lift skipNext s

end Verif.Ar.Bin
