import Verif.Model.StreamTypes
import Verif.Base.Text

/-!
# Archives: values, calls and the reader interface

Model of the interface in `include/zenkit/Archive.hh:79-306`. The three formats are in
`Verif.Model.ArchiveBinary`, `Verif.Model.ArchiveBinsafe` and `Verif.Model.ArchiveAscii`.
-/

namespace Verif

/-- `struct Color` (`include/zenkit/Misc.hh:127-150`). -/
structure Color where
  r : BitVec 8
  g : BitVec 8
  b : BitVec 8
  a : BitVec 8
  deriving DecidableEq, Repr

namespace Ar

/-- A value passed to one of the `write_*` functions of `WriteArchive` or returned by one of the `read_*`
functions of `ReadArchive` (`include/zenkit/Archive.hh:164-223, 277-291`). `raw` is the content of the stream
returned by `read_raw`. `write_raw_float` has no counterpart for reading other than `read_vec2` and
`read_bbox`. -/
inductive Val where
  | string (v : Bytes)
  | int (v : BitVec 32)
  | float (v : F32)
  | byte (v : BitVec 8)
  | word (v : BitVec 16)
  | enum (v : BitVec 32)
  | bool (v : Bool)
  | color (v : Color)
  | vec3 (v : Vec3)
  | vec2 (v : Vec2)
  | bbox (v : Aabb)
  | mat3 (v : Mat3)
  | raw (v : Bytes)
  deriving DecidableEq, Repr

/-- Which `read_*` function is called; `raw n` is `read_raw(n)`. -/
inductive Kind where
  | string | int | float | byte | word | enum | bool | color | vec3 | vec2 | bbox | mat3
  | raw (n : Nat)
  deriving DecidableEq, Repr

/-- The `read_*` call that belongs to a `write_*` call. -/
def Val.kind : Val → Kind
  | .string _ => .string
  | .int _ => .int
  | .float _ => .float
  | .byte _ => .byte
  | .word _ => .word
  | .enum _ => .enum
  | .bool _ => .bool
  | .color _ => .color
  | .vec3 _ => .vec3
  | .vec2 _ => .vec2
  | .bbox _ => .bbox
  | .mat3 _ => .mat3
  | .raw v => .raw v.length

/-- `struct ArchiveObject` (`include/zenkit/Archive.hh:79-92`). -/
structure Hdr where
  name : Bytes
  cls : Bytes
  version : BitVec 16
  index : BitVec 32
  deriving DecidableEq, Repr

/-- The class name of a reference: `"\xA7"` (`src/Archive.cc:262`). -/
def refClass : Bytes := [0xA7]

/-- The class name of a null object: `"%"` (`src/Archive.cc:578`). -/
def nullClass : Bytes := [37]

/-- Calls of the `WriteArchive` interface. -/
inductive Call where
  | begin (name cls : Bytes) (version : BitVec 16)
  | finish
  | ref (name : Bytes) (index : BitVec 32)
  | val (name : Bytes) (v : Val)
  deriving DecidableEq, Repr

/-- `class_name.empty() || class_name == "%"`: such objects get index 0 and do not count
(`src/archive/ArchiveBinary.cc:135`, `ArchiveBinsafe.cc:284`, `ArchiveAscii.cc:261`). -/
def emptyClass (cls : Bytes) : Bool := cls.isEmpty || cls == nullClass

/-- The virtual functions of `ReadArchive` as functions on the state of a reader. -/
structure Reader (σ : Type) where
  /-- `read_object_begin`: `none` stands for `false`. -/
  objBegin : σ → Except Fail (Option Hdr × σ)
  /-- `read_object_end` -/
  objEnd : σ → Except Fail (Bool × σ)
  /-- `read_string`, `read_int`, ... -/
  val : Kind → σ → Except Fail (Val × σ)
  /-- `skip_object` -/
  skipObj : Bool → σ → Except Fail (Unit × σ)

end Ar

namespace Rd

/-- The body shared by `ReadArchiveBinary::read_color` and `ReadArchiveBinsafe::read_color`
(`src/archive/ArchiveBinary.cc:80-87`, `ArchiveBinsafe.cc:146-151`). -/
def colorBgra : Rd Color := do
  let b ← u8
  let g ← u8
  let r ← u8
  let a ← u8
  return ⟨r, g, b, a⟩

end Rd

/-- The body shared by the binary `write_color` functions
(`src/archive/ArchiveBinary.cc:200-205`, `ArchiveBinsafe.cc:359-362`). -/
def Ws.colorBgra (c : Color) (w : Ws) : Ws := (((w.u8 c.b).u8 c.g).u8 c.r).u8 c.a

end Verif
