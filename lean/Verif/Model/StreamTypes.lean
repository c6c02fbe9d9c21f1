import Verif.Model.Stream

/-!
# Composite values in streams

Vectors, matrices, dates and bounding boxes: `src/Stream.cc:61-83, 164-180`,
`include/zenkit/Misc.hh:19-311`, `src/Date.cc`, `src/Boxes.cc:8-17`.
A `float` is represented by its 32-bit pattern.
-/

namespace Verif

/-- Bit pattern of a `float`. -/
abbrev F32 := BitVec 32

/-- `struct Vec2` (`include/zenkit/Misc.hh:19-53`). -/
structure Vec2 where
  x : F32
  y : F32
  deriving DecidableEq, Repr

/-- `struct Vec3` (`include/zenkit/Misc.hh:55-89`). -/
structure Vec3 where
  x : F32
  y : F32
  z : F32
  deriving DecidableEq, Repr

/-- `struct Vec4` (`include/zenkit/Misc.hh:91-125`). -/
structure Vec4 where
  x : F32
  y : F32
  z : F32
  w : F32
  deriving DecidableEq, Repr

/-- `struct Mat3` (`include/zenkit/Misc.hh:189-240`): three columns. -/
structure Mat3 where
  c0 : Vec3
  c1 : Vec3
  c2 : Vec3
  deriving DecidableEq, Repr

/-- `struct Mat4` (`include/zenkit/Misc.hh:242-311`): four columns. -/
structure Mat4 where
  c0 : Vec4
  c1 : Vec4
  c2 : Vec4
  c3 : Vec4
  deriving DecidableEq, Repr

/-- `Mat3::transpose` (`include/zenkit/Misc.hh:217-227`). -/
def Mat3.transpose (m : Mat3) : Mat3 :=
  ⟨⟨m.c0.x, m.c1.x, m.c2.x⟩, ⟨m.c0.y, m.c1.y, m.c2.y⟩, ⟨m.c0.z, m.c1.z, m.c2.z⟩⟩

/-- `Mat4::transpose` (`include/zenkit/Misc.hh:281-298`). -/
def Mat4.transpose (m : Mat4) : Mat4 :=
  ⟨⟨m.c0.x, m.c1.x, m.c2.x, m.c3.x⟩, ⟨m.c0.y, m.c1.y, m.c2.y, m.c3.y⟩,
   ⟨m.c0.z, m.c1.z, m.c2.z, m.c3.z⟩, ⟨m.c0.w, m.c1.w, m.c2.w, m.c3.w⟩⟩

/-- The in-memory representation starting at `pointer()`: consecutive floats. -/
def Vec2.mem (v : Vec2) : Bytes := encW 4 v.x ++ encW 4 v.y
def Vec3.mem (v : Vec3) : Bytes := encW 4 v.x ++ encW 4 v.y ++ encW 4 v.z
def Vec4.mem (v : Vec4) : Bytes := encW 4 v.x ++ encW 4 v.y ++ encW 4 v.z ++ encW 4 v.w
def Mat3.mem (m : Mat3) : Bytes := m.c0.mem ++ m.c1.mem ++ m.c2.mem
def Mat4.mem (m : Mat4) : Bytes := m.c0.mem ++ m.c1.mem ++ m.c2.mem ++ m.c3.mem

/-- The `i`-th float of an in-memory representation. -/
def f32At (bs : Bytes) (i : Nat) : F32 := decW 32 ((bs.drop (4 * i)).take 4)

namespace Rd

/-- `read_vec2` (`src/Stream.cc:61-65`). -/
def vec2 : Rd Vec2 := do
  let m ← readPadded 8
  return ⟨f32At m 0, f32At m 1⟩

/-- `read_vec3` (`src/Stream.cc:67-71`). -/
def vec3 : Rd Vec3 := do
  let m ← readPadded 12
  return ⟨f32At m 0, f32At m 1, f32At m 2⟩

/-- `read_mat3` (`src/Stream.cc:73-77`). -/
def mat3 : Rd Mat3 := do
  let m ← readPadded 36
  return (Mat3.mk ⟨f32At m 0, f32At m 1, f32At m 2⟩ ⟨f32At m 3, f32At m 4, f32At m 5⟩
    ⟨f32At m 6, f32At m 7, f32At m 8⟩).transpose

/-- `read_mat4` (`src/Stream.cc:79-83`). -/
def mat4 : Rd Mat4 := do
  let m ← readPadded 64
  return (Mat4.mk ⟨f32At m 0, f32At m 1, f32At m 2, f32At m 3⟩ ⟨f32At m 4, f32At m 5, f32At m 6, f32At m 7⟩
    ⟨f32At m 8, f32At m 9, f32At m 10, f32At m 11⟩
    ⟨f32At m 12, f32At m 13, f32At m 14, f32At m 15⟩).transpose

end Rd

namespace Ws

/-- `write_vec2` (`src/Stream.cc:164-166`). -/
def vec2 (v : Vec2) : Ws → Ws := write v.mem
/-- `write_vec3` (`src/Stream.cc:168-170`). -/
def vec3 (v : Vec3) : Ws → Ws := write v.mem
/-- `write_mat3` (`src/Stream.cc:172-175`). -/
def mat3 (m : Mat3) : Ws → Ws := write m.transpose.mem
/-- `write_mat4` (`src/Stream.cc:177-180`). -/
def mat4 (m : Mat4) : Ws → Ws := write m.transpose.mem
/-- `write_char`/`write_byte`/`write_ubyte` (`src/Stream.cc:118-128`). -/
def u8 (v : BitVec 8) : Ws → Ws := word 1 v
/-- `write_short`/`write_ushort` (`src/Stream.cc:130-136`). -/
def u16 (v : BitVec 16) : Ws → Ws := word 2 v
/-- `write_int`/`write_uint` (`src/Stream.cc:138-144`). -/
def u32 (v : BitVec 32) : Ws → Ws := word 4 v
/-- `write_float` (`src/Stream.cc:146-148`). -/
def f32 (v : F32) : Ws → Ws := word 4 v
/-- `write_string` (`src/Stream.cc:150-152`). -/
def string (v : Bytes) : Ws → Ws := write v
/-- `write_string0` (`src/Stream.cc:154-157`). -/
def string0 (v : Bytes) (w : Ws) : Ws := write [0] (write v w)
/-- `write_line` (`src/Stream.cc:159-162`). -/
def line (v : Bytes) (w : Ws) : Ws := write [10] (string v w)

end Ws

/-- `struct Date` (`include/zenkit/Date.hh`). -/
structure Date where
  year : BitVec 32
  month : BitVec 16
  day : BitVec 16
  hour : BitVec 16
  minute : BitVec 16
  second : BitVec 16
  deriving DecidableEq, Repr

/-- `Date::load` (`src/Date.cc:7-15`). -/
def Date.load : Rd Date := do
  let year ← Rd.u32
  let month ← Rd.u16
  let day ← Rd.u16
  let hour ← Rd.u16
  let minute ← Rd.u16
  let second ← Rd.u16
  let _ ← Rd.u16
  return ⟨year, month, day, hour, minute, second⟩

/-- `Date::save` (`src/Date.cc:17-25`). -/
def Date.save (d : Date) (w : Ws) : Ws :=
  let w := w.u32 d.year
  let w := w.u16 d.month
  let w := w.u16 d.day
  let w := w.u16 d.hour
  let w := w.u16 d.minute
  let w := w.u16 d.second
  w.u16 0

/-- `struct AxisAlignedBoundingBox` (`include/zenkit/Boxes.hh`). -/
structure Aabb where
  min : Vec3
  max : Vec3
  deriving DecidableEq, Repr

/-- `AxisAlignedBoundingBox::load` (`src/Boxes.cc:9-12`). -/
def Aabb.load : Rd Aabb := do
  let min ← Rd.vec3
  let max ← Rd.vec3
  return ⟨min, max⟩

/-- `AxisAlignedBoundingBox::save` (`src/Boxes.cc:14-17`). -/
def Aabb.save (b : Aabb) (w : Ws) : Ws := (w.vec3 b.min).vec3 b.max

end Verif
