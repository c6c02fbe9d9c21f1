import Verif.Base.Result

/-!
# Read and write streams

Model of `src/Stream.cc` and `include/zenkit/Stream.hh`. The reader is the
memory backed `detail::ReadMemory` (`src/Stream.cc:262-292`, also the base of
`ReadVector` and `ReadMmap`), the writer is `detail::WriteDynamic`
(`src/Stream.cc:396-428`).

Simplification: `size_t` and `ssize_t` are unbounded here (`Nat`, `Int`). The 64-bit
wrap-around of the two classes is modelled separately in `Verif.Model.StreamMem`, where
it is shown to be invisible while offsets stay below `2^63`.
-/

namespace Verif

/-- `enum class Whence` (`include/zenkit/Stream.hh`). -/
inductive Whence where
  | beg | cur | end_
  deriving DecidableEq, Repr

/-! ## Reading -/

/-- State of a memory reader: the content and `_m_position`. -/
structure Rs where
  data : Bytes
  pos : Nat
  deriving DecidableEq, Repr

/-- A function that reads from a stream. -/
def Rd (α : Type) := Rs → Except Fail (α × Rs)

namespace Rd

@[inline] def pure {α} (a : α) : Rd α := fun s => .ok (a, s)

@[inline] def bind {α β} (p : Rd α) (f : α → Rd β) : Rd β := fun s =>
  match p s with
  | .ok (a, s') => f a s'
  | .error e => .error e

instance : Monad Rd where
  pure := Rd.pure
  bind := Rd.bind

/-- Leave with an exception or another abnormal outcome. -/
def fail {α} (e : Fail) : Rd α := fun _ => .error e

/-- The content from the current position on, as many as `n` bytes.
`ReadMemory::read` (`src/Stream.cc:266-271`): clamps the length to what is left, copies and
advances. The value is the list of bytes copied into the caller's buffer. -/
def read (n : Nat) : Rd Bytes := fun s =>
  let len := if s.pos + n > s.data.length then s.data.length - s.pos else n
  .ok ((s.data.drop s.pos).take len, { s with pos := s.pos + len })

/-- `ReadMemory::tell` (`src/Stream.cc:281-283`). -/
def tell : Rd Nat := fun s => .ok (s.pos, s)

/-- `ReadMemory::eof` (`src/Stream.cc:285-287`). -/
def eof : Rd Bool := fun s => .ok (decide (s.pos ≥ s.data.length), s)

/-- `seek_internal` (`src/Stream.cc:195-211`) before the final cast to `size_t`. -/
def seekTarget (pos end_ : Nat) (off : Int) : Whence → Int
  | .beg => off
  | .cur => (pos : Int) + off
  | .end_ => (end_ : Int) + off

/-- `ReadMemory::seek` (`src/Stream.cc:273-279`): ignored when the new position is behind the end.
A negative new position is cast to a huge `size_t` and therefore ignored as well. -/
def seek (off : Int) (w : Whence) : Rd Unit := fun s =>
  let t := seekTarget s.pos s.data.length off w
  if t < 0 ∨ t > s.data.length then .ok ((), s) else .ok ((), { s with pos := t.toNat })

/-- `read_any<T>` (`src/Stream.cc:17-22`) for `sizeof(T) = k`: the value is zero-initialised
and then overwritten by the bytes that could be read. -/
def readPadded (k : Nat) : Rd Bytes := fun s =>
  match read k s with
  | .ok (bs, s') => .ok (bs ++ List.replicate (k - bs.length) 0, s')
  | .error e => .error e

/-- A machine word of `k` bytes (`src/Stream.cc:29-59`: `read_char`, `read_byte`, `read_ubyte`,
`read_short`, `read_ushort`, `read_int`, `read_uint`, `read_float`). -/
def word (w k : Nat) : Rd (BitVec w) := do
  let bs ← readPadded k
  return decW w bs

/-- `read_char` (`src/Stream.cc:29-31`), `read_ubyte` (`src/Stream.cc:37-39`). -/
def char : Rd Byte := do
  let bs ← readPadded 1
  return bs.headD 0

/-- `read_ubyte` / `read_byte` (`src/Stream.cc:33-39`). -/
def u8 : Rd (BitVec 8) := word 8 1
/-- `read_ushort` / `read_short` (`src/Stream.cc:41-47`). -/
def u16 : Rd (BitVec 16) := word 16 2
/-- `read_uint` / `read_int` (`src/Stream.cc:49-55`). -/
def u32 : Rd (BitVec 32) := word 32 4
/-- `read_float` (`src/Stream.cc:57-59`); the value is the bit pattern. -/
def f32 : Rd (BitVec 32) := word 32 4

/-- `read_string(len)` (`src/Stream.cc:85-89`). -/
def string (len : Nat) : Rd Bytes := readPadded len

/-- Bytes that end a line (`src/Stream.cc:99`). -/
def isEol (c : Byte) : Bool := c == 0 || c == 13 || c == 10

/-- The whitespace set of `read_line(true)` (`src/Stream.cc:92`): `" \t\r\n\v\f"`. -/
def lineSpaces : Bytes := [32, 9, 13, 10, 11, 12]

/-- First loop of `read_line_then_ignore` (`src/Stream.cc:98-101`). Each iteration reads one
character; at the end of the stream `read_char` gives NUL, which stops the loop. `fuel` is never
exhausted when it is at least the number of remaining bytes plus one. Value: line and last character. -/
def lineLoop : Nat → Bytes → Rd (Bytes × Byte)
  | 0, _ => fail .hang
  | fuel + 1, acc => do
    let c ← char
    if isEol c then return (acc, c) else lineLoop fuel (acc ++ [c])

/-- Second loop of `read_line_then_ignore` (`src/Stream.cc:106-108`). -/
def ignoreLoop (chars : Bytes) : Nat → Rd Byte
  | 0 => fail .hang
  | fuel + 1 => do
    let c ← char
    if c != 0 && chars.contains c then ignoreLoop chars fuel else return c

/-- `read_line_then_ignore` (`src/Stream.cc:95-116`). -/
def lineThenIgnore (chars : Bytes) : Rd Bytes := fun s =>
  let fuel := s.data.length - s.pos + 1
  (do
    let (str, c) ← lineLoop fuel []
    let e ← eof
    if chars.isEmpty || c == 0 || e then return str
    let c ← ignoreLoop chars fuel
    let e ← eof
    if e && c == 0 then return str
    seek (-1) .cur
    return str : Rd Bytes) s

/-- `read_line` (`src/Stream.cc:91-93`). -/
def line (skipws : Bool) : Rd Bytes := lineThenIgnore (if skipws then lineSpaces else [])

/-- `n` successive reads, collected in order (the `for (auto& x : vec) x = read…` loops). -/
def times {α} (p : Rd α) : Nat → Rd (List α)
  | 0 => return []
  | n + 1 => do
    let a ← p
    let as ← times p n
    return a :: as

end Rd

/-! ## Writing -/

/-- State of a growing writer: `*_m_vector` and `_m_position`. -/
structure Ws where
  data : Bytes
  pos : Nat
  deriving DecidableEq, Repr

/-- Overwrite `bs` at `pos`, zero-filling a gap (`vector::resize` value-initialises). -/
def splice (data : Bytes) (pos : Nat) (bs : Bytes) : Bytes :=
  let padded := data ++ List.replicate (pos + bs.length - data.length) 0
  padded.take pos ++ bs ++ padded.drop (pos + bs.length)

namespace Ws

/-- An empty growing writer (`Write::to(std::vector<std::byte>*)` on an empty vector). -/
def empty : Ws := ⟨[], 0⟩

/-- `WriteDynamic::write` (`src/Stream.cc:400-415`). The capacity management
(lines 403-406) has no observable effect. -/
def write (bs : Bytes) (w : Ws) : Ws := ⟨splice w.data w.pos bs, w.pos + bs.length⟩

/-- `WriteDynamic::seek` (`src/Stream.cc:417-419`). Simplification: a negative target (a huge
`size_t` in C++) is clamped to zero; the callers never seek in front of the start. -/
def seek (off : Int) (wh : Whence) (w : Ws) : Ws :=
  { w with pos := (Rd.seekTarget w.pos w.data.length off wh).toNat }

/-- `write_any` of a machine word (`src/Stream.cc:24-27`). -/
def word {n : Nat} (k : Nat) (v : BitVec n) : Ws → Ws := write (encW k v)

end Ws

end Verif
