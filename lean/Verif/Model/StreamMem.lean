import Verif.Model.Stream

/-!
# Memory streams with 64-bit offsets

Word-level model of `detail::ReadMemory`, `detail::WriteStatic` and `detail::WriteDynamic`
(`src/Stream.cc:195-211, 262-292, 369-428`), including `size_t` wrap-around, signed overflow of
`ssize_t` and out-of-bounds `memcpy`.
-/

namespace Verif.Mem

/-- `2^64`, the number of `size_t` values. -/
abbrev W : Nat := 2 ^ 64

/-- An operation on a read stream. -/
inductive ROp where
  | read (n : Nat)
  | seek (off : Int) (w : Whence)
  deriving DecidableEq, Repr

/-- An operation on a write stream. -/
inductive WOp where
  | write (bs : Bytes)
  | seek (off : Int) (w : Whence)
  deriving DecidableEq, Repr

/-- `seek_internal` (`src/Stream.cc:195-211`): `ssize_t` arithmetic, where leaving the range of
`ssize_t` is undefined, followed by the cast to `size_t`. `pos` and `end_` are `size_t` values that are
cast to `ssize_t` first (lines 196 and 206). -/
def seekInternal (pos end_ : Nat) (off : Int) (w : Whence) : Except Fail Nat :=
  let toSigned (n : Nat) : Int := if n < 2 ^ 63 then n else (n : Int) - 2 ^ 64
  let t : Int := match w with
    | .beg => off
    | .cur => toSigned pos + off
    | .end_ => toSigned end_ + off
  if t < -(2 ^ 63) ∨ t ≥ 2 ^ 63 then .error .ub
  else .ok (t % 2 ^ 64).toNat

/-! ## `ReadMemory` -/

/-- `_m_bytes`, `_m_length` (the length of `data`) and `_m_position`. -/
structure Reader where
  data : Bytes
  pos : Nat
  deriving DecidableEq, Repr

/-- `ReadMemory::read` (`src/Stream.cc:266-271`); `memcpy` out of the buffer is undefined. -/
def Reader.read (n : Nat) (r : Reader) : Except Fail (Bytes × Reader) :=
  let len := if (r.pos + n) % W > r.data.length then (r.data.length + W - r.pos) % W else n
  if r.pos + len > r.data.length then .error .ub
  else .ok ((r.data.drop r.pos).take len, { r with pos := (r.pos + len) % W })

/-- `ReadMemory::seek` (`src/Stream.cc:273-279`). -/
def Reader.seek (off : Int) (w : Whence) (r : Reader) : Except Fail Reader :=
  match seekInternal r.pos r.data.length off w with
  | .error e => .error e
  | .ok p => if p > r.data.length then .ok r else .ok { r with pos := p }

/-- One operation; the value is the bytes that were copied out. -/
def Reader.step (r : Reader) : ROp → Except Fail (Bytes × Reader)
  | .read n => r.read n
  | .seek off w =>
    match r.seek off w with
    | .error e => .error e
    | .ok r' => .ok ([], r')

/-- A whole history; the value is the list of results. -/
def Reader.run : Reader → List ROp → Except Fail (List Bytes × Reader)
  | r, [] => .ok ([], r)
  | r, op :: ops =>
    match r.step op with
    | .error e => .error e
    | .ok (bs, r') =>
      match Reader.run r' ops with
      | .error e => .error e
      | .ok (bss, r'') => .ok (bs :: bss, r'')

/-! ## `WriteStatic` -/

/-- The process memory around the caller's buffer: the buffer is `mem[base, base+len)`. -/
structure Static where
  mem : Bytes
  base : Nat
  len : Nat
  pos : Nat
  deriving DecidableEq, Repr

/-- `memcpy(mem + addr, bs)`: overwrites in place, undefined outside of `mem`. -/
def memcpy (mem : Bytes) (addr : Nat) (bs : Bytes) : Except Fail Bytes :=
  if addr + bs.length > mem.length then .error .ub
  else .ok (mem.take addr ++ bs ++ mem.drop (addr + bs.length))

/-- `WriteStatic::write` (`src/Stream.cc:373-378`). -/
def Static.write (bs : Bytes) (s : Static) : Except Fail Static :=
  let n := if (s.pos + bs.length) % W > s.len then (s.len + W - s.pos) % W else bs.length
  match memcpy s.mem (s.base + s.pos) (bs.take n) with
  | .error e => .error e
  | .ok m => .ok { s with mem := m, pos := (s.pos + n) % W }

/-- `WriteStatic::seek` (`src/Stream.cc:380-385`). -/
def Static.seek (off : Int) (w : Whence) (s : Static) : Except Fail Static :=
  match seekInternal s.pos s.len off w with
  | .error e => .error e
  | .ok p => if p > s.len then .ok s else .ok { s with pos := p }

def Static.step (s : Static) : WOp → Except Fail Static
  | .write bs => s.write bs
  | .seek off w => s.seek off w

def Static.run : Static → List WOp → Except Fail Static
  | s, [] => .ok s
  | s, op :: ops =>
    match s.step op with
    | .error e => .error e
    | .ok s' => Static.run s' ops

/-! ## `WriteDynamic` -/

/-- `*_m_vector` with its capacity, and `_m_position`. -/
structure Dyn where
  vec : Bytes
  cap : Nat
  pos : Nat
  deriving DecidableEq, Repr

/-- `std::vector<std::byte>::max_size()` of libstdc++. -/
abbrev maxSize : Nat := 2 ^ 63 - 1

/-- `WriteDynamic::write` (`src/Stream.cc:400-415`). `reserve` and `resize` beyond `max_size` throw
`std::length_error`, which terminates because the function is `noexcept`. `resize` to a larger size
value-initialises the new bytes. The growth of the capacity by `resize` is implementation defined and
taken to be exact. Running out of memory is not modelled. -/
def Dyn.write (bs : Bytes) (d : Dyn) : Except Fail Dyn :=
  let need := (d.pos + bs.length) % W
  let want := if (bs.length + d.cap) % W < 1024 then 1024 else (d.cap * 2) % W
  if need > d.cap ∧ want > maxSize then .error .terminate
  else
    let cap1 := if need > d.cap then max d.cap want else d.cap
    if need > d.vec.length ∧ need > maxSize then .error .terminate
    else
      let vec1 := if need > d.vec.length then d.vec ++ List.replicate (need - d.vec.length) 0 else d.vec
      let cap2 := max cap1 vec1.length
      match memcpy vec1 d.pos bs with
      | .error e => .error e
      | .ok v => .ok ⟨v, cap2, (d.pos + bs.length) % W⟩

/-- `WriteDynamic::seek` (`src/Stream.cc:417-419`). -/
def Dyn.seek (off : Int) (w : Whence) (d : Dyn) : Except Fail Dyn :=
  match seekInternal d.pos d.vec.length off w with
  | .error e => .error e
  | .ok p => .ok { d with pos := p }

def Dyn.step (d : Dyn) : WOp → Except Fail Dyn
  | .write bs => d.write bs
  | .seek off w => d.seek off w

def Dyn.run : Dyn → List WOp → Except Fail Dyn
  | d, [] => .ok d
  | d, op :: ops =>
    match d.step op with
    | .error e => .error e
    | .ok d' => Dyn.run d' ops

end Verif.Mem
