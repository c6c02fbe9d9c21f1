import Verif.Model.ModelAnimation
import Verif.Model.Texture

/-!
# Streams over files and C++ streams

Model of `ReadFile`, `ReadStream`, `WriteFile` and `WriteStream` (`src/Stream.cc:213-260, 315-367`) over the objects of the C and
C++ libraries. A function that reads is a program of calls of the four virtual functions of `Read`, so that it can run on any stream;
a loop carries fuel.
-/

namespace Verif.Io

/-- A function that reads: the calls of `Read::read`, `seek`, `tell` and `eof` (`include/zenkit/Stream.hh:98-101`). -/
inductive Prog (α : Type) : Type
  | ret (a : α)
  | fail (e : Fail)
  | read (n : Nat) (k : Bytes → Prog α)
  | seek (off : Int) (w : Whence) (k : Prog α)
  | tell (k : Nat → Prog α)
  | eof (k : Bool → Prog α)

namespace Prog

def bind {α β} : Prog α → (α → Prog β) → Prog β
  | .ret a, f => f a
  | .fail e, _ => .fail e
  | .read n k, f => .read n fun bs => (k bs).bind f
  | .seek off w k, f => .seek off w (k.bind f)
  | .tell k, f => .tell fun n => (k n).bind f
  | .eof k, f => .eof fun b => (k b).bind f

instance : Monad Prog where
  pure := .ret
  bind := bind

end Prog

/-- A kind of stream: what the four functions do. -/
structure Src (σ : Type) where
  read : Nat → σ → Bytes × σ
  seek : Int → Whence → σ → σ
  tell : σ → Nat
  eof : σ → Bool

/-- Run a program on a stream. -/
def Prog.run {α σ} (S : Src σ) : Prog α → σ → Except Fail (α × σ)
  | .ret a, s => .ok (a, s)
  | .fail e, _ => .error e
  | .read n k, s => (k (S.read n s).1).run S (S.read n s).2
  | .seek off w k, s => k.run S (S.seek off w s)
  | .tell k, s => (k (S.tell s)).run S s
  | .eof k, s => (k (S.eof s)).run S s

/-! ## Kinds of streams -/

/-- `ReadMemory` (`src/Stream.cc:262-292`), as in `Verif.Model.Stream`. -/
def mem : Src Rs where
  read n s :=
    let len := if s.pos + n > s.data.length then s.data.length - s.pos else n
    ((s.data.drop s.pos).take len, { s with pos := s.pos + len })
  seek off w s :=
    let t := Rd.seekTarget s.pos s.data.length off w
    if t < 0 ∨ t > s.data.length then s else { s with pos := t.toNat }
  tell s := s.pos
  eof s := decide (s.pos ≥ s.data.length)

/-- A `FILE*` that is read: content, position and the end-of-file indicator. -/
structure CFile where
  data : Bytes
  pos : Nat
  eof : Bool
  deriving DecidableEq, Repr

/-- `ReadFile` (`src/Stream.cc:213-235`) over `fread` (sets the indicator when there are too few bytes), `fseek` (fails in front of
the beginning; otherwise it clears the indicator, and may go behind the end), `ftell` and `feof`. -/
def file : Src CFile where
  read n s :=
    let bs := (s.data.drop s.pos).take n
    (bs, { s with pos := s.pos + bs.length, eof := s.eof || decide (bs.length < n) })
  seek off w s :=
    let t := Rd.seekTarget s.pos s.data.length off w
    if t < 0 then s else { s with pos := t.toNat, eof := false }
  tell s := s.pos
  eof s := s.eof

/-- A `std::istream`: content, position, `eofbit` and `failbit`, and whether the buffer refuses positions behind the end (a
`std::stringbuf` does, a `std::filebuf` does not). -/
structure CStream where
  data : Bytes
  pos : Nat
  eof : Bool
  fail : Bool
  bounded : Bool
  deriving DecidableEq, Repr

/-- `ReadStream` (`src/Stream.cc:237-260`) over `istream::read` (does nothing but set `failbit` if the stream is not good; sets both
bits when there are too few bytes), `gcount`, `seekg` (clears `eofbit` first, does nothing if `failbit` is set, sets it when the
position is refused), `tellg` (`-1` if `failbit` is set) and `eof`. -/
def stream : Src CStream where
  read n s :=
    if s.eof || s.fail then ([], { s with fail := true })
    else
      let bs := (s.data.drop s.pos).take n
      let short := decide (bs.length < n)
      (bs, { s with pos := s.pos + bs.length, eof := short, fail := short })
  seek off w s :=
    let t := Rd.seekTarget s.pos s.data.length off w
    if s.fail then { s with eof := false }
    else if t < 0 ∨ (s.bounded = true ∧ t > s.data.length) then { s with eof := false, fail := true }
    else { s with pos := t.toNat, eof := false }
  tell s := if s.fail then 2 ^ 64 - 1 else s.pos
  eof s := s.eof

/-! ## Functions of `Read` -/

namespace Prog

/-- `read_any` (`src/Stream.cc:17-22`), `read_string` (`src/Stream.cc:85-89`). -/
def padded (k : Nat) : Prog Bytes := .read k fun bs => .ret (bs ++ List.replicate (k - bs.length) 0)

/-- Machine words (`src/Stream.cc:33-59`). -/
def word (w k : Nat) : Prog (BitVec w) := do
  let bs ← padded k
  return decW w bs

def u8 : Prog (BitVec 8) := word 8 1
def u16 : Prog (BitVec 16) := word 16 2
def u32 : Prog (BitVec 32) := word 32 4

/-- `read_char` (`src/Stream.cc:29-31`). -/
def char : Prog Byte := do
  let bs ← padded 1
  return bs.headD 0

/-- `read_vec3` (`src/Stream.cc:67-71`). -/
def vec3 : Prog Vec3 := do
  let b ← padded 12
  return ⟨f32At b 0, f32At b 1, f32At b 2⟩

/-- First loop of `read_line_then_ignore` (`src/Stream.cc:98-101`). -/
def lineLoop : Nat → Bytes → Prog (Bytes × Byte)
  | 0, _ => .fail .hang
  | fuel + 1, acc => do
    let c ← char
    if Rd.isEol c then return (acc, c) else lineLoop fuel (acc ++ [c])

/-- Second loop of `read_line_then_ignore` (`src/Stream.cc:106-108`). -/
def ignoreLoop (chars : Bytes) : Nat → Prog Byte
  | 0 => .fail .hang
  | fuel + 1 => do
    let c ← char
    if c != 0 && chars.contains c then ignoreLoop chars fuel else return c

/-- `read_line_then_ignore` (`src/Stream.cc:95-116`). `eof` is only asked if the tests in front of it say so (lines 104 and 111). -/
def lineThenIgnore (fuel : Nat) (chars : Bytes) : Prog Bytes := do
  let (str, c) ← lineLoop fuel []
  if chars.isEmpty || c == 0 then return str
  .eof fun e =>
    if e then .ret str
    else do
      let c ← ignoreLoop chars fuel
      .eof fun e =>
        if e && c == 0 then .ret str
        else .seek (-1) .cur (.ret str)

/-- `read_line` (`src/Stream.cc:91-93`). -/
def line (fuel : Nat) (skipws : Bool) : Prog Bytes := lineThenIgnore fuel (if skipws then Rd.lineSpaces else [])

/-- Loops that fill a vector. -/
def times {α} (p : Prog α) : Nat → Prog (List α)
  | 0 => return []
  | n + 1 => do
    let a ← p
    let as ← times p n
    return a :: as

/-- `read_chunked` (`include/zenkit/Stream.hh:182-212`). Sums of positions and sizes do not wrap here, as in `Verif.Model.Chunk`; on
a stream that has failed the position is not used. -/
def chunked {σ} (cb : σ → BitVec 16 → Nat → Prog (σ × Bool × Nat)) : Nat → σ → Prog σ
  | 0, _ => .fail .hang
  | fuel + 1, s => do
    let type ← u16
    let size ← u32
    .tell fun here => do
      let (s', done, target') ← cb s type (here + size.toNat)
      .seek target' .beg (if done then .ret s' else .eof fun e => if e then .ret s' else chunked cb fuel s')

/-- A handler of the overload without `end` (`include/zenkit/Stream.hh:148`). -/
def simpleCb {σ} (cb : σ → BitVec 16 → Prog (σ × Bool)) : σ → BitVec 16 → Nat → Prog (σ × Bool × Nat) := fun s t target => do
  let (s', done) ← cb s t
  return (s', done, target)

/-! ## Two loaders -/

/-- `Date::load` (`src/Date.cc:7-15`). -/
def date : Prog Date := do
  let year ← u32
  let month ← u16
  let day ← u16
  let hour ← u16
  let minute ← u16
  let second ← u16
  let _ ← u16
  return ⟨year, month, day, hour, minute, second⟩

/-- `AxisAlignedBoundingBox::load` (`src/Boxes.cc:9-12`). -/
def aabb : Prog Aabb := do
  let min ← vec3
  let max ← vec3
  return ⟨min, max⟩

/-- One sample (`src/ModelAnimation.cc:124-125`). -/
def animSample (o : SampleOps) (scale min : F32) : Prog AnimSample := do
  let a ← u16
  let b ← u16
  let c ← u16
  let x ← u16
  let y ← u16
  let z ← u16
  return ⟨o.pos x y z scale min, o.rot a b c⟩

/-- One event (`src/ModelAnimation.cc:98-110`). -/
def animEvent (fuel : Nat) : Prog AnimEvent := do
  let type ← u32
  let frame ← u32
  let tag ← line fuel true
  let content ← times (line fuel true) 4
  let values ← times u32 4
  let probability ← u32
  return ⟨type, frame, tag, content, values, probability⟩

/-- The handler of `ModelAnimation::load` (`src/ModelAnimation.cc:71-134`). -/
def animChunk (fuel : Nat) (o : SampleOps) (m : Animation) (type : BitVec 16) : Prog (Animation × Bool) :=
  if type = 0xA010 then do
    let sourceDate ← date
    let sourcePath ← line fuel false
    let sourceScript ← line fuel false
    return ({ m with sourceDate, sourcePath, sourceScript }, false)
  else if type = 0xA020 then do
    let _version ← u16
    let name ← line fuel false
    let layer ← u32
    let frameCount ← u32
    let nodeCount ← u32
    let fps ← u32
    let fpsSource ← u32
    let positionMin ← u32
    let positionScale ← u32
    let bbox ← aabb
    let next ← line fuel false
    return ({ m with name, layer, frameCount, nodeCount, fps, fpsSource, positionMin, positionScale, bbox, next }, false)
  else if type = 0xA030 then do
    let count ← u32
    let events ← times (animEvent fuel) count.toNat
    return ({ m with events }, false)
  else if type = 0xA090 then do
    let checksum ← u32
    let nodeIndices ← times u32 m.nodeCount.toNat
    let samples ← times (animSample o m.positionScale m.positionMin) (m.nodeCount * m.frameCount).toNat
    return ({ m with checksum, nodeIndices, samples }, false)
  else return (m, false)

/-- `ModelAnimation::load` (`src/ModelAnimation.cc:70-135`). -/
def animation (fuel rounds : Nat) (o : SampleOps) (m : Animation) : Prog Animation :=
  chunked (simpleCb (animChunk fuel o)) rounds m

/-- One palette entry of a texture (`src/Texture.cc:298-303`). -/
def color : Prog Tex.Color := do
  let b ← u8
  let g ← u8
  let r ← u8
  let a ← u8
  return ⟨a, r, g, b⟩

/-- The palette of a texture (`src/Texture.cc:297-304`). -/
def texPalette (f : Tex.Format) (old : List Tex.Color) : Prog (List Tex.Color) := if f = Tex.p8 then times color 256 else return old

/-- The levels of a texture (`src/Texture.cc:307-316`). -/
def texLevels (f : Tex.Format) (width height : BitVec 32) : Nat → List Bytes → Prog (List Bytes)
  | 0, acc => return acc
  | level + 1, acc => do
    let m ← padded (Tex.mipmapSize f width height level).toNat
    texLevels f width height level (acc ++ [m])

/-- `Texture::load` (`src/Texture.cc:280-317`). -/
def texture (t : Tex.Texture) : Prog Tex.Texture := do
  let sig ← padded 4
  if sig ≠ b!"ZTEX" then .fail (.throw .parser) else do
  let version ← u32
  if version ≠ 0 then .fail (.throw .parser) else do
  let format ← u32
  let width ← u32
  let height ← u32
  let mips ← u32
  let refWidth ← u32
  let refHeight ← u32
  let averageColor ← u32
  let palette ← texPalette format t.palette
  let textures ← texLevels format width height (Tex.max1 mips).toNat t.textures
  return { format, palette, width, height, refWidth, refHeight, mipmaps := Tex.max1 mips, averageColor, textures }

end Prog

/-! ## Writing -/

/-- A function that writes: the calls of `Write::write`, `seek` and `tell` (`include/zenkit/Stream.hh:134-136`). -/
inductive WProg (α : Type) : Type
  | ret (a : α)
  | write (bs : Bytes) (k : WProg α)
  | seek (off : Int) (w : Whence) (k : WProg α)
  | tell (k : Nat → WProg α)

/-- A kind of stream to write to. -/
structure Sink (σ : Type) where
  write : Bytes → σ → σ
  seek : Int → Whence → σ → σ
  tell : σ → Nat

def WProg.run {α σ} (S : Sink σ) : WProg α → σ → α × σ
  | .ret a, s => (a, s)
  | .write bs k, s => k.run S (S.write bs s)
  | .seek off w k, s => k.run S (S.seek off w s)
  | .tell k, s => (k (S.tell s)).run S s

/-- `WriteDynamic` (`src/Stream.cc:396-428`), as in `Verif.Model.Stream`. -/
def vector : Sink Ws where
  write bs w := w.write bs
  seek off wh w := w.seek off wh
  tell w := w.pos

/-- `WriteFile` (`src/Stream.cc:315-333`) over `fwrite`, `fseek` (does nothing in front of the beginning) and `ftell`, and a disk with
room. Bytes between the end and a position behind it are zero. Nothing is written for no bytes. -/
def cfile : Sink Ws where
  write bs w := if bs = [] then w else w.write bs
  seek off wh w :=
    let t := Rd.seekTarget w.pos w.data.length off wh
    if t < 0 then w else { w with pos := t.toNat }
  tell w := w.pos

/-- A `std::ostream` with `failbit`, and whether its buffer refuses positions behind the end. -/
structure COut where
  data : Bytes
  pos : Nat
  fail : Bool
  bounded : Bool
  deriving DecidableEq, Repr

/-- `WriteStream` (`src/Stream.cc:335-367`) over `ostream::write`, `seekp` (both do nothing if `failbit` is set) and `tellp`. -/
def ostream : Sink COut where
  write bs w := if w.fail ∨ bs = [] then w else { w with data := splice w.data w.pos bs, pos := w.pos + bs.length }
  seek off wh w :=
    let t := Rd.seekTarget w.pos w.data.length off wh
    if w.fail then w
    else if t < 0 ∨ (w.bounded = true ∧ t > w.data.length) then { w with fail := true }
    else { w with pos := t.toNat }
  tell w := if w.fail then 2 ^ 64 - 1 else w.pos

/-- What `Write::write` returns (`src/Stream.cc:319-321, 351-354, 400-415`): a `WriteStream` returns the length whatever happened. -/
def ostreamWrote (bs : Bytes) (_w : COut) : Nat := bs.length

/-- `write_chunk` (`include/zenkit/Stream.hh:214-228`). -/
def WProg.chunk (type : BitVec 16) (payload : WProg Unit → WProg Unit) (k : WProg Unit) : WProg Unit :=
  .write (encW 2 type) (.tell fun sizeOff => .write (encW 4 (0 : BitVec 32)) (payload (.tell fun fin =>
    let len : Int := (fin : Int) - sizeOff - 4
    .seek sizeOff .beg (.write (encW 4 (BitVec.ofInt 32 len)) (.seek len .cur k)))))

end Verif.Io
