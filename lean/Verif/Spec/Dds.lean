import Verif.Spec.Texture

/-!
# How programs read DDS files

After the description of the file format: a magic number, 31 little-endian words, and the levels of the image from the
largest to the smallest without gaps.
-/

namespace Verif.Dds

open Tex (Layout levelSide)

/-- The `i`th word of the header. -/
def word (file : Bytes) (i : Nat) : Nat := leNat ((file.drop (4 + 4 * i)).take 4)

/-- Whether all bits of `flags` are set in `x`. -/
def has (x flags : Nat) : Bool := x &&& flags == flags

/-- The kinds of images: channels in the bits of masks (the mask of alpha is zero if there is none), blocks with a name, or
indices to a palette. -/
inductive Pixels where
  | rgb (bytes r g b a : Nat)
  | blocks (name : Bytes) (bytes : Nat)
  | indexed
  deriving DecidableEq, Repr

/-- The bytes of a pixel or a block. -/
def Pixels.layout : Pixels → Layout
  | .rgb n _ _ _ _ => .pixel n
  | .blocks _ n => .block n
  | .indexed => .pixel 1

/-- The words 19 to 25 of the header: flags, name, bits per pixel, masks. -/
def pixels (flags name bits r g b a : Nat) : Option Pixels :=
  if has flags 0x4 then
    if leBytes 4 name = b!"DXT1" then some (.blocks (leBytes 4 name) 8)
    else if leBytes 4 name ∈ [b!"DXT2", b!"DXT3", b!"DXT4", b!"DXT5"] then some (.blocks (leBytes 4 name) 16)
    else none
  else if has flags 0x40 then
    if bits ∈ [8, 16, 24, 32] then some (.rgb (bits / 8) r g b (if has flags 0x1 then a else 0)) else none
  else if has flags 0x20 then
    if bits = 8 then some .indexed else none
  else none

structure Image where
  width : Nat
  height : Nat
  pixels : Pixels
  /-- the 256 entries of a palette, if there is one -/
  palette : Bytes
  levels : List Bytes
  deriving DecidableEq, Repr

/-- Cut bytes into pieces of given sizes; nothing may be missing or left. -/
def cut : List Nat → Bytes → Option (List Bytes)
  | [], bs => if bs = [] then some [] else none
  | n :: ns, bs => if bs.length < n then none else (cut ns (bs.drop n)).map (bs.take n :: ·)

/-- A strict reader: it checks all that the format requires of the header. -/
def read (file : Bytes) : Option Image :=
  if file.length < 128 ∨ file.take 4 ≠ b!"DDS " ∨ word file 0 ≠ 124 ∨ word file 18 ≠ 32 then none
  -- caps, height, width and pixel format are required; the surface must be a texture
  else if !has (word file 1) 0x1007 || !has (word file 26) 0x1000 then none
  else
    let height := word file 2
    let width := word file 3
    let count := if has (word file 1) 0x20000 then word file 6 else 1
    match pixels (word file 19) (word file 20) (word file 21) (word file 22) (word file 23) (word file 24) (word file 25) with
    | none => none
    | some px =>
      -- the bytes of a line, or of the largest level
      if has (word file 1) 0x8 ∧ word file 4 ≠ px.layout.bytes (levelSide width 0) 1 then none
      else if has (word file 1) 0x80000 ∧ word file 4 ≠ px.layout.bytes (levelSide width 0) (levelSide height 0) then none
      -- a texture with several levels is a complex surface with levels
      else if 1 < count ∧ !has (word file 26) 0x400008 then none
      else (cut ((List.range count).map fun l => px.layout.bytes (levelSide width l) (levelSide height l))
          (if px = .indexed then (file.drop 128).drop 1024 else file.drop 128)).map
        fun levels => ⟨width, height, px, if px = .indexed then (file.drop 128).take 1024 else [], levels⟩

/-- The position of the lowest bit of a mask. -/
def shift (mask : Nat) : Nat := ((List.range 32).find? fun i => mask.testBit i).getD 0

/-- A channel of a pixel, as a byte: the largest value is 255. Without a mask the value is `absent`. -/
def channel (v mask absent : Nat) : Byte :=
  if mask = 0 then UInt8.ofNat absent
  else UInt8.ofNat (255 * ((v &&& mask) >>> shift mask) / (mask >>> shift mask))

/-- A pixel as RGBA. -/
def Pixels.pixel (px : Pixels) (v : Nat) : Bytes :=
  match px with
  | .rgb _ r g b a => [channel v r 0, channel v g 0, channel v b 0, channel v a 255]
  | _ => []

/-- A level as RGBA. -/
def Pixels.rgba (px : Pixels) (level : Bytes) : Bytes :=
  match px with
  | .rgb n _ _ _ _ => (List.range (level.length / n)).flatMap fun i => px.pixel (leNat ((level.drop (n * i)).take n))
  | _ => []

end Verif.Dds

namespace Verif.Tex

/-- A pixel of A1R5G5B5, as a little-endian word with the channels from the highest bits down. -/
structure Px1555 where
  a : Fin 2
  r : Fin 32
  g : Fin 32
  b : Fin 32
  deriving DecidableEq, Repr

def Px1555.bytes (p : Px1555) : Bytes := leBytes 2 (p.a.val * 32768 + p.r.val * 1024 + p.g.val * 32 + p.b.val)

def Px1555.rgba (p : Px1555) : Bytes :=
  [UInt8.ofNat (255 * p.r.val / 31), UInt8.ofNat (255 * p.g.val / 31), UInt8.ofNat (255 * p.b.val / 31), UInt8.ofNat (255 * p.a.val)]

end Verif.Tex
