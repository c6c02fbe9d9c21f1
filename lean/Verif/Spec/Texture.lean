import Verif.Model.Texture

/-! # What a pixel is -/

namespace Verif.Tex

/-- A pixel with its channels. -/
structure Px where
  r : Byte
  g : Byte
  b : Byte
  a : Byte
  deriving DecidableEq, Repr

/-- The pixel as RGBA. -/
def Px.rgba (p : Px) : Bytes := [p.r, p.g, p.b, p.a]

/-- The bytes of a pixel: the channels in the order in which the name of the format lists them. -/
def Px.bytes (f : Format) (p : Px) : Bytes :=
  match f.toNat with
  | 0 => [p.b, p.g, p.r, p.a]
  | 1 => [p.r, p.g, p.b, p.a]
  | 2 => [p.a, p.b, p.g, p.r]
  | 3 => [p.a, p.r, p.g, p.b]
  | 4 => [p.b, p.g, p.r]
  | 5 => [p.r, p.g, p.b]
  | _ => []

/-- The formats of whole bytes: four with alpha, two without. -/
def alphaFormats : List Format := [b8g8r8a8, r8g8b8a8, a8b8g8r8, a8r8g8b8]
def opaqueFormats : List Format := [b8g8r8, r8g8b8]

/-- A format without alpha shows opaque pixels. -/
def Px.shown (f : Format) (p : Px) : Px := if f ∈ opaqueFormats then { p with a := 255 } else p

end Verif.Tex

namespace Verif.Tex

/-- A pixel of four channels of four bits, as A4R4G4B4 stores it: from the highest bits of a little-endian word down. -/
structure Px4 where
  a : Fin 16
  r : Fin 16
  g : Fin 16
  b : Fin 16
  deriving DecidableEq, Repr

def Px4.bytes (p : Px4) : Bytes := leBytes 2 (p.a.val * 4096 + p.r.val * 256 + p.g.val * 16 + p.b.val)

/-- `15` is shown as `255`. -/
def Px4.rgba (p : Px4) : Bytes := [p.r, p.g, p.b, p.a].map fun x => UInt8.ofNat (255 * x.val / 15)

/-- A pixel of R5G6B5. -/
structure Px565 where
  r : Fin 32
  g : Fin 64
  b : Fin 32
  deriving DecidableEq, Repr

def Px565.bytes (p : Px565) : Bytes := leBytes 2 (p.r.val * 2048 + p.g.val * 32 + p.b.val)

/-- The largest value of a channel is shown as `255`. -/
def Px565.rgba (p : Px565) : Bytes :=
  [UInt8.ofNat (255 * p.r.val / 31), UInt8.ofNat (255 * p.g.val / 63), UInt8.ofNat (255 * p.b.val / 31), 255]

/-- What is stored of a pixel in place of the nearest colour: red and blue are exchanged, and the values are enlarged and cut off. -/
def Px.stored565 (p : Px) : Px565 where
  r := ⟨p.b.toNat * 8 / 5 % 32, by omega⟩
  g := ⟨p.g.toNat * 8 / 6 % 64, by omega⟩
  b := ⟨p.r.toNat * 8 / 5 % 32, by omega⟩

end Verif.Tex

namespace Verif.Tex

/-- The sides of a level: every level halves the one before, and no side is shorter than a pixel. -/
def levelSide (side level : Nat) : Nat := max 1 (side / 2 ^ level)

/-- How the pixels of a format are stored: bytes for every pixel, or bytes for every block of four by four pixels. -/
inductive Layout where
  | pixel (bytes : Nat)
  | block (bytes : Nat)
  deriving DecidableEq, Repr

/-- The layouts of the formats of `TextureFormat`, in its order (`include/zenkit/Texture.hh:14-30`). -/
def layouts : List Layout :=
  [.pixel 4, .pixel 4, .pixel 4, .pixel 4, .pixel 3, .pixel 3, .pixel 2, .pixel 2, .pixel 2, .pixel 1,
   .block 8, .block 16, .block 16, .block 16, .block 16]

/-- The bytes an image takes: an image in blocks has as many blocks as it takes to cover it. -/
def Layout.bytes (w h : Nat) : Layout → Nat
  | .pixel n => w * h * n
  | .block n => (w + 3) / 4 * ((h + 3) / 4) * n

/-- Whether an image can be cut into blocks without a remainder, or is less than a block. -/
def Layout.fits (w h : Nat) : Layout → Prop
  | .pixel _ => True
  | .block _ => (w ≤ 4 ∨ 4 ∣ w) ∧ (h ≤ 4 ∨ 4 ∣ h)

/-- `n` bytes are what a level of an image takes. -/
def LevelBytes (f : Format) (w h : BitVec 32) (level n : Nat) : Prop :=
  ∃ lay, layouts[f.toNat]? = some lay ∧ n = lay.bytes (levelSide w.toNat level) (levelSide h.toNat level) ∧ n < 2 ^ 32

/-- A level that consists of whole blocks, or of less than one. -/
def LevelWhole (f : Format) (w h : BitVec 32) (level : Nat) : Prop :=
  ∀ lay, layouts[f.toNat]? = some lay → lay.fits (levelSide w.toNat level) (levelSide h.toNat level)

/-- A texture whose levels have the bytes its format and its dimensions imply; the last one is level 0. -/
def Texture.Sized (t : Texture) : Prop :=
  t.textures.length = t.mipmaps.toNat ∧
    ∀ i m, t.textures[i]? = some m → LevelBytes t.format t.width t.height (t.mipmaps.toNat - 1 - i) m.length

/-- A texture all levels of which consist of whole blocks or of less than one. -/
def Texture.Whole (t : Texture) : Prop := ∀ level, level < t.mipmaps.toNat → LevelWhole t.format t.width t.height level

end Verif.Tex
