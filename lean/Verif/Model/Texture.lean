import Verif.Model.StreamTypes

/-!
# Textures

Model of `src/Texture.cc` and `include/zenkit/Texture.hh`. A `TextureFormat` is its number, so that the numbers which
no enumerator has are included. `std::uint32_t` arithmetic wraps. Reading or writing outside of a buffer is undefined
behaviour. The DXT formats are handled by `squish`, which is a parameter here.
-/

namespace Verif.Tex

/-- `enum class TextureFormat` (`include/zenkit/Texture.hh:18-35`). -/
abbrev Format := BitVec 32

abbrev b8g8r8a8 : Format := 0
abbrev r8g8b8a8 : Format := 1
abbrev a8b8g8r8 : Format := 2
abbrev a8r8g8b8 : Format := 3
abbrev b8g8r8 : Format := 4
abbrev r8g8b8 : Format := 5
abbrev a4r4g4b4 : Format := 6
abbrev a1r5g5b5 : Format := 7
abbrev r5g6b5 : Format := 8
abbrev p8 : Format := 9
abbrev dxt1 : Format := 10
abbrev dxt2 : Format := 11
abbrev dxt3 : Format := 12
abbrev dxt4 : Format := 13
abbrev dxt5 : Format := 14

/-- `struct ColorARGB` (`include/zenkit/Texture.hh:50-52`). -/
structure Color where
  a : BitVec 8 := 0
  r : BitVec 8 := 0
  g : BitVec 8 := 0
  b : BitVec 8 := 0
  deriving DecidableEq, Repr

/-- `std::max(1u, x)`. -/
def max1 (x : BitVec 32) : BitVec 32 := if x = 0 then 1 else x

/-- The loop of `_ztex_mipmap_size` for one side (`src/Texture.cc:41-44`). -/
def halve : Nat → BitVec 32 → BitVec 32
  | 0, x => x
  | n + 1, x => halve n (if x > 1 then x >>> 1 else x)

/-- `_ztex_mipmap_size` (`src/Texture.cc:37-71`). -/
def mipmapSize (f : Format) (width height : BitVec 32) (level : Nat) : BitVec 32 :=
  let x := halve level (max1 width)
  let y := halve level (max1 height)
  if f = b8g8r8a8 ∨ f = r8g8b8a8 ∨ f = a8b8g8r8 ∨ f = a8r8g8b8 then x * y * 4
  else if f = b8g8r8 ∨ f = r8g8b8 then x * y * 3
  else if f = a4r4g4b4 ∨ f = a1r5g5b5 ∨ f = r5g6b5 then x * y * 2
  else if f = p8 then x * y
  else if f = dxt1 then max1 (x / 4) * max1 (y / 4) * 8
  else if f = dxt2 ∨ f = dxt3 ∨ f = dxt4 ∨ f = dxt5 then max1 (x / 4) * max1 (y / 4) * 16
  else 0

/-- `class Texture` (`include/zenkit/Texture.hh:131-142`). -/
structure Texture where
  format : Format := 0
  palette : List Color := List.replicate 256 {}
  width : BitVec 32 := 0
  height : BitVec 32 := 0
  refWidth : BitVec 32 := 0
  refHeight : BitVec 32 := 0
  mipmaps : BitVec 32 := 0
  averageColor : BitVec 32 := 0
  /-- `_m_textures`, level 0 last -/
  textures : List Bytes := []
  deriving DecidableEq, Repr

/-- One palette entry in a file (`src/Texture.cc:298-303`). -/
def Color.load : Rd Color := do
  let b ← Rd.u8
  let g ← Rd.u8
  let r ← Rd.u8
  let a ← Rd.u8
  return ⟨a, r, g, b⟩

/-- The palette of `Texture::load` (`src/Texture.cc:297-304`): kept for the other formats. -/
def loadPalette (f : Format) (old : List Color) : Rd (List Color) :=
  if f = p8 then Rd.times Color.load 256 else return old

/-- The loop over the levels of `Texture::load` (`src/Texture.cc:307-316`), with as many levels to go as the first
argument says: highest level first. A file that ends early leaves zeroes in the mipmap. -/
def loadLevels (f : Format) (width height : BitVec 32) : Nat → List Bytes → Rd (List Bytes)
  | 0, acc => return acc
  | level + 1, acc => do
    let m ← Rd.readPadded (mipmapSize f width height level).toNat
    loadLevels f width height level (acc ++ [m])

/-- `Texture::load` (`src/Texture.cc:280-317`), called on `t`: the levels are appended to those `t` has already. -/
def Texture.load (t : Texture) : Rd Texture := do
  let sig ← Rd.string 4
  if sig ≠ b!"ZTEX" then Rd.fail (.throw .parser) else do
  let version ← Rd.u32
  if version ≠ 0 then Rd.fail (.throw .parser) else do
  let format ← Rd.u32
  let width ← Rd.u32
  let height ← Rd.u32
  let mips ← Rd.u32
  let refWidth ← Rd.u32
  let refHeight ← Rd.u32
  let averageColor ← Rd.u32
  let palette ← loadPalette format t.palette
  let textures ← loadLevels format width height (max1 mips).toNat t.textures
  return { format, palette, width, height, refWidth, refHeight, mipmaps := max1 mips, averageColor, textures }

/-- One palette entry to a file (`src/Texture.cc:352-357`). -/
def Color.save (c : Color) (w : Ws) : Ws := (((w.u8 c.b).u8 c.g).u8 c.r).u8 c.a

/-- `Texture::save` (`src/Texture.cc:340-363`). -/
def Texture.save (t : Texture) (w : Ws) : Ws :=
  let w := w.string b!"ZTEX"
  let w := w.u32 0
  let w := w.u32 t.format
  let w := w.u32 t.width
  let w := w.u32 t.height
  let w := w.u32 t.mipmaps
  let w := w.u32 t.refWidth
  let w := w.u32 t.refHeight
  let w := w.u32 t.averageColor
  let w := if t.format = p8 then t.palette.foldl (fun w c => c.save w) w else w
  t.textures.foldl (fun w m => w.write m) w

/-- `Texture::data` (`include/zenkit/Texture.hh:121-123`): `noexcept`, so `at` out of range terminates. -/
def Texture.data (t : Texture) (level : BitVec 32) : Except Fail Bytes :=
  match t.textures[(t.mipmaps - 1 - level).toNat]? with
  | some m => .ok m
  | none => .error .terminate

/-- `width >> level` on `std::uint32_t`: undefined for 32 and more. -/
def shr (x : BitVec 32) (level : Nat) : Except Fail (BitVec 32) :=
  if level < 32 then .ok (x >>> level) else .error .ub

/-! ## Pixels -/

/-- `bytes[i]`. -/
def get (bs : Bytes) (i : BitVec 32) : Except Fail Byte :=
  match bs[i.toNat]? with
  | some b => .ok b
  | none => .error .ub

/-- `conv[i] = b`. -/
def put (conv : Bytes) (i : BitVec 32) (b : Byte) : Except Fail Bytes :=
  if i.toNat < conv.length then .ok (conv.set i.toNat b) else .error .ub

/-- `for (auto i = 0u; i < n; ++i) conv = body(i, conv)`, with as many rounds to go as the first argument says. -/
def rounds (body : BitVec 32 → Bytes → Except Fail Bytes) : Nat → BitVec 32 → Bytes → Except Fail Bytes
  | 0, _, conv => .ok conv
  | n + 1, i, conv => do
    let conv ← body i conv
    rounds body n (i + 1) conv

/-- `for (auto i = 0u; i < n; ++i)`. -/
def forU32 (n : BitVec 32) (body : BitVec 32 → Bytes → Except Fail Bytes) (conv : Bytes) : Except Fail Bytes :=
  rounds body n.toNat 0 conv

/-- `conv[i * ds + d] = bytes[i * ss + s];` for the pairs `(d, s)` in turn. -/
def moves (bytes : Bytes) (ds ss : BitVec 32) : List (BitVec 32 × BitVec 32) → BitVec 32 → Bytes → Except Fail Bytes
  | [], _, conv => .ok conv
  | (d, s) :: more, i, conv => do
    let b ← get bytes (i * ss + s)
    let conv ← put conv (i * ds + d) b
    moves bytes ds ss more i conv

/-- `static_cast<uint8_t>(static_cast<float>(x) * 8.225806452f)`: the constant is `8625383 * 2^-20`, the product is rounded
to 24 bits (ties to even), the result is truncated. `x` has five bits. -/
def scale5 (x : Nat) : Byte := UInt8.ofNat (roundProduct (x * 8625383) / 2 ^ 20)
where
  /-- The nearest number of 24 significant bits. -/
  roundProduct (p : Nat) : Nat :=
    let e := Nat.log2 p - 23
    let q := p / 2 ^ e
    let r := p % 2 ^ e
    (if 2 * r < 2 ^ e then q else if 2 ^ e < 2 * r then q + 1 else if q % 2 = 0 then q else q + 1) * 2 ^ e

/-- `static_cast<uint8_t>(static_cast<float>(x) * 4.047619048f)`: the constant is `8488472 * 2^-21`. -/
def scale6 (x : Nat) : Byte := UInt8.ofNat (scale5.roundProduct (x * 8488472) / 2 ^ 21)

/-- One round of the R5G6B5 case of `_ztex_to_rgba` (`src/Texture.cc:153-163`). `r5g6b5` (`src/Texture.cc:14-18`) has its
first member in the lowest bits of a little-endian 16-bit word. -/
def from565 (bytes : Bytes) (i : BitVec 32) (conv : Bytes) : Except Fail Bytes := do
  let lo ← get bytes (i * 2)
  let hi ← get bytes (i * 2 + 1)
  let x := lo.toNat + 256 * hi.toNat
  let conv ← put conv (i * 4 + 0) (scale5 (x / 2048))
  let conv ← put conv (i * 4 + 1) (scale6 (x / 32 % 64))
  let conv ← put conv (i * 4 + 2) (scale5 (x % 32))
  put conv (i * 4 + 3) 0xff

/-- One round of the A4R4G4B4 case of `_ztex_to_rgba` (`src/Texture.cc:164-173`). -/
def from4444 (bytes : Bytes) (i : BitVec 32) (conv : Bytes) : Except Fail Bytes := do
  let lo ← get bytes (i * 2 + 0)
  let hi ← get bytes (i * 2 + 1)
  let conv ← put conv (i * 4 + 2) ((lo &&& 0x0F) * 17)
  let conv ← put conv (i * 4 + 1) ((lo >>> 4 &&& 0x0F) * 17)
  let conv ← put conv (i * 4 + 0) ((hi &&& 0x0F) * 17)
  put conv (i * 4 + 3) ((hi >>> 4 &&& 0x0F) * 17)

/-- The `squish` library: `DecompressImage` gives the pixels of an image in rows of RGBA. -/
structure Squish where
  decompress : Format → Bytes → BitVec 32 → BitVec 32 → Bytes

/-- `vector::assign(bytes, bytes + n)`. -/
def assign (bytes : Bytes) (n : BitVec 32) : Except Fail Bytes :=
  if n.toNat ≤ bytes.length then .ok (bytes.take n.toNat) else .error .ub

/-- `_ztex_to_rgba` (`src/Texture.cc:73-180`). -/
def toRgba (sq : Squish) (bytes : Bytes) (w h : BitVec 32) (src : Format) : Except Fail Bytes :=
  let conv := List.replicate (w * h * 4).toNat 0
  if src = dxt1 ∨ src = dxt3 ∨ src = dxt5 then .ok (sq.decompress src bytes w h)
  else if src = b8g8r8a8 then forU32 (w * h) (moves bytes 4 4 [(0, 2), (1, 1), (2, 0), (3, 3)]) conv
  else if src = r8g8b8a8 then assign bytes (w * h * 4)
  else if src = a8b8g8r8 then forU32 (w * h) (moves bytes 4 4 [(0, 3), (1, 2), (2, 1), (3, 0)]) conv
  else if src = a8r8g8b8 then forU32 (w * h) (moves bytes 4 4 [(0, 1), (1, 2), (2, 3), (3, 0)]) conv
  else if src = b8g8r8 then forU32 (w * h) (fun i c => do
    let c ← moves bytes 4 3 [(0, 2), (1, 1), (2, 0)] i c
    put c (i * 4 + 3) 0xff) conv
  else if src = r8g8b8 then forU32 (w * h) (fun i c => do
    let c ← moves bytes 4 3 [(0, 0), (1, 1), (2, 2)] i c
    put c (i * 4 + 3) 0xff) conv
  else if src = r5g6b5 then forU32 (w * h) (from565 bytes) conv
  else if src = a4r4g4b4 then forU32 (w * h) (from4444 bytes) conv
  else .error (.throw .parser)

/-- `static_cast<uint8_t>(static_cast<double>(b) / (n / 8.))`: the quotient `b * 8 / n` (exact up to rounding, which does
not change the integral part for bytes), undefined behaviour when its integral part is not in range. -/
def unscale (n : Nat) (b : Byte) : Except Fail Byte :=
  if b.toNat * 8 / n < 256 then .ok (UInt8.ofNat (b.toNat * 8 / n)) else .error .ub

/-- One round of the R5G6B5 case of `_ztex_from_rgba` (`src/Texture.cc:234-247`): the members of the aggregate are filled in
the order b, g, r; a bit-field keeps the low bits. -/
def to565 (bytes : Bytes) (i : BitVec 32) (conv : Bytes) : Except Fail Bytes := do
  let b ← unscale 5 (← get bytes (i * 4 + 0))
  let g ← unscale 6 (← get bytes (i * 4 + 1))
  let r ← unscale 5 (← get bytes (i * 4 + 2))
  let x := b.toNat % 32 + 32 * (g.toNat % 64) + 2048 * (r.toNat % 32)
  let conv ← put conv (i * 2) (UInt8.ofNat x)
  put conv (i * 2 + 1) (UInt8.ofNat (x / 256))

/-- `_ztex_from_rgba` (`src/Texture.cc:182-263`). `squish::CompressImage` writes to `conv.data()` of an empty vector
(lines 248-256): undefined behaviour. In the B8G8R8A8 case the indices are `i + k`, not `i * 4 + k` (lines 187-196). -/
def fromRgba (bytes : Bytes) (w h : BitVec 32) (dest : Format) : Except Fail Bytes :=
  let conv4 := List.replicate (w * h * 4).toNat 0
  let conv3 := List.replicate (w * h * 3).toNat 0
  let conv2 := List.replicate (w * h * 2).toNat 0
  if dest = b8g8r8a8 then forU32 (w * h) (moves bytes 1 1 [(0, 2), (1, 1), (2, 0), (3, 3)]) conv4
  else if dest = r8g8b8a8 then assign bytes (w * h * 4)
  else if dest = a8b8g8r8 then forU32 (w * h) (moves bytes 4 4 [(0, 3), (1, 2), (2, 1), (3, 0)]) conv4
  else if dest = a8r8g8b8 then forU32 (w * h) (moves bytes 4 4 [(0, 1), (1, 2), (2, 3), (3, 0)]) conv4
  else if dest = b8g8r8 then forU32 (w * h) (moves bytes 3 4 [(0, 2), (1, 1), (2, 0)]) conv3
  else if dest = r8g8b8 then forU32 (w * h) (moves bytes 3 4 [(0, 0), (1, 1), (2, 2)]) conv3
  else if dest = r5g6b5 then forU32 (w * h) (to565 bytes) conv2
  else if dest = dxt1 ∨ dest = dxt3 ∨ dest = dxt5 then .error .ub
  else .error (.throw .parser)

/-- `_ztex_convert_format` (`src/Texture.cc:265-278`). -/
def convert (sq : Squish) (bytes : Bytes) (w h : BitVec 32) (src dest : Format) : Except Fail Bytes :=
  if src = dest then assign bytes (mipmapSize src w h 0)
  else do
    let rgba ← toRgba sq bytes w h src
    fromRgba rgba w h dest

/-- `Texture::as_rgba8` (`src/Texture.cc:319-338`). A paletted image is written into an empty vector. -/
def Texture.asRgba8 (sq : Squish) (t : Texture) (level : BitVec 32) : Except Fail Bytes := do
  let map ← t.data level
  let w ← shr t.width level.toNat
  let h ← shr t.height level.toNat
  if t.format = p8 then
    forU32 (w * h) (fun i conv => do
      let x ← get map i
      match t.palette[x.toNat]? with
      | none => .error .ub
      | some c => do
        let conv ← put conv (i * 4 + 0) ⟨c.r⟩
        let conv ← put conv (i * 4 + 1) ⟨c.g⟩
        let conv ← put conv (i * 4 + 2) ⟨c.b⟩
        put conv (i * 4 + 3) ⟨c.a⟩) []
  else toRgba sq map w h t.format

/-! ## Building -/

/-- `class TextureBuilder` (`include/zenkit/Texture.hh:147-159`). -/
structure Builder where
  width : BitVec 32
  height : BitVec 32
  mipmaps : List (Bytes × Format) := []
  deriving DecidableEq, Repr

/-- `TextureBuilder::add_mipmap` (`src/Texture.cc:367-375`). The number of mipmaps is cut to 32 bits by the call. -/
def Builder.add (b : Builder) (bytes : Bytes) (f : Format) : Except Fail Builder :=
  if bytes.length ≠ (mipmapSize f b.width b.height (b.mipmaps.length % 2 ^ 32)).toNat then .error (.throw .invalidMipmapSize)
  else .ok { b with mipmaps := b.mipmaps ++ [(bytes, f)] }

/-- The loop of `TextureBuilder::build` (`src/Texture.cc:391-394`). -/
def Builder.levels (sq : Squish) (w h : BitVec 32) (f : Format) : Nat → List (Bytes × Format) → Except Fail (List Bytes)
  | _, [] => .ok []
  | i, (bytes, g) :: more => do
    let m ← convert sq bytes (← shr w i) (← shr h i) g f
    let ms ← Builder.levels sq w h f (i + 1) more
    return m :: ms

/-- `TextureBuilder::build` (`src/Texture.cc:377-397`). -/
def Builder.build (sq : Squish) (b : Builder) (f : Format) : Except Fail Texture :=
  if f = p8 then .error (.throw .unsupportedFormat)
  else do
    let textures ← Builder.levels sq b.width b.height f 0 b.mipmaps
    return { format := f, width := b.width, height := b.height, refWidth := b.width, refHeight := b.height,
             mipmaps := BitVec.ofNat 32 b.mipmaps.length, textures }

end Verif.Tex
