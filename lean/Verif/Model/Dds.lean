import Verif.Model.Texture

/-!
# DDS files

Model of `src/addon/texcvt.cc`. The writer is that of a new vector.
-/

namespace Verif.Tex

/-- `DDPIXELFORMAT` without its size (`src/addon/texcvt.cc:46-55`). -/
structure DdsFormat where
  flags : BitVec 32 := 0
  fourCC : BitVec 32 := 0
  bits : BitVec 32 := 0
  r : BitVec 32 := 0
  g : BitVec 32 := 0
  b : BitVec 32 := 0
  a : BitVec 32 := 0
  deriving DecidableEq, Repr

/-- `MAKEFOURCC` (`src/addon/texcvt.cc:6-8`). -/
def fourCC (c0 c1 c2 c3 : Byte) : BitVec 32 :=
  BitVec.ofNat 32 c0.toNat ||| BitVec.ofNat 32 c1.toNat <<< 8 ||| BitVec.ofNat 32 c2.toNat <<< 16 ||| BitVec.ofNat 32 c3.toNat <<< 24

abbrev ddpfAlphaPixels : BitVec 32 := 0x1
abbrev ddpfFourCC : BitVec 32 := 0x4
abbrev ddpfPaletteIndexed8 : BitVec 32 := 0x20
abbrev ddpfRgb : BitVec 32 := 0x40

/-- The `switch` of `write_dds_header` (`src/addon/texcvt.cc:96-189`); a number without enumerator leaves all zeroes. -/
def ddsFormat (f : Format) : DdsFormat :=
  if f = b8g8r8a8 then
    { flags := ddpfRgb ||| ddpfAlphaPixels, bits := 32, r := 0x0000FF00, g := 0x00FF0000, b := 0xFF000000, a := 0x000000FF }
  else if f = r8g8b8a8 then
    { flags := ddpfRgb ||| ddpfAlphaPixels, bits := 32, r := 0xFF000000, g := 0x00FF0000, b := 0x0000FF00, a := 0x000000FF }
  else if f = a8b8g8r8 then
    { flags := ddpfRgb ||| ddpfAlphaPixels, bits := 32, r := 0x000000FF, g := 0x0000FF00, b := 0x00FF0000, a := 0xFF000000 }
  else if f = a8r8g8b8 then
    { flags := ddpfRgb ||| ddpfAlphaPixels, bits := 32, r := 0x00FF0000, g := 0x0000FF00, b := 0x000000FF, a := 0xFF000000 }
  else if f = b8g8r8 then { flags := ddpfRgb, bits := 24, r := 0x000000FF, g := 0x0000FF00, b := 0x00FF0000 }
  else if f = r8g8b8 then { flags := ddpfRgb, bits := 24, r := 0x00FF0000, g := 0x0000FF00, b := 0x000000FF }
  else if f = a4r4g4b4 then
    { flags := ddpfRgb ||| ddpfAlphaPixels, bits := 16, r := 0x00000F00, g := 0x000000F0, b := 0x0000000F, a := 0x0000F000 }
  else if f = a1r5g5b5 then
    { flags := ddpfRgb ||| ddpfAlphaPixels, bits := 16, r := 0x00007C00, g := 0x000003E0, b := 0x0000001F, a := 0x00008000 }
  else if f = r5g6b5 then { flags := ddpfRgb, bits := 16, r := 0x0000F800, g := 0x000007E0, b := 0x0000001F }
  else if f = p8 then { flags := ddpfPaletteIndexed8 }
  else if f = dxt1 then { flags := ddpfFourCC, fourCC := fourCC 68 88 84 49 }
  else if f = dxt2 then { flags := ddpfFourCC, fourCC := fourCC 68 88 84 50 }
  else if f = dxt3 then { flags := ddpfFourCC, fourCC := fourCC 68 88 84 51 }
  else if f = dxt4 then { flags := ddpfFourCC, fourCC := fourCC 68 88 84 52 }
  else if f = dxt5 then { flags := ddpfFourCC, fourCC := fourCC 68 88 84 53 }
  else {}

/-- `DDSURFACEDESC2` (`src/addon/texcvt.cc:57-69`): the members that are not always zero or the size of a structure. -/
structure DdsHeader where
  flags : BitVec 32
  height : BitVec 32
  width : BitVec 32
  pitch : BitVec 32
  mipMapCount : BitVec 32
  format : DdsFormat
  caps1 : BitVec 32
  deriving DecidableEq, Repr

abbrev ddsdCaps : BitVec 32 := 0x1
abbrev ddsdHeight : BitVec 32 := 0x2
abbrev ddsdWidth : BitVec 32 := 0x4
abbrev ddsdPitch : BitVec 32 := 0x8
abbrev ddsdPixelFormat : BitVec 32 := 0x1000
abbrev ddsdMipMapCount : BitVec 32 := 0x20000
abbrev ddsdLinearSize : BitVec 32 := 0x80000
abbrev ddsCapsComplex : BitVec 32 := 0x8
abbrev ddsCapsTexture : BitVec 32 := 0x1000
abbrev ddsCapsMipMap : BitVec 32 := 0x400000

/-- `write_dds_header` as far as it fills the header (`src/addon/texcvt.cc:71-189`). -/
def ddsHeader (t : Texture) : DdsHeader :=
  let flags := ddsdWidth ||| ddsdHeight ||| ddsdPixelFormat ||| ddsdCaps
  let (flags, pitch) :=
    if t.format ≠ dxt1 ∧ t.format ≠ dxt2 ∧ t.format ≠ dxt3 ∧ t.format ≠ dxt4 ∧ t.format ≠ dxt5 then
      (flags ||| ddsdPitch, mipmapSize t.format t.width 1 0)
    else (flags ||| ddsdLinearSize, mipmapSize t.format t.width t.height 0)
  let (flags, caps1, count) :=
    if t.mipmaps > 1 then (flags ||| ddsdMipMapCount, ddsCapsTexture ||| (ddsCapsMipMap ||| ddsCapsComplex), t.mipmaps)
    else (flags, ddsCapsTexture, 0)
  { flags, height := t.height, width := t.width, pitch, mipMapCount := count, format := ddsFormat t.format, caps1 }

/-- The members of the header in the order in which they are written (`src/addon/texcvt.cc:191-215`). -/
def DdsHeader.words (h : DdsHeader) : List (BitVec 32) :=
  [124, h.flags, h.height, h.width, h.pitch, 0, h.mipMapCount] ++ List.replicate 11 0 ++
    [32, h.format.flags, h.format.fourCC, h.format.bits, h.format.r, h.format.g, h.format.b, h.format.a, h.caps1, 0, 0, 0, 0]

/-- `write_dds_header` as far as it writes (`src/addon/texcvt.cc:191-216`). -/
def DdsHeader.save (h : DdsHeader) (w : Ws) : Ws := h.words.foldl (fun w x => w.u32 x) w

/-- `write_dds_data` (`src/addon/texcvt.cc:227-232`). -/
def ddsData (t : Texture) (w : Ws) : Except Fail Ws :=
  (List.range t.mipmaps.toNat).foldlM (fun w level => do
    let data ← t.data (BitVec.ofNat 32 level)
    return w.write data) w

/-- `to_dds` (`src/addon/texcvt.cc:234-247`), with `write_dds_palette` (`src/addon/texcvt.cc:218-225`). -/
def toDds (t : Texture) : Except Fail Bytes := do
  let w := Ws.empty.string b!"DDS "
  let w := (ddsHeader t).save w
  let w := if t.format = p8 then t.palette.foldl (fun w c => c.save w) w else w
  let w ← ddsData t w
  return w.data

end Verif.Tex
