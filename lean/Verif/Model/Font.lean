import Verif.Model.StreamTypes

/-! # Fonts: `src/Font.cc`, `include/zenkit/Font.hh` -/

namespace Verif

/-- `struct FontGlyph` (`include/zenkit/Font.hh`). -/
structure Glyph where
  width : BitVec 8
  uv0 : Vec2
  uv1 : Vec2
  deriving DecidableEq, Repr

/-- `class Font` (`include/zenkit/Font.hh`). -/
structure Font where
  name : Bytes
  height : BitVec 32
  glyphs : List Glyph
  deriving DecidableEq, Repr

/-- `Font::load` (`src/Font.cc:15-35`). Every member is assigned, so the previous content of the object does not matter. -/
def Font.load : Rd Font := do
  let version ← Rd.line true
  if version ≠ b!"1" then Rd.fail (.throw .parser) else do
  let name ← Rd.line false
  let height ← Rd.u32
  let n ← Rd.u32
  let widths ← Rd.times Rd.u8 n.toNat
  let uv0 ← Rd.times Rd.vec2 n.toNat
  let uv1 ← Rd.times Rd.vec2 n.toNat
  return { name, height, glyphs := List.zipWith (fun w (u : Vec2 × Vec2) => ⟨w, u.1, u.2⟩) widths (uv0.zip uv1) }

/-- `Font::save` (`src/Font.cc:39-55`). -/
def Font.save (f : Font) (w : Ws) : Ws :=
  let w := w.line b!"1"
  let w := w.line f.name
  let w := w.u32 f.height
  let w := w.u32 (BitVec.ofNat 32 f.glyphs.length)
  let w := f.glyphs.foldl (fun w g => w.u8 g.width) w
  let w := f.glyphs.foldl (fun w g => w.vec2 g.uv0) w
  f.glyphs.foldl (fun w g => w.vec2 g.uv1) w

end Verif
