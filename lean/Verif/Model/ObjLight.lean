import Verif.Model.ObjVob
import Verif.Base.FloatG

/-!
# Lights and materials: `src/vobs/Light.cc`, `src/Material.cc`

Both keep some of their members as text. The text is read with `std::istringstream`: its state is the text that is left, and whether
an extraction has failed. An extraction from a stream that has failed, or that has only white space left, does not touch the variable.
-/

namespace Verif.Obj

open Verif.Ar

/-- `std::istringstream`. The flag `eofbit` is not described: without text left, extractions fail with it and without it. -/
structure IStr where
  rest : Bytes
  good : Bool := true
  deriving DecidableEq, Repr

/-- `s >> c` of a `char`: the new value unless the variable is not touched. -/
def IStr.char (s : IStr) : Option Byte × IStr :=
  if s.good then
    match s.rest.dropWhile isSpace with
    | c :: r => (some c, ⟨r, true⟩)
    | [] => (none, ⟨[], false⟩)
  else (none, s)

/-- `s >> n` of a `std::uint32_t`: a sign and decimal digits. Without digits 0 is stored, and the largest number if it is too large;
both are failures. A negative number is stored modulo 2³². -/
def IStr.u32 (s : IStr) : Option (BitVec 32) × IStr :=
  if s.good then
    match s.rest.dropWhile isSpace with
    | [] => (none, ⟨[], false⟩)
    | c :: r =>
      let sg := signOf (c :: r)
      let ds := sg.2.takeWhile isDigit
      let r := sg.2.dropWhile isDigit
      if ds = [] then (some 0, ⟨r, false⟩)
      else if 2 ^ 32 ≤ digitsVal ds then (some (BitVec.allOnes 32), ⟨r, false⟩)
      else (some (if sg.1 then -BitVec.ofNat 32 (digitsVal ds) else BitVec.ofNat 32 (digitsVal ds)), ⟨r, true⟩)
  else (none, s)

/-- `s >> x` of a `float` (`Verif.FText.extract`). Not described: what is left of the text of a number that fails. -/
def IStr.float (s : IStr) : Option F32 × IStr :=
  if s.good then
    match s.rest.dropWhile isSpace with
    | [] => (none, ⟨[], false⟩)
    | c :: r => match FText.extract (c :: r) with
      | (v, some r) => (some v, ⟨r, true⟩)
      | (v, none) => (some v, ⟨[], false⟩)
  else (none, s)

/-- `while (ranges >> value) push_back(value)` (`src/vobs/Light.cc:34-38`). Each round takes a character away; the fuel is the number
of characters plus one. -/
def rangesLoop : Nat → IStr → List F32 → Except Fail (List F32)
  | 0, _, _ => .error .hang
  | n + 1, s, acc =>
    match s.float with
    | (some v, ⟨r, true⟩) => rangesLoop n ⟨r, true⟩ (acc ++ [v])
    | _ => .ok acc

/-- `emplace_back(cr, cg, cb, 255)`: the numbers are cut to a byte. -/
def rgb (r g b : BitVec 32) : Color := ⟨r.setWidth 8, g.setWidth 8, b.setWidth 8, 255⟩

/-- The loop over `colorAniList` (`src/vobs/Light.cc:54-74`). The variables `cr`, `cg`, `cb` have no value before the first
assignment; using them then is undefined behaviour. Simplification: `isdigit` of a negative `char`, which the standard leaves undefined, is false. -/
def colorsLoop : Nat → IStr → Option (BitVec 32) × Option (BitVec 32) × Option (BitVec 32) → List Color → Except Fail (List Color)
  | 0, _, _, _ => .error .hang
  | n + 1, s, (cr, cg, cb), acc =>
    match s.char with
    | (none, _) => .ok acc
    | (some c, s) =>
      if isDigit c then
        let (v, s) := IStr.u32 ⟨c :: s.rest, true⟩
        match v.or cr with
        | some v => colorsLoop n s (some v, cg, cb) (acc ++ [rgb v v v])
        | none => .error .ub
      else
        let (v, s) := s.u32
        let cr := v.or cr
        let (v, s) := s.u32
        let cg := v.or cg
        let (v, s) := s.u32
        let cb := v.or cb
        let (_, s) := s.char
        match cr, cg, cb with
        | some r, some g, some b => colorsLoop n s (some r, some g, some b) (acc ++ [rgb r g b])
        | _, _, _ => .error .ub

/-- The numbers read from `rangeAniScale` are added to a list. -/
def readRanges (t : Bytes) (old : List F32) : Except Fail (List F32) := rangesLoop (t.length + 1) ⟨t, true⟩ old

/-- The colours read from `colorAniList` are added to a list. -/
def readColors (t : Bytes) (old : List Color) : Except Fail (List Color) := colorsLoop (t.length + 1) ⟨t, true⟩ (none, none, none) old

/-- A computation that may fail. -/
def Ld.lift {P α} : Except Fail α → Ld P α
  | .ok a => .ret a
  | .error e => .fail e

/-- `LightPreset` (`include/zenkit/vobs/Light.hh:42-154`). -/
structure LightPreset where
  preset : Bytes := []
  lightType : BitVec 32 := 1
  range : F32 := 0
  color : Color := ⟨0, 0, 0, 0⟩
  coneAngle : F32 := 0
  isStatic : Bool := false
  quality : BitVec 32 := 1
  lensflareFx : Bytes := []
  on : Bool := false
  rangeScale : List F32 := []
  rangeFps : F32 := 0
  rangeSmooth : Bool := true
  colors : List Color := []
  colorFps : F32 := 0
  colorSmooth : Bool := true
  canMove : Bool := true
  deriving DecidableEq, Repr

/-- `LightPreset::load` (`src/vobs/Light.cc:15-80`). -/
def LightPreset.load {P} (c : Ctx) (o : LightPreset) : Ld P LightPreset := do
  let preset ← Ld.str
  let lightType ← Ld.enum
  let range ← Ld.float
  let color ← Ld.color
  let coneAngle ← Ld.float
  let isStatic ← Ld.bool
  let quality ← Ld.enum
  let lensflareFx ← Ld.str
  let o := { o with preset, lightType, range, color, coneAngle, isStatic, quality, lensflareFx }
  Ld.opt (!isStatic) o do
    let on ← Ld.bool
    let scales ← Ld.str
    let rangeFps ← Ld.float
    let rangeSmooth ← Ld.bool
    let list ← Ld.str
    let colorFps ← Ld.float
    let colorSmooth ← Ld.bool
    let rangeScale ← Ld.lift (readRanges scales o.rangeScale)
    let colors ← Ld.lift (readColors list o.colors)
    let canMove ← Ld.opt c.g2 o.canMove Ld.bool
    return { o with on, rangeScale, rangeFps, rangeSmooth, colors, colorFps, colorSmooth, canMove }

/-- What `os << r << " "` of the factors has written (`src/vobs/Light.cc:95-98`). -/
def rangesText (l : List F32) : Bytes := l.flatMap fun v => FText.printG 6 v ++ [32]

/-- What the loop over the colours writes (`src/vobs/Light.cc:105-108`). -/
def colorsText (l : List Color) : Bytes :=
  l.flatMap fun c => 40 :: dec c.r.toNat ++ 32 :: dec c.g.toNat ++ 32 :: dec c.b.toNat ++ b!") "

/-- `LightPreset::save` (`src/vobs/Light.cc:82-118`). `os.clear()` (line 104) resets the flags of the stream and leaves its content:
the text of the colours begins with that of the factors. -/
def LightPreset.save (c : Ctx) (x : LightPreset) : List Field :=
  [fStr b!"lightPresetInUse" x.preset, fEnum b!"lightType" x.lightType, fFloat b!"range" x.range, fColor b!"color" x.color,
    fFloat b!"spotConeAngle" x.coneAngle, fBool b!"lightStatic" x.isStatic, fEnum b!"lightQuality" x.quality,
    fStr b!"lensflareFX" x.lensflareFx] ++
  fIf (!x.isStatic) (
    [fBool b!"turnedOn" x.on, fStr b!"rangeAniScale" (rangesText x.rangeScale), fFloat b!"rangeAniFPS" x.rangeFps,
      fBool b!"rangeAniSmooth" x.rangeSmooth, fStr b!"colorAniList" (rangesText x.rangeScale ++ colorsText x.colors),
      fFloat b!"colorAniFPS" x.colorFps, fBool b!"colorAniSmooth" x.colorSmooth] ++
    fIf c.g2 [fBool b!"canMove" x.canMove])

/-- `VLight` (`include/zenkit/vobs/Light.hh:161-177`). -/
structure VLight (P : Type) where
  base : VObj P := {}
  light : LightPreset := {}
  deriving DecidableEq, Repr

/-- `VLight::load` (`src/vobs/Light.cc:130-133`). -/
def VLight.load {P} (c : Ctx) (env : Env P) (o : VLight P) : Ld P (VLight P) := do
  let base ← VObj.load c env o.base
  let light ← LightPreset.load c o.light
  return { base, light }

/-- `VLight::save` (`src/vobs/Light.cc:135-138`). -/
def VLight.save (c : Ctx) (x : VLight Nat) : List Field := x.base.save c ++ x.light.save c

/-- `Material` (`include/zenkit/Material.hh:125-176`). -/
structure Material where
  name : Bytes := []
  group : BitVec 8 := 0
  color : Color := ⟨0, 0, 0, 0⟩
  smoothAngle : F32 := 0
  texture : Bytes := []
  textureScale : Vec2 := ⟨0, 0⟩
  animFps : F32 := 0
  animMapMode : BitVec 32 := 0
  animMapDir : Vec2 := ⟨0, 0⟩
  disableCollision : Bool := false
  disableLightmap : Bool := false
  dontCollapse : Bool := false
  detailObject : Bytes := []
  detailScale : F32 := 0
  forceOccluder : Bool := false
  envMapping : Bool := false
  envStrength : F32 := 0
  waveMode : BitVec 8 := 0
  waveSpeed : BitVec 8 := 0
  waveAmplitude : F32 := 0
  waveGrid : F32 := 0
  ignoreSun : Bool := false
  alphaFunc : BitVec 32 := 1
  mapping : Vec2 := ⟨0, 0⟩
  deriving DecidableEq, Repr

/-- `s >> v.x >> v.y` on a new stream (`src/Material.cc:49-50, 55-56`). -/
def readVec2 (t : Bytes) (old : Vec2) : Vec2 :=
  let (x, s) := IStr.float ⟨t, true⟩
  let (y, _) := s.float
  ⟨x.getD old.x, y.getD old.y⟩

/-- What is written with `"%.9g %.9g"` (`src/Material.cc:91-104`). The buffer is large enough for any two numbers. -/
def vec2Text (v : Vec2) : Bytes := FText.printG 9 v.x ++ 32 :: FText.printG 9 v.y

/-- `Material::load(ReadArchive&, GameVersion)` (`src/Material.cc:42-80`). -/
def Material.load {P} (c : Ctx) (o : Material) : Ld P Material := do
  let name ← Ld.str
  let group ← Ld.enum
  let color ← Ld.color
  let smoothAngle ← Ld.float
  let texture ← Ld.str
  let scale ← Ld.str
  let animFps ← Ld.float
  let animMapMode ← Ld.enum
  let dir ← Ld.str
  let disableCollision ← Ld.bool
  let disableLightmap ← Ld.bool
  let dontCollapse ← Ld.bool
  let detailObject ← Ld.str
  let o := { o with
    name, group := group.setWidth 8, color, smoothAngle, texture, textureScale := readVec2 scale o.textureScale, animFps, animMapMode,
    animMapDir := readVec2 dir o.animMapDir, disableCollision, disableLightmap, dontCollapse, detailObject }
  let o ← Ld.opt c.g2 { o with alphaFunc := 0 } do
    let detailScale ← Ld.float
    let forceOccluder ← Ld.bool
    let envMapping ← Ld.bool
    let envStrength ← Ld.float
    let waveMode ← Ld.enum
    let waveSpeed ← Ld.enum
    let waveAmplitude ← Ld.float
    let waveGrid ← Ld.float
    let ignoreSun ← Ld.bool
    let alphaFunc ← Ld.enum
    return { o with
      detailScale, forceOccluder, envMapping, envStrength, waveMode := waveMode.setWidth 8, waveSpeed := waveSpeed.setWidth 8,
      waveAmplitude, waveGrid, ignoreSun, alphaFunc }
  let mapping ← Ld.vec2
  return { o with mapping }

/-- `Material::save` (`src/Material.cc:82-123`), with the call for `alphaFunc` as a parameter. -/
def Material.saveWith (alpha : Field) (c : Ctx) (x : Material) : List Field :=
  [fStr b!"name" x.name, fEnum b!"matGroup" (x.group.setWidth 32), fColor b!"color" x.color, fFloat b!"smoothAngle" x.smoothAngle,
    fStr b!"texture" x.texture, fStr b!"texScale" (vec2Text x.textureScale), fFloat b!"texAniFPS" x.animFps,
    fEnum b!"texAniMapMode" x.animMapMode, fStr b!"texAniMapDir" (vec2Text x.animMapDir), fBool b!"noCollDet" x.disableCollision,
    fBool b!"noLightmap" x.disableLightmap, fBool b!"losDontCollapse" x.dontCollapse, fStr b!"detailObject" x.detailObject] ++
  (fIf c.g2 [fFloat b!"detailObjectScale" x.detailScale, fBool b!"forceOccluder" x.forceOccluder,
    fBool b!"environmentalMapping" x.envMapping, fFloat b!"environmentalMappingStrength" x.envStrength,
    fEnum b!"waveMode" (x.waveMode.setWidth 32), fEnum b!"waveSpeed" (x.waveSpeed.setWidth 32),
    fFloat b!"waveMaxAmplitude" x.waveAmplitude, fFloat b!"waveGridSize" x.waveGrid, fBool b!"ignoreSunLight" x.ignoreSun, alpha] ++
  [fVec2 b!"defaultMapping" x.mapping])

/-- `Material::save`: `alphaFunc` is written as a truth value (`src/Material.cc:119`). -/
def Material.save (c : Ctx) (x : Material) : List Field := x.saveWith (fBool b!"alphaFunc" (x.alphaFunc ≠ 0)) c

end Verif.Obj
