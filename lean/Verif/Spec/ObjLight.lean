import Verif.Model.ObjLight
import Verif.Spec.ObjLoad

/-! # Copies of lights and materials -/

namespace Verif.Obj

open Verif.Ar

/-- The number is the whole number `n`, and has at most six digits. -/
def IsWhole (v : F32) (n : Nat) : Prop :=
  v.msb = false ∧ FText.mag v < FText.infMag ∧ FText.units (FText.mag v) = n * 2 ^ 149 ∧ n < 10 ^ 6

/-- The whole number that a number is. -/
def whole (v : F32) : Nat := FText.units (FText.mag v) / 2 ^ 149

/-- A finite number. -/
def Finite (v : F32) : Prop := FText.mag v < FText.infMag

/-- A finite number with at most six significant decimal digits. -/
def SixDigits (v : F32) : Prop := Finite v ∧ (FText.mag v = 0 ∨ FText.Short 6 (FText.mag v))

/-- A colour without transparency. -/
def opaque_ (c : Color) : Color := { c with a := 255 }

/-- The grey with the lowest eight bits of a number as its brightness. -/
def grey (n : Nat) : Color := ⟨BitVec.ofNat 8 n, BitVec.ofNat 8 n, BitVec.ofNat 8 n, 255⟩

/-- A new light, loaded from what was saved for `x`, where `extra` are colours that nobody asked for. -/
def LightPreset.copy (c : Ctx) (x : LightPreset) (extra : List Color) : LightPreset :=
  if x.isStatic then
    { preset := x.preset, lightType := x.lightType, range := x.range, color := x.color, coneAngle := x.coneAngle, isStatic := true,
      quality := x.quality, lensflareFx := x.lensflareFx }
  else
    { x with colors := extra ++ x.colors.map opaque_, canMove := if c.g2 then x.canMove else true }

/-- A light whose saved form can be read: all its factors are whole numbers. -/
def LightPreset.Readable (x : LightPreset) : Prop := x.isStatic = true ∨ ∀ v ∈ x.rangeScale, IsWhole v (whole v)

/-- The factors `l` are the whole numbers `ns`. -/
def Wholes (l : List F32) (ns : List Nat) : Prop := List.Forall₂ IsWhole l ns

/-- A new material, loaded from what was saved for `x`, whose `alpha_func` became `alpha`. -/
def Material.copy (c : Ctx) (alpha : BitVec 32) (x : Material) : Material :=
  if c.g2 then { x with alphaFunc := alpha }
  else
    { x with
      detailScale := 0, forceOccluder := false, envMapping := false, envStrength := 0, waveMode := 0, waveSpeed := 0, waveAmplitude := 0,
      waveGrid := 0, ignoreSun := false, alphaFunc := 0 }

/-- The same for a material that was in use as `o`: what a file of Gothic 1 does not have stays as it was. -/
def Material.copyOver (c : Ctx) (alpha : BitVec 32) (x o : Material) : Material :=
  if c.g2 then { x with alphaFunc := alpha }
  else
    { x with
      detailScale := o.detailScale, forceOccluder := o.forceOccluder, envMapping := o.envMapping, envStrength := o.envStrength,
      waveMode := o.waveMode, waveSpeed := o.waveSpeed, waveAmplitude := o.waveAmplitude, waveGrid := o.waveGrid, ignoreSun := o.ignoreSun,
      alphaFunc := 0 }

/-- The members that are kept as text are numbers. -/
def Material.Finite (x : Material) : Prop :=
  Obj.Finite x.textureScale.x ∧ Obj.Finite x.textureScale.y ∧ Obj.Finite x.animMapDir.x ∧ Obj.Finite x.animMapDir.y

end Verif.Obj
