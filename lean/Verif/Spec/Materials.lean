import Verif.Model.Materials
import Verif.Spec.ObjLight
import Verif.Lemmas.Line

/-! # The materials of meshes: what is expected -/

namespace Verif.Obj

open Verif.Ar

/-- A material that a BINARY archive can keep: the members kept as text are numbers, the texts have no line break and no NUL, and
the mode of the animation fits into a byte. -/
structure Material.Plain (x : Material) : Prop where
  finite : x.Finite
  name : NoEol x.name
  texture : NoEol x.texture
  detail : NoEol x.detailObject
  mode : x.animMapMode.toNat < 256

/-- What is left of a material in a file of a game: Gothic 1 keeps less, and of `alpha_func` only remains whether it is 0. -/
def Material.kept (g : Game) (x : Material) : Material :=
  match g with
  | .g2 => { x with alphaFunc := if x.alphaFunc = 0 then 0 else 1 }
  | .g1 =>
    { x with
      detailScale := 0, forceOccluder := false, envMapping := false, envStrength := 0, waveMode := 0, waveSpeed := 0, waveAmplitude := 0,
      waveGrid := 0, ignoreSun := false, alphaFunc := 0 }

/-- What a material that was in use as `o` becomes when `x` is loaded into it. -/
def Material.keptOver (g : Game) (x o : Material) : Material :=
  match g with
  | .g2 => { x with alphaFunc := if x.alphaFunc = 0 then 0 else 1 }
  | .g1 =>
    { x with
      detailScale := o.detailScale, forceOccluder := o.forceOccluder, envMapping := o.envMapping, envStrength := o.envStrength,
      waveMode := o.waveMode, waveSpeed := o.waveSpeed, waveAmplitude := o.waveAmplitude, waveGrid := o.waveGrid, ignoreSun := o.ignoreSun,
      alphaFunc := 0 }

/-- What the materials `os` of a mesh in use become when `xs` are loaded: as many as in the file, the first of them over the old ones. -/
def Material.keptIn (g : Game) : List Material → List Material → List Material
  | _, [] => []
  | [], x :: xs => x.kept g :: Material.keptIn g [] xs
  | o :: os, x :: xs => x.keptOver g o :: Material.keptIn g os xs

/-- Date and user are single lines, and take as much space when the archive is finished as when it was opened. -/
structure ClockOk (e e' : Ar.Env) : Prop where
  date : NoEol e'.date
  user : NoEol e'.user
  length : e.date.length + e.user.length = e'.date.length + e'.user.length

end Verif.Obj
