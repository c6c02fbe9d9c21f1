import Verif.Spec.ObjLoad
import Verif.Model.ObjVob

/-! # What of a `VirtualObject` is stored -/

namespace Verif.Obj

open Verif.Ar

/-- The visual of a loaded object: the visual that was saved, under its new address and with the type of its class, if there was one
with a known type; else the default visual, without a name. -/
def VObj.storedVisual {P} (env : Env P) (φ : Nat → P) (name : Bytes) (v : Option (VisualRef Nat)) : VisualRef P :=
  match v with
  | some r =>
    if r.type = visUnknown then ⟨env.dflt, [], visUnknown⟩
    else match env.visual (φ r.obj) with
      | some t => ⟨φ r.obj, name, t⟩
      | none => ⟨env.dflt, [], visUnknown⟩
  | none => ⟨env.dflt, [], visUnknown⟩

/-- The name that was written for a visual, if any. -/
def VObj.nameOfVisual {P} (v : Option (VisualRef P)) : Bytes :=
  match v with
  | some r => r.name
  | none => []

/-- The object that `load` makes of `o` from what `save` has written for `x` in the packed form. Everything comes from `x`, except
for members that are not stored (`o`), and except for `anim_mode`, `bias`, `ambient` of Gothic 2, which come out of the wrong bits. -/
def VObj.stored {P} (c : Ctx) (env : Env P) (φ : Nat → P) (o : VObj P) (x : VObj Nat) : VObj P where
  bbox := x.bbox
  position := x.position
  rotation := x.rotation
  showVisual := x.showVisual
  camAlign := x.camAlign &&& 3
  cdStatic := x.cdStatic
  cdDynamic := x.cdDynamic
  vobStatic := x.vobStatic
  shadows := x.shadows &&& 3
  physics := if c.game = .g2 then x.physics && x.rigidBody.isSome else x.physics
  animMode :=
    if c.game = .g2 then (if x.presetName = [] then 0 else 1) + (if x.vobName = [] then 0 else 2) else o.animMode
  bias := if c.game = .g2 then (if x.bias.getLsbD 0 then 16 else 0) else o.bias
  ambient := if c.game = .g2 then x.ambient || x.bias.getLsbD 1 else o.ambient
  animStrength := if c.game = .g2 then x.animStrength else o.animStrength
  farClip := if c.game = .g2 then x.farClip else o.farClip
  presetName := if x.presetName = [] then o.presetName else x.presetName
  vobName := if x.vobName = [] then o.vobName else x.vobName
  visualName := if nameOfVisual x.visual = [] then o.visualName else nameOfVisual x.visual
  visual := some (VObj.storedVisual env φ (if nameOfVisual x.visual = [] then o.visualName else nameOfVisual x.visual) x.visual)
  ai := match x.ai with
    | some a => some (φ a)
    | none => o.ai
  eventManager := match x.eventManager with
    | some a => some (φ a)
    | none => o.eventManager
  sleepMode := if c.save then x.sleepMode else o.sleepMode
  nextOnTimer := if c.save then x.nextOnTimer else o.nextOnTimer
  rigidBody := if c.save ∧ x.physics ∧ x.rigidBody.isSome then x.rigidBody else o.rigidBody

/-- The objects whose saved form can be read: packed; an event manager only in saved games, and it is one; and in saved games of
Gothic 1, an object with physics has a rigid body. -/
structure VObj.Readable {P} (c : Ctx) (env : Env P) (φ : Nat → P) (x : VObj Nat) : Prop where
  pack : c.pack = true
  event : x.eventManager.isSome = true → c.save = true
  type : Typed env φ .zCEventManager x.eventManager
  body : c.game = .g1 → c.save = true → x.physics = true → x.rigidBody.isSome = true

end Verif.Obj
