import Verif.Spec.ObjAny

/-! # What a client expects of a `VirtualObject` that was saved and loaded -/

namespace Verif.Obj

/-- The members that do not depend on the game and the kind of archive are those of the object saved, pointers being renamed. -/
structure VObj.Kept {P} (φ : Nat → P) (x : VObj Nat) (y : VObj P) : Prop where
  bbox : y.bbox = x.bbox
  position : y.position = x.position
  rotation : y.rotation = x.rotation
  showVisual : y.showVisual = x.showVisual
  camAlign : y.camAlign = x.camAlign
  cdStatic : y.cdStatic = x.cdStatic
  cdDynamic : y.cdDynamic = x.cdDynamic
  vobStatic : y.vobStatic = x.vobStatic
  shadows : y.shadows = x.shadows
  physics : y.physics = x.physics
  presetName : y.presetName = x.presetName
  vobName : y.vobName = x.vobName
  ai : y.ai = x.ai.map φ
  eventManager : y.eventManager = x.eventManager.map φ
  visual : ∀ r, x.visual = some r → y.visualName = r.name ∧ y.visual = some ⟨φ r.obj, r.name, r.type⟩

/-- Members of saved games. -/
structure VObj.KeptSave {P} (x : VObj Nat) (y : VObj P) : Prop where
  sleepMode : y.sleepMode = x.sleepMode
  nextOnTimer : y.nextOnTimer = x.nextOnTimer
  rigidBody : x.physics = true → y.rigidBody = x.rigidBody

/-- Members of Gothic 2. -/
structure VObj.KeptG2 {P} (x : VObj Nat) (y : VObj P) : Prop where
  animMode : y.animMode = x.animMode
  bias : y.bias = x.bias
  ambient : y.ambient = x.ambient
  animStrength : y.animStrength = x.animStrength
  farClip : y.farClip = x.farClip

end Verif.Obj
