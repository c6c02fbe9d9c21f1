import Verif.Model.ObjLoad

/-! # What it means that an object is loaded from what was saved -/

namespace Verif.Obj

open Verif.Ar

/-- The program reads exactly what these calls have written, and gives `y`. Objects have got the new addresses `φ`. -/
def Loads {P α} (env : Env P) (φ : Nat → P) (p : Ld P α) (fs : List Field) (y : α) : Prop :=
  ∀ rest, p.run env (fs.map (Field.item φ) ++ rest) = .ok (y, rest)

/-- A pointer is null or denotes an object of the type `t`. -/
def Typed {P} (env : Env P) (φ : Nat → P) (t : ObjectType) (p : Option Nat) : Prop := ∀ a, p = some a → env.is t (φ a) = true

/-- The number of elements fits into a signed 32 bit integer. -/
def Fits31 {α} (l : List α) : Prop := l.length < 2 ^ 31

end Verif.Obj
