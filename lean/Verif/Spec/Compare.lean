import Verif.Model.Indexing
import Mathlib.Data.List.Forall2

/-! # Specification of the comparison of numbers, vectors, quaternions and matrices (C120) -/

namespace Verif.Spec

/-- The fields of a number in the format binary32 of IEEE 754. -/
def negative (a : F32) : Bool := decide (2 ^ 31 ≤ a.toNat)
def exponent (a : F32) : Nat := a.toNat / 2 ^ 23 % 256
def fraction (a : F32) : Nat := a.toNat % 2 ^ 23

/-- The bits stand for a number (or an infinity). -/
def Number (a : F32) : Prop := exponent a ≠ 255 ∨ fraction a = 0

instance (a : F32) : Decidable (Number a) := inferInstanceAs (Decidable (_ ∨ _))

/-- The size of the number, in units of the smallest positive one, 2^-149. The infinities are larger than all other numbers. -/
def magnitude (a : F32) : Nat :=
  if exponent a = 0 then fraction a else (2 ^ 23 + fraction a) * 2 ^ (exponent a - 1)

/-- The number, in the same units. -/
def number (a : F32) : Int := if negative a then -(magnitude a : Int) else magnitude a

/-- The two are the same number. -/
def SameNumber (a b : F32) : Prop := Number a ∧ Number b ∧ number a = number b

/-- `e` compares objects, the components of which are listed by `f`, by the numbers in them. -/
def Compares {α} (f : α → List F32) (e : α → α → Bool) : Prop := ∀ v w, e v w = true ↔ List.Forall₂ SameNumber (f v) (f w)

/-- The components. -/
def parts2 (v : Vec2) : List F32 := [v.x, v.y]
def parts3 (v : Vec3) : List F32 := [v.x, v.y, v.z]
def parts4 (v : Vec4) : List F32 := [v.x, v.y, v.z, v.w]
def partsQ (q : Quat) : List F32 := [q.w, q.x, q.y, q.z]
def partsM3 (m : Mat3) : List F32 := [m.c0, m.c1, m.c2].flatMap parts3
def partsM4 (m : Mat4) : List F32 := [m.c0, m.c1, m.c2, m.c3].flatMap parts4

end Verif.Spec
