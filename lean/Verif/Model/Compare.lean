import Verif.Model.Indexing

/-!
# Comparing and multiplying

`operator==` of vectors, colors, quaternions and matrices and `operator*` of colors (`include/zenkit/Misc.hh:19-311`). A `float` is its bit
pattern; `operator==` of two `float`s is that of IEEE 754. The products of vectors are left out.
-/

namespace Verif.Cmp

/-- Not a number: all bits of the exponent, and some of the fraction, are set (IEEE 754, binary32). -/
def isNan (a : F32) : Bool := a.extractLsb' 23 8 == 255#8 && a.extractLsb' 0 23 != 0#23

/-- Zero of either sign. -/
def isZero (a : F32) : Bool := a.extractLsb' 0 31 == 0#31

/-- `==` of two `float`s (IEEE 754): false if one is not a number; zeroes of both signs are equal; otherwise two numbers are equal if their
bits are. -/
def eqF (a b : F32) : Bool := !isNan a && !isNan b && (a == b || (isZero a && isZero b))

/-- `Vec2::operator==` (`include/zenkit/Misc.hh:42-44`). -/
def eq2 (v w : Vec2) : Bool := eqF v.x w.x && eqF v.y w.y

/-- `Vec3::operator==` (`include/zenkit/Misc.hh:78-80`). -/
def eq3 (v w : Vec3) : Bool := eqF v.x w.x && eqF v.y w.y && eqF v.z w.z

/-- `Vec4::operator==` (`include/zenkit/Misc.hh:114-116`). -/
def eq4 (v w : Vec4) : Bool := eqF v.x w.x && eqF v.y w.y && eqF v.z w.z && eqF v.w w.w

/-- `Color::operator==` (`include/zenkit/Misc.hh:149-151`). -/
def eqC (v w : Color) : Bool := v.r == w.r && v.g == w.g && v.b == w.b && v.a == w.a

/-- `Quat::operator==` (`include/zenkit/Misc.hh:176-178`). -/
def eqQ (v w : Quat) : Bool := eqF v.x w.x && eqF v.y w.y && eqF v.z w.z && eqF v.w w.w

/-- `Mat3::operator==` (`include/zenkit/Misc.hh:213-215`). -/
def eqM3 (m n : Mat3) : Bool := eq3 m.c0 n.c0 && eq3 m.c1 n.c1 && eq3 m.c2 n.c2

/-- `Mat4::operator==` (`include/zenkit/Misc.hh:276-279`). -/
def eqM4 (m n : Mat4) : Bool := eq4 m.c0 n.c0 && eq4 m.c1 n.c1 && eq4 m.c2 n.c2 && eq4 m.c3 n.c3

/-- `Color::operator*(unsigned char)` (`include/zenkit/Misc.hh:141-143`): the products are `int`s, the constructor takes the low bytes. -/
def scale (c : Color) (s : BitVec 8) : Color :=
  let f (x : BitVec 8) : BitVec 8 := BitVec.ofNat 8 (x.toNat * s.toNat)
  ⟨f c.r, f c.g, f c.b, f c.a⟩

/-- `Color::operator*(Color const&)` (`include/zenkit/Misc.hh:145-147`). -/
def mul (c d : Color) : Color :=
  let f (x y : BitVec 8) : BitVec 8 := BitVec.ofNat 8 (x.toNat * y.toNat)
  ⟨f c.r d.r, f c.g d.g, f c.b d.b, f c.a d.a⟩

end Verif.Cmp
