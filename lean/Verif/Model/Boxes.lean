import Verif.Model.StreamTypes
import Mathlib.Order.Defs.LinearOrder

/-!
# Bounding boxes

`src/Boxes.cc:19-84`, `include/zenkit/Boxes.hh`. (`AxisAlignedBoundingBox` is in `Verif.Model.StreamTypes`.)
-/

namespace Verif

/-- `struct OrientedBoundingBox` (`include/zenkit/Boxes.hh`). -/
inductive Obb where
  | mk (center axis0 axis1 axis2 halfWidth : Vec3) (children : List Obb)

namespace Obb

mutual
/-- `OrientedBoundingBox::load` (`src/Boxes.cc:19-30`), with fuel for the depth of the recursion. -/
def loadFuel : Nat → Rd Obb
  | 0 => Rd.fail .hang
  | fuel + 1 => do
    let center ← Rd.vec3
    let a0 ← Rd.vec3
    let a1 ← Rd.vec3
    let a2 ← Rd.vec3
    let half ← Rd.vec3
    let n ← Rd.u16
    let children ← loadMany fuel n.toNat
    return .mk center a0 a1 a2 half children
/-- The loop over the children (`src/Boxes.cc:26-29`). -/
def loadMany : Nat → Nat → Rd (List Obb)
  | _, 0 => return []
  | fuel, n + 1 => do
    let c ← loadFuel fuel
    let cs ← loadMany fuel n
    return c :: cs
end

/-- `OrientedBoundingBox::load`: a box that has children has been read from at least one more byte, so the remaining bytes
bound the depth. -/
def load : Rd Obb := fun s => loadFuel (s.data.length - s.pos + 1) s

mutual
/-- `OrientedBoundingBox::save` (`src/Boxes.cc:32-43`). -/
def save : Obb → Ws → Ws
  | .mk center a0 a1 a2 half children, w =>
    let w := w.vec3 center
    let w := w.vec3 a0
    let w := w.vec3 a1
    let w := w.vec3 a2
    let w := w.vec3 half
    let w := w.u16 (BitVec.ofNat 16 children.length)
    saveMany children w
/-- The loop over the children (`src/Boxes.cc:40-42`). -/
def saveMany : List Obb → Ws → Ws
  | [], w => w
  | c :: cs, w => saveMany cs (save c w)
end

end Obb

/-! ## `as_bbox`

The arithmetic of `float` is a parameter: any linear order with some addition and multiplication (so no NaN; rounding
does not matter for what is stated). -/

/-- What `as_bbox` uses of `float`. -/
structure FloatOps (F : Type) where
  add : F → F → F
  mul : F → F → F
  one : F
  minusOne : F
  /-- `std::numeric_limits<float>::max()` -/
  fltMax : F
  /-- `std::numeric_limits<float>::min()`: the smallest positive normal number -/
  fltMin : F

/-- A vector over `F`. -/
structure V3 (F : Type) where
  x : F
  y : F
  z : F
  deriving DecidableEq, Repr

/-- The parts of the box that `as_bbox` looks at. -/
structure Box (F : Type) where
  center : V3 F
  axis0 : V3 F
  axis1 : V3 F
  axis2 : V3 F
  halfWidth : V3 F

namespace Box
variable {F : Type} [LinearOrder F] (o : FloatOps F)

/-- `Vec3 * float`. -/
def scale (v : V3 F) (k : F) : V3 F := ⟨o.mul v.x k, o.mul v.y k, o.mul v.z k⟩

/-- The table of signs (`src/Boxes.cc:46-53`). -/
def signs : List (F × F × F) :=
  [(o.minusOne, o.minusOne, o.minusOne), (o.minusOne, o.minusOne, o.one), (o.minusOne, o.one, o.minusOne),
   (o.minusOne, o.one, o.one), (o.one, o.minusOne, o.minusOne), (o.one, o.minusOne, o.one), (o.one, o.one, o.minusOne),
   (o.one, o.one, o.one)]

/-- One corner (`src/Boxes.cc:65-72`). -/
def corner (b : Box F) (i : F × F × F) : V3 F :=
  let a0 := scale o (scale o b.axis0 b.halfWidth.x) i.1
  let a1 := scale o (scale o b.axis1 b.halfWidth.y) i.2.1
  let a2 := scale o (scale o b.axis2 b.halfWidth.z) i.2.2
  ⟨o.add b.center.x (o.add (o.add a0.x a1.x) a2.x), o.add b.center.y (o.add (o.add a0.y a1.y) a2.y),
   o.add b.center.z (o.add (o.add a0.z a1.z) a2.z)⟩

/-- The round of the loop for one corner (`src/Boxes.cc:74-80`). -/
def grow (box : V3 F × V3 F) (p : V3 F) : V3 F × V3 F :=
  (⟨min box.1.x p.x, min box.1.y p.y, min box.1.z p.z⟩, ⟨max box.2.x p.x, max box.2.y p.y, max box.2.z p.z⟩)

/-- `OrientedBoundingBox::as_bbox` (`src/Boxes.cc:45-84`): minimum and maximum. -/
def asBbox (b : Box F) : V3 F × V3 F :=
  (signs o).foldl (fun box i => grow box (corner o b i)) (⟨o.fltMax, o.fltMax, o.fltMax⟩, ⟨o.fltMin, o.fltMin, o.fltMin⟩)

end Box
end Verif
