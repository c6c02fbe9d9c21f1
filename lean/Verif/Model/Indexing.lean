import Verif.Model.StreamTypes
import Verif.Model.Archive

/-!
# Access to components by index

`operator[]` and `pointer()` of vectors, colors, quaternions and matrices (`include/zenkit/Misc.hh:19-311`). An object is the list of its
members in memory; `pointer()` is the address of one of them, and `operator[]` adds the index to it. An access outside of the object is
undefined; that the members are contiguous, and can be reached from a pointer to one of them, is taken for granted, as it is in the code.
-/

namespace Verif

/-- `struct Quat` (`include/zenkit/Misc.hh:162-187`), with its members in the order of their declaration. -/
structure Quat where
  w : F32
  x : F32
  y : F32
  z : F32
  deriving DecidableEq, Repr

namespace Ix

/-- The members of an object in memory, the object with given members, and the member that `pointer()` points to. -/
structure Layout (α β : Type) where
  members : α → List β
  build : List β → Option α
  first : Nat

/-- `Vec2` (`include/zenkit/Misc.hh:20, 46-52`). -/
def vec2 : Layout Vec2 F32 := ⟨fun v => [v.x, v.y], fun | [x, y] => some ⟨x, y⟩ | _ => none, 0⟩

/-- `Vec3` (`include/zenkit/Misc.hh:56, 82-88`). -/
def vec3 : Layout Vec3 F32 := ⟨fun v => [v.x, v.y, v.z], fun | [x, y, z] => some ⟨x, y, z⟩ | _ => none, 0⟩

/-- `Vec4` (`include/zenkit/Misc.hh:92, 118-124`). -/
def vec4 : Layout Vec4 F32 := ⟨fun v => [v.x, v.y, v.z, v.w], fun | [x, y, z, w] => some ⟨x, y, z, w⟩ | _ => none, 0⟩

/-- `Color` (`include/zenkit/Misc.hh:128, 153-159`). -/
def color : Layout Color (BitVec 8) := ⟨fun c => [c.r, c.g, c.b, c.a], fun | [r, g, b, a] => some ⟨r, g, b, a⟩ | _ => none, 0⟩

/-- `Quat` (`include/zenkit/Misc.hh:163, 180-186`): `pointer()` is the address of `x`, which is the second member. -/
def quat : Layout Quat F32 := ⟨fun q => [q.w, q.x, q.y, q.z], fun | [w, x, y, z] => some ⟨w, x, y, z⟩ | _ => none, 1⟩

/-- `pointer()[index]` to read (`include/zenkit/Misc.hh:30-32, 66-68, 102-104, 137-139, 172-174`). -/
def get {α β} (l : Layout α β) (a : α) (i : Nat) : Except Fail β :=
  match (l.members a)[l.first + i]? with
  | some v => .ok v
  | none => .error .ub

/-- `pointer()[index] = v` (`include/zenkit/Misc.hh:26-28, 62-64, 98-100, 133-135, 168-170`). -/
def put {α β} (l : Layout α β) (a : α) (i : Nat) (v : β) : Except Fail α :=
  if l.first + i < (l.members a).length then
    match l.build ((l.members a).set (l.first + i) v) with
    | some b => .ok b
    | none => .error .ub
  else .error .ub

/-- `Mat3::operator[]` (`include/zenkit/Misc.hh:205-211`). -/
def column3 (m : Mat3) (i : Nat) : Except Fail Vec3 :=
  match [m.c0, m.c1, m.c2][i]? with
  | some c => .ok c
  | none => .error .ub

/-- `Mat4::operator[]` (`include/zenkit/Misc.hh:268-274`). -/
def column4 (m : Mat4) (i : Nat) : Except Fail Vec4 :=
  match [m.c0, m.c1, m.c2, m.c3][i]? with
  | some c => .ok c
  | none => .error .ub

/-- `m[i][j]` of a `Mat3`. -/
def get3 (m : Mat3) (i j : Nat) : Except Fail F32 := do get vec3 (← column3 m i) j

/-- `m[i][j]` of a `Mat4`. -/
def get4 (m : Mat4) (i j : Nat) : Except Fail F32 := do get vec4 (← column4 m i) j

/-- `Mat3::pointer()[k]` (`include/zenkit/Misc.hh:229-235`): the columns lie one behind the other. -/
def flat3 (m : Mat3) (k : Nat) : Except Fail F32 :=
  match (vec3.members m.c0 ++ vec3.members m.c1 ++ vec3.members m.c2)[k]? with
  | some v => .ok v
  | none => .error .ub

/-- `Mat4::pointer()[k]` (`include/zenkit/Misc.hh:300-306`). -/
def flat4 (m : Mat4) (k : Nat) : Except Fail F32 :=
  match (vec4.members m.c0 ++ vec4.members m.c1 ++ vec4.members m.c2 ++ vec4.members m.c3)[k]? with
  | some v => .ok v
  | none => .error .ub

/-- `Mat3::identity` (`include/zenkit/Misc.hh:237-239`); `one` is the bit pattern of 1. -/
def identity3 (one : F32) : Mat3 := ⟨⟨one, 0, 0⟩, ⟨0, one, 0⟩, ⟨0, 0, one⟩⟩

/-- `Mat4::identity` (`include/zenkit/Misc.hh:308-310`). -/
def identity4 (one : F32) : Mat4 := ⟨⟨one, 0, 0, 0⟩, ⟨0, one, 0, 0⟩, ⟨0, 0, one, 0⟩, ⟨0, 0, 0, one⟩⟩

end Ix

end Verif
