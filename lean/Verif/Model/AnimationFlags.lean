import Verif.Model.MdsParser

/-!
# Operators of animation flags: `src/ModelScript.cc:457-468`

An `AnimationFlags` (`include/zenkit/ModelScript.hh:86-93`) is its underlying `uint8_t`; all 256 values are values of the
enumeration, as its underlying type is fixed.
-/

namespace Verif.Mds.Flags

/-- `operator&(AnimationFlags, AnimationFlags)`: whether the bits they have in common are not zero
(`src/ModelScript.cc:457-459`). -/
def test (a b : BitVec 8) : Bool := a &&& b != 0

/-- `operator|(AnimationFlags, AnimationFlags)` (`src/ModelScript.cc:461-463`); `operator|=` assigns it to its left operand
(`src/ModelScript.cc:465-468`). -/
def union (a b : BitVec 8) : BitVec 8 := a ||| b

end Verif.Mds.Flags
