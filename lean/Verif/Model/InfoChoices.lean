import Verif.Model.Stream

/-!
# The choices of dialogues

Model of `IInfo::add_choice` and `IInfo::remove_choice` (`src/addon/daedalus.cc:300-306`).
-/

namespace Verif.Info

/-- `struct IInfoChoice` (`include/zenkit/addon/daedalus.hh:343-346`). -/
structure Choice where
  text : Bytes
  function : BitVec 32
  deriving DecidableEq, Repr

/-- `IInfo::add_choice` (`src/addon/daedalus.cc:300-302`). -/
def addChoice (ch : Choice) (choices : List Choice) : List Choice := ch :: choices

/-- `IInfo::remove_choice` (`src/addon/daedalus.cc:304-306`): the index is converted to a signed number, and erasing outside of the
vector, as at its end, is undefined. -/
def removeChoice (index : BitVec 64) (choices : List Choice) : Except Fail (List Choice) :=
  if 0 ≤ index.toInt ∧ index.toInt < choices.length then .ok (choices.eraseIdx index.toInt.toNat) else .error .ub

/-- A call of a host. -/
inductive Act where
  | add (ch : Choice)
  | remove (index : BitVec 64)
  deriving DecidableEq, Repr

def act (choices : List Choice) : Act → Except Fail (List Choice)
  | .add ch => .ok (addChoice ch choices)
  | .remove i => removeChoice i choices

/-- The calls in turn. -/
def acts (choices : List Choice) (as : List Act) : Except Fail (List Choice) := as.foldlM act choices

end Verif.Info
