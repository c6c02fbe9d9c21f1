import Verif.Spec.Daedalus

/-!
# Strings on the stack (C36)
-/

namespace Verif.Spec.Daedalus

/-- Values on the stack: strings and numbers. -/
inductive SItem where
  | str (s : Bytes)
  | num (x : BitVec 32)
  deriving DecidableEq, Repr

/-- Requests. -/
inductive SOp where
  | pushStr (s : Bytes)
  | popStr
  | pushNum (x : BitVec 32)
  | popNum
  deriving DecidableEq, Repr

/-- Answers. -/
inductive SAns where
  | done
  | str (s : Bytes)
  | num (x : BitVec 32)
  deriving DecidableEq, Repr

/-- Number of strings on the stack. -/
def strings : List SItem → Nat
  | [] => 0
  | .str _ :: st => strings st + 1
  | .num _ :: st => strings st

/-- A stack of values, top first; pops ask for the type that is there. There are at most `limit` strings and 2048 values. -/
def sStep (limit : Nat) : List SItem → SOp → Option (SAns × List SItem)
  | st, .pushStr s => if strings st < limit ∧ st.length < 2048 then some (.done, .str s :: st) else none
  | .str s :: st, .popStr => some (.str s, st)
  | st, .pushNum x => if st.length < 2048 then some (.done, .num x :: st) else none
  | .num x :: st, .popNum => some (.num x, st)
  | _, _ => none

/-- A history of requests. -/
def sRun (limit : Nat) : List SItem → List SOp → Option (List SAns × List SItem)
  | st, [] => some ([], st)
  | st, o :: os =>
    match sStep limit st o with
    | none => none
    | some (a, st) =>
      match sRun limit st os with
      | none => none
      | some (as, st) => some (a :: as, st)

end Verif.Spec.Daedalus
