import Verif.Model.VfsDescriptor

/-!
# Who owns a buffer

Only which buffer a variable refers to, and which buffers are to be freed: a buffer that is owned lives as long as a variable
refers to it, any other buffer lives.
-/

namespace Verif.VfsDescriptor

structure Owners where
  owned : List Bool := []
  vars : List (Option Nat) := []
  readers : List Nat := []

/-- The buffer is to be there. -/
def Owners.Alive (a : Owners) (m : Nat) : Prop := a.owned[m]? = some false ∨ (a.owned[m]? = some true ∧ some m ∈ a.vars)

/-- A history that a user may run: variables that are there are used, and readers while their buffer is to be there.
There are no assignments. -/
inductive History : Owners → List Op → Owners → Prop
  | nil (a : Owners) : History a [] a
  | make {a b : Owners} {os : List Op} (del : Bool) :
    History ⟨a.owned ++ [del], a.vars ++ [some a.owned.length], a.readers⟩ os b → History a (.make del :: os) b
  | copy {a b : Owners} {os : List Op} {i m : Nat} : a.vars[i]? = some (some m) →
    History { a with vars := a.vars ++ [some m] } os b → History a (.copy i :: os) b
  | destroy {a b : Owners} {os : List Op} {i m : Nat} : a.vars[i]? = some (some m) →
    History { a with vars := a.vars.set i none } os b → History a (.destroy i :: os) b
  | open_ {a b : Owners} {os : List Op} {i m : Nat} : a.vars[i]? = some (some m) →
    History { a with readers := a.readers ++ [m] } os b → History a (.open_ i :: os) b
  | read {a b : Owners} {os : List Op} {r m : Nat} : a.readers[r]? = some m → a.Alive m →
    History a os b → History a (.read r :: os) b

end Verif.VfsDescriptor
