import Verif.Model.Indexing

/-! # Components by index -/

namespace Verif.Spec

open Verif.Ix

/-- Reading index `i` gives the `i`-th of the named components; writing it sets this component and no other; all other indices are out of
bounds. -/
structure Indexed {α β} (l : Layout α β) (names : List (α → β)) : Prop where
  read : ∀ a (i : Nat) c, names[i]? = some c → Ix.get l a i = .ok (c a)
  write : ∀ a (i : Nat) c v, names[i]? = some c → ∃ b, Ix.put l a i v = .ok b ∧ c b = v ∧
    ∀ (j : Nat) d, names[j]? = some d → j ≠ i → d b = d a
  bounds : ∀ a (i : Nat) v, names.length ≤ i → Ix.get l a i = .error .ub ∧ Ix.put l a i v = .error .ub

end Verif.Spec
