import Verif.Spec.ArchiveGraph
import Verif.Model.VobTree

/-! # Trees of virtual objects -/

namespace Verif.VobTree

/-- A list of trees of addresses. -/
inductive Forest where
  | nil
  | cons (a : Nat) (kids rest : Forest)
  deriving DecidableEq, Repr

/-- All addresses. -/
def Forest.nodes : Forest → List Nat
  | .nil => []
  | .cons a k r => a :: (k.nodes ++ r.nodes)

/-- The trees that hang on the pointers of a list. -/
def Forest.On (kids : Kids) : Forest → List (Option Nat) → Prop
  | .nil, l => l = []
  | .cons a k r, l => ∃ m, l = some a :: m ∧ k.On kids (kids a) ∧ r.On kids m

/-- The loaded tree has the same shape: `φ` says which object is the copy of which. -/
structure IsTreeCopy (kids : Kids) (nodes : List Nat) (φ : Nat → Nat) (K : Pushes) : Prop where
  children : ∀ a ∈ nodes, (childrenOf K (φ a)).map some = (kids a).map (Option.map φ)
  others : ∀ n, (∀ a ∈ nodes, φ a ≠ n) → childrenOf K n = []

end Verif.VobTree
