import Verif.Spec.DocReader
import Verif.Model.VobTree

/-! # Trees of virtual objects in documents -/

namespace Verif.VobTree

open Ar

/-- How a virtual object is stored: itself, or a reference to it. -/
inductive Item where
  | obj (name cls : Bytes) (version : BitVec 16) (index : BitVec 32) (content : Doc)
  | ref (name : Bytes) (index : BitVec 32)
  deriving DecidableEq, Repr

/-- A virtual object followed by something. -/
def Item.doc : Item → Doc → Doc
  | .obj n c ver ix ch, rest => .obj n c ver ix ch rest
  | .ref n ix, rest => .ref n ix rest

/-- No object can be made of it: the class has no meaning for the library, or it is a null pointer. -/
def Item.Lost : Item → Prop
  | .obj _ c _ _ _ => c ≠ refClass ∧ (c = nullClass ∨ classFor c = none)
  | .ref _ _ => False

instance : (i : Item) → Decidable i.Lost
  | .obj _ c _ _ _ => inferInstanceAs (Decidable (c ≠ refClass ∧ (c = nullClass ∨ classFor c = none)))
  | .ref _ _ => inferInstanceAs (Decidable False)

/-- A list of stored trees; every object is followed by an entry (named `cname`) with the number of its children. -/
inductive Stored where
  | nil
  | cons (item : Item) (cname : Bytes) (kids rest : Stored)
  deriving DecidableEq, Repr

/-- The number of trees. -/
def Stored.count : Stored → Nat
  | .nil => 0
  | .cons _ _ _ rest => rest.count + 1

/-- The document, followed by something. -/
def Stored.doc : Stored → Doc → Doc
  | .nil, e => e
  | .cons it cn kids rest, e => it.doc (.val cn (.int (BitVec.ofNat 32 kids.count)) (kids.doc (rest.doc e)))

/-- Without the lost objects and what hangs on them. -/
def Stored.prune : Stored → Stored
  | .nil => .nil
  | .cons it cn kids rest => if it.Lost then rest.prune else .cons it cn kids.prune rest.prune

/-- The number of objects. -/
def Stored.size : Stored → Nat
  | .nil => 0
  | .cons _ _ kids rest => kids.size + rest.size + 1

end Verif.VobTree
