import Verif.Model.ArchiveGraph

/-! # Copies of object graphs -/

namespace Verif.Ar

/-- The objects that can be reached from the pointers among some fields. -/
inductive Reach (H : GHeap) (roots : List Field) : Nat → Prop where
  | root {n a} : Field.ptr n (some a) ∈ roots → Reach H roots a
  | step {a o n b} : Reach H roots a → H a = some o → Field.ptr n (some b) ∈ o.fields → Reach H roots b

/-- What a client sees of a field. -/
def Field.seen : Field → Seen
  | .val _ v => .val v
  | .ptr _ none => .null
  | .ptr _ (some _) => .object

/-- The call that reads a field. -/
def Field.want : Field → Want
  | .val _ v => .val v.kind
  | .ptr _ _ => .ptr

/-- The field after objects have been given other addresses. -/
def Field.got (φ : Nat → Nat) : Field → Got
  | .val _ v => .val v
  | .ptr _ p => .ptr (p.map φ)

/-- A `load` that makes the calls belonging to the given ones of `save`, and then returns. -/
def Follows (S : List Seen → Option Want) (fs : List Field) : Prop :=
  ∀ k ≤ fs.length, S ((fs.take k).map Field.seen) = fs[k]?.map Field.want

/-- `heap` is a copy of the part of `H` that is reachable from `roots`: `φ` says which object is the copy of which. Distinct objects
have distinct copies, the copy of an object has the same type and values, and its pointers point to the copies. -/
structure IsCopy (H : GHeap) (roots : List Field) (heap : List (ObjectType × List Got)) (φ : Nat → Nat) : Prop where
  copy : ∀ a, Reach H roots a → ∃ o, H a = some o ∧ heap[φ a]? = some (o.type, o.fields.map (Field.got φ))
  inj : ∀ a b, Reach H roots a → Reach H roots b → φ a = φ b → a = b
  onto : ∀ n < heap.length, ∃ a, Reach H roots a ∧ φ a = n

/-- What is required of the names and values of a field. -/
def Field.Ok (pv : Bytes → Val → Prop) (po : Bytes → Bytes → BitVec 16 → BitVec 32 → Prop) : Field → Prop
  | .val n v => pv n v
  | .ptr n _ => ∀ c ver ix, c = refClass ∨ c = nullClass ∨ (∃ t, tableFind classNamesTable t = some c) → po n c ver ix

end Verif.Ar
