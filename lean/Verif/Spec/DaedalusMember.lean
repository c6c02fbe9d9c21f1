import Verif.Model.DaedalusMember
import Verif.Spec.DaedalusStore

/-!
# Fields of C++ classes behind members of script classes (C91)
-/

namespace Verif.Spec.Daedalus

open Verif.Daedalus

/-- A history of calls of `register_member`; exceptions are caught. -/
def registrations : List (Bytes × Field) → List Sym → List Sym
  | [], syms => syms
  | (name, f) :: rest, syms => registrations rest (registerMember syms name f).2

/-- Nothing is registered, as after loading a script. -/
def Fresh (syms : List Sym) : Prop := ∀ s ∈ syms, s.registeredTo = none

/-- Members belong to symbols that are not members. -/
def PlainParents (syms : List Sym) : Prop :=
  ∀ s ∈ syms, s.isMember = true → ∀ p, syms[s.parent.toNat]? = some p → p.isMember = false

/-- The values a field holds. -/
def fieldKind (f : Field) : VKind :=
  match f.type with
  | .string => .str
  | .float => .float
  | .int => .int

/-- Where an element of a field lives in the object. -/
def fieldAt (f : Field) (k : Nat) : Nat := f.addr + k * kindSize (fieldKind f)

/-- The object has the field: values of its type, from its address on. The object has less than 4 GiB. -/
def HasField (n : Inst) (f : Field) : Prop :=
  f.addr + f.elems * kindSize (fieldKind f) ≤ 4294967296 ∧
  ∀ k < f.elems, ∃ c, cellAt n.cells (fieldAt f k) = some c ∧ kindOf c = fieldKind f

/-- A member with the name that has at most as many elements as the field: its index, and that of its class. -/
def declared (syms : List Sym) (name : Bytes) (f : Field) : Option (Nat × Nat) :=
  match findByName syms name with
  | none => none
  | some y =>
    match syms[y]? with
    | none => none
    | some s =>
      if s.isMember ∧ s.count.toNat ≤ f.elems ∧ s.parent.toNat < syms.length then some (y, s.parent.toNat) else none

/-- The type of a symbol fits to a field. -/
def fitsType (syms : List Sym) (f : Field) (y : Nat) : Bool :=
  match syms[y]? with
  | some s => holdsKind (fieldKind f) s.type
  | none => false

/-- What is bound: script classes to C++ classes, members to fields. -/
structure Binding where
  classes : Nat → Option Nat := fun _ => none
  fields : Nat → Option Field := fun _ => none

/-- One call: a script class belongs to the first C++ class a member of it is registered with; a member to the last field. -/
def Binding.register (syms : List Sym) (b : Binding) (name : Bytes) (f : Field) : Binding :=
  match declared syms name f with
  | none => b
  | some (y, q) =>
    if b.classes q = none ∨ b.classes q = some f.cls then
      { classes := fun i => if i = q then some f.cls else b.classes i,
        fields := fun i => if i = y ∧ fitsType syms f y = true then some f else b.fields i }
    else b

def Binding.all (syms : List Sym) : Binding → List (Bytes × Field) → Binding
  | b, [] => b
  | b, (name, f) :: rest => Binding.all syms (b.register syms name f) rest

/-- A symbol as it is when things are bound. -/
def bind (b : Binding) (i : Nat) (s : Sym) : Sym :=
  if s.isMember then
    match b.fields i with
    | some f => { s with registeredTo := some f.cls, memberOffset := BitVec.ofNat 32 f.addr }
    | none => s
  else { s with registeredTo := b.classes i }

end Verif.Spec.Daedalus
