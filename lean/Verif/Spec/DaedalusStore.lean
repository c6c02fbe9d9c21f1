import Verif.Model.DaedalusVm

/-!
# Variables as a store (C37–C39)
-/

namespace Verif.Spec.Daedalus

open Verif.Daedalus

/-- Kinds of values. -/
inductive VKind where
  | int | float | str
  deriving DecidableEq, Repr

def kindOf : Cell → VKind
  | .int _ => .int
  | .float _ => .float
  | .str _ => .str

/-- The getters of a symbol in one function. -/
def readVar (k : VKind) (y i : Nat) (p : Option Nat) : M Cell :=
  match k with
  | .int => do return .int (← symGetInt y i p)
  | .float => do return .float (← symGetFloat y i p)
  | .str => do return .str (← symGetString y i p)

/-- The setters of a symbol in one function. -/
def writeVar (c : Cell) (y i : Nat) (p : Option Nat) : M Unit :=
  match c with
  | .int x => symSetInt y x i p
  | .float x => symSetFloat y x i p
  | .str x => symSetString y x i p

/-- The type of a symbol that holds values of a kind. -/
def holdsKind (k : VKind) (t : DType) : Bool :=
  match k with
  | .int => t == .int || t == .function
  | .float => t == .float
  | .str => t == .string

/-- Bytes of an element. -/
def kindSize : VKind → Nat
  | .int => 4
  | .float => 4
  | .str => 32

/-- The bytes an element of a member takes in its instance. -/
def elementAt (s : Sym) (k : VKind) (i : Nat) : BitVec 32 := s.memberOffset + BitVec.ofNat 32 (i * kindSize k)

end Verif.Spec.Daedalus
