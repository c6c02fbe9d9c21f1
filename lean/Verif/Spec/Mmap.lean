import Verif.Model.Mmap

/-!
# Specification: who holds which file

Every variable holds a file or nothing. A file can be read as long as a variable holds it.
-/

namespace Verif.Spec

open Verif.Mmap

/-- A file with the bytes `b`, as the system shows it. -/
def regular (b : Bytes) : Path := ⟨true, some b.length, some b⟩

/-- The files that were mapped and have a byte, what the living variables hold, and of which file copies of the address were taken. -/
structure Holders where
  files : List Bytes := []
  vars : List (Option (Option Nat)) := []
  ptrs : List (Option Nat) := []
  deriving DecidableEq, Repr

/-- Some variable holds the file. -/
def Holders.Held (a : Holders) (f : Nat) : Prop := some (some f) ∈ a.vars

/-- The bytes behind a copy of an address: nothing, or those of a file that is held. -/
inductive Holders.Shows (a : Holders) : Option Nat → Bytes → Prop
  | none : Shows a none []
  | some {f : Nat} {b : Bytes} : a.Held f → a.files[f]? = some b → Shows a (some f) b

/-- A correct use of mapped files, with what it gives. -/
inductive Holders.Step (a : Holders) : Op → Bytes → Holders → Prop
  | empty : Step a (.new (regular [])) [] { a with vars := a.vars ++ [some none] }
  | new (b : Bytes) : b ≠ [] → Step a (.new (regular b)) [] { a with files := a.files ++ [b], vars := a.vars ++ [some (some a.files.length)] }
  | move (i : Nat) (h : Option Nat) : a.vars[i]? = some (some h) →
      Step a (.move i) [] { a with vars := a.vars.set i (some none) ++ [some h] }
  | destroy (i : Nat) (h : Option Nat) : a.vars[i]? = some (some h) → Step a (.destroy i) [] { a with vars := a.vars.set i none }
  | take (i : Nat) (h : Option Nat) : a.vars[i]? = some (some h) → Step a (.take i) [] { a with ptrs := a.ptrs ++ [h] }
  | read (k : Nat) (h : Option Nat) (b : Bytes) : a.ptrs[k]? = some h → a.Shows h b → Step a (.read k) b a

inductive Holders.Run : Holders → List Op → List Bytes → Holders → Prop
  | nil (a : Holders) : Run a [] [] a
  | cons {a a' a'' : Holders} {o : Op} {os : List Op} {b : Bytes} {bs : List Bytes} : a.Step o b a' → Run a' os bs a'' →
      Run a (o :: os) (b :: bs) a''

end Verif.Spec
