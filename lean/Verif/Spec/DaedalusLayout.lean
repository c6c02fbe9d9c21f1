import Verif.Model.Daedalus

/-!
# Layout of the members of a class (C39)
-/

namespace Verif.Spec.Daedalus

open Verif.Daedalus

/-- Bytes and alignment of one element; types without a case take nothing. -/
def elemBytes : DType → Nat
  | .string => 32
  | .other => 0
  | _ => 4

def elemAlign : DType → Nat
  | .string => 8
  | .other => 1
  | _ => 4

/-- Bytes of a member. -/
def memberBytes (m : Sym) : Nat := elemBytes m.type * m.count.toNat

/-- The next multiple of the alignment. -/
def roundUp (a o : Nat) : Nat := (o + (a - 1)) / a * a

/-- What the members need when they are placed one after the other, without any limit on numbers. -/
def needed : Nat → List Sym → Nat
  | o, [] => o
  | o, m :: ms => needed (roundUp (elemAlign m.type) o + memberBytes m) ms

end Verif.Spec.Daedalus
