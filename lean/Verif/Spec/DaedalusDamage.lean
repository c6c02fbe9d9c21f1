import Verif.Model.DaedalusLoad

/-! # What holds of scripts from damaged files -/

namespace Verif.Spec.Daedalus

open Verif.Daedalus

/-- A variable has as many elements as it claims; numbers may not be initialised. -/
def Sized (s : Sym) : Prop :=
  s.isMember = false →
    (s.type = .int → ∃ a, s.value = .ints (some a) ∧ a.length = s.count.toNat) ∧
    (s.type = .float → ∃ a, s.value = .floats a ∧ a.length = s.count.toNat) ∧
    (s.type = .string → ∃ a, s.value = .strs a ∧ a.length = s.count.toNat)

/-- A variable has as many elements as it claims, and all of them are initialised. -/
def Filled (s : Sym) : Prop :=
  s.isMember = false →
    (s.type = .int → ∃ a : List (BitVec 32), s.value = .ints (some (a.map some)) ∧ a.length = s.count.toNat) ∧
    (s.type = .float → ∃ a : List (BitVec 32), s.value = .floats (a.map some) ∧ a.length = s.count.toNat) ∧
    (s.type = .string → ∃ a, s.value = .strs a ∧ a.length = s.count.toNat)

/-- The script has code. -/
def HasCode (sc : Script) : Prop := ∃ c cs, sc.text = some (c :: cs)

end Verif.Spec.Daedalus
