import Verif.Spec.DaedalusCall

/-!
# Calls that end (C111)
-/

namespace Verif.Spec.Daedalus

open Verif.Daedalus

/-- A function of the host that comes back, returning or raising; when it returns, the code, the declarations, the call stack and
the position in the code are what they were. -/
def ComesBack (p : M Unit) : Prop :=
  ∀ v, (p v).1 ≠ .error .hang ∧ ∀ w, p v = (.ok (), w) → Same v w ∧ w.calls = v.calls ∧ w.pc = v.pc

/-- All functions of a host do, and there is no exception handler. -/
structure Prompt (h : Host) : Prop where
  external : ∀ y p, h.external y = some p → ComesBack p
  override_ : ∀ a p, h.override_ a = some p → ComesBack p
  default_ : ∀ d y, h.default_ = some d → ComesBack (d y)
  trap : ∀ t y, h.trap = some t → ComesBack (t y)
  handler : h.handler = none

/-- Where control goes from an instruction of a function of the level `n`: on, or forward to another instruction of the function.
Only functions of lower levels are called. -/
def Onward (h : Host) (L : BitVec 32 → Option Nat) (p : BitVec 32) (n : Nat) (i : Instr) : Prop :=
  let next := p.toNat + i.size < 2 ^ 32 ∧ L (p + BitVec.ofNat 32 i.size) = some n
  let target := p.toNat < i.address.toNat ∧ L i.address = some n
  match i.op with
  | .rsr | .movss => True
  | .b => target
  | .bz => next ∧ target
  | .bl => next ∧ (h.override_ i.address = none → ∃ m, m < n ∧ L i.address = some m)
  | _ => next

/-- Code without loops and recursion: `L` gives the addresses of the instructions and the levels of the functions they belong to. -/
def Straight (h : Host) (text : Bytes) (L : BitVec 32 → Option Nat) : Prop :=
  ∀ p n, L p = some n → p.toNat < text.length ∧ ∀ i s, decode ⟨text, p.toNat⟩ = .ok (i, s) → Onward h L p n i

end Verif.Spec.Daedalus
