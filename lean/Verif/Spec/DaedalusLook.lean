import Verif.Spec.DaedalusEnds

/-!
# Looking at the code of a machine (C114)
-/

namespace Verif.Spec.Daedalus

open Verif.Daedalus

/-- The machine with its reader of the code at another place. -/
def readerAt (t : Nat) (v : Vm) : Vm := { v with textPos := t }

/-- Two host functions that do the same, up to where they leave the reader of the code. -/
def Alike {α} (p q : M α) : Prop := ∀ v t, ∃ t', q (readerAt t v) = ((p v).1, readerAt t' (p v).2)

/-- Two hosts that differ only in that their functions look at the code. -/
structure AlikeHosts (h k : Host) : Prop where
  external : ∀ y, Option.Rel Alike (h.external y) (k.external y)
  override_ : ∀ a, Option.Rel Alike (h.override_ a) (k.override_ a)
  default_ : Option.Rel (fun d e => ∀ y, Alike (d y) (e y)) h.default_ k.default_
  trap : Option.Rel (fun d e => ∀ y, Alike (d y) (e y)) h.trap k.trap
  handler : h.handler = none ∧ k.handler = none

/-- Where control goes from an instruction: to other places of the code. -/
def Within (h : Host) (P : BitVec 32 → Prop) (p : BitVec 32) (i : Instr) : Prop :=
  let next := P (p + BitVec.ofNat 32 i.size)
  match i.op with
  | .rsr | .movss => True
  | .b => P i.address
  | .bz => next ∧ P i.address
  | .bl => next ∧ (h.override_ i.address = none → P i.address)
  | _ => next

/-- Code that control does not leave at its end: `P` tells which addresses can be reached. -/
def Closed (h : Host) (text : Bytes) (P : BitVec 32 → Prop) : Prop :=
  ∀ p, P p → p.toNat < text.length ∧ ∀ i s, decode ⟨text, p.toNat⟩ = .ok (i, s) → Within h P p i

end Verif.Spec.Daedalus
