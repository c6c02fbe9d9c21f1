import Verif.Spec.DaedalusCall
import Verif.Model.DaedalusFlags

/-!
# Trapped variables (C109)
-/

namespace Verif.Spec.Daedalus

open Verif.Daedalus

/-- The machine with another value of one variable. -/
def withValue (y : Nat) (x : SymVal) (v : Vm) : Vm := { v with syms := v.syms.modify y fun s => { s with value := x } }

/-- No slot of the stack refers to the variable. -/
def NoRef (y : Nat) (v : Vm) : Prop := ∀ (i : Nat) k p, v.stack[i]? ≠ some (some (Frame.ref y k p))

/-- The variable is trapped. It is neither the storage of temporary texts nor a local that calls save and restore, and the
code does not use it as an array or as the context of members. -/
structure TrappedVar (y : Nat) (v : Vm) : Prop where
  trap : ∃ s, v.syms[y]? = some s ∧ s.hasAccessTrap = true
  tmp : y ≠ v.tmp
  locals : ∀ z f, v.syms[z]? = some f → f.hasLocals = true → z ≠ v.tmp ∧ y ∉ localsOf v f
  code : ∀ pos pc i pos', instructionAt v.text pos pc = .ok (i, pos') → i.op = .pushvv ∨ i.op = .gmovi → i.symbol.toNat ≠ y

/-- What a function of the host does that does not touch the variable: it leaves the declarations and the variable alone, gives
nobody a reference to it, and does the same for every value of it. -/
def HandsOff {α} (y : Nat) (p : M α) : Prop := ∀ v, TrappedVar y v → NoRef y v →
  Same v (p v).2 ∧ (p v).2.syms[y]? = v.syms[y]? ∧ NoRef y (p v).2 ∧
    ∀ x, p (withValue y x v) = ((p v).1, withValue y x (p v).2)

/-- A host with an access trap whose functions do not touch the variable. -/
structure HostOff (y : Nat) (h : Host) : Prop where
  trapped : h.trap.isSome = true
  external : ∀ z p, h.external z = some p → HandsOff y p
  override_ : ∀ a p, h.override_ a = some p → HandsOff y p
  default_ : ∀ d z, h.default_ = some d → HandsOff y (d z)
  trap : ∀ t z, h.trap = some t → HandsOff y (t z)
  handler : ∀ hd e i, h.handler = some hd → HandsOff y (hd e i)

end Verif.Spec.Daedalus
