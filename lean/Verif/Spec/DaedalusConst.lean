import Verif.Spec.DaedalusCall

/-!
# Constants (C38)
-/

namespace Verif.Spec.Daedalus

open Verif.Daedalus

/-- A constant that is not an instance. -/
structure IsConst (v : Vm) (y : Nat) (s : Sym) : Prop where
  sym : v.syms[y]? = some s
  const : s.isConst = true
  type : s.type ≠ .instance
  tmp : y ≠ v.tmp

/-- The specifier is not ignored, and constants are not among the locals a function saves and restores. -/
structure Strict (v : Vm) : Prop where
  ignore : v.ignoreConst = false
  locals : ∀ z f, v.syms[z]? = some f → f.hasLocals = true → z ≠ v.tmp ∧ ∀ l ∈ localsOf v f, ∀ s, v.syms[l]? = some s → s.isConst = false

/-- The declarations and the constants are the same. -/
structure SameConst (v w : Vm) : Prop extends Same v w where
  const : ∀ y s, IsConst v y s → w.syms[y]? = some s

/-- A host function that changes neither declarations nor constants, whether it returns or raises. -/
def KeepsConst {α} (p : M α) : Prop := ∀ v, Strict v → SameConst v (p v).2

/-- The functions of a host, including its exception handler. -/
structure HostConst (h : Host) : Prop where
  external : ∀ y p, h.external y = some p → KeepsConst p
  override_ : ∀ a p, h.override_ a = some p → KeepsConst p
  default_ : ∀ d y, h.default_ = some d → KeepsConst (d y)
  trap : ∀ t y, h.trap = some t → KeepsConst (t y)
  handler : ∀ hd e i, h.handler = some hd → KeepsConst (hd e i)

end Verif.Spec.Daedalus
