import Verif.Spec.Daedalus
import Verif.Spec.DaedalusStore
import Verif.Spec.DaedalusCall

/-!
# Recursive calls: what they are about
-/

namespace Verif.Spec.Daedalus

open Verif.Daedalus

/-- What the body of the called function must respect: it returns with the declarations and the call stack it was given, it
does not touch the frames below its arguments nor the temporary strings they refer to, and it leaves a result if the
function has one. -/
structure Inner (v1 v2 : Vm) (ret : Bool) : Prop where
  same : Same v1 v2
  calls : v2.calls = v1.calls
  below : ∀ (c : Call) (rest : List Call), v1.calls = c :: rest → ∀ bs : List Frame,
    v1.stack.take c.sp.toNat = bs.map some → bs.length = c.sp.toNat →
      (∃ rs, Stk v2 (bs ++ rs) ∧ (ret = true → rs ≠ [])) ∧
      ∀ (i : Byte) (p : Option Nat), Frame.ref v1.tmp i p ∈ bs →
        (symGetString v1.tmp i.toNat none v2).1 = (symGetString v1.tmp i.toNat none v1).1

/-- Elements of string locals. -/
def stringLocals (v : Vm) (ls : List Nat) : Nat :=
  (ls.map fun l => match v.syms[l]? with | some s => if s.type = .string then s.count.toNat else 0 | none => 0).sum

/-- Stack slots for the values of locals. -/
def slotsOf (v : Vm) (ls : List Nat) : Nat :=
  (ls.map fun l => match v.syms[l]? with | some s => localSlots s | none => 0).sum

end Verif.Spec.Daedalus
