import Verif.Spec.DaedalusMemory
import Verif.Model.DaedalusReport
import Mathlib.Data.List.Forall2

/-!
# What the report about a failing script must say (C102)
-/

namespace Verif.Spec.Daedalus

open Verif.Daedalus

/-- The value that is shown for an element of a symbol is the one the symbol has, as its getters say; of a function variable, the name of
the function; of an instance variable, the type of the instance. -/
def IsValue (v : Vm) (s : Sym) (index : Byte) (x : Shown) : Prop :=
  match s.type with
  | .float => ∃ r, s.getFloat index.toNat (instAt v v.instance_) = .ok r ∧ x = .float r
  | .int => ∃ r, s.getInt index.toNat (instAt v v.instance_) = .ok r ∧ x = .int r
  | .string => ∃ r, s.getString index.toNat (instAt v v.instance_) = .ok r ∧ x = .str r
  | .function => ∃ r t, s.getInt index.toNat (instAt v v.instance_) = .ok r ∧ v.syms[r.toNat]? = some t ∧ x = .fn t.name
  | .instance => ∃ p, s.getInstance = .ok p ∧
      match p with
      | none => x = .null
      | some a => ∃ n t, v.heap[a]? = some n ∧ n.type = some t ∧ x = .object t
  | _ => x = .invalid

/-- The line says what is in the slot of the stack. -/
def SaysSlot (v : Vm) (slot : Nat) (l : Line) : Prop :=
  match v.stack[slot]? with
  | some (some (.int x)) => l = .value slot (.int x)
  | some (some (.float x)) => l = .value slot (.float x)
  | some (some (.inst none)) => l = .value slot .null
  | some (some (.inst (some a))) => ∃ n t, v.heap[a]? = some n ∧ n.type = some t ∧ l = .value slot (.object t)
  | some (some (.ref y i _)) => ∃ s x, v.syms[y]? = some s ∧ IsValue v s i x ∧ l = .ref slot s.name i x
  | _ => False

/-- The line says which function is active and at which address it is. -/
def SaysCall (v : Vm) (c : Call) (pc : BitVec 32) (l : Line) : Prop := ∃ s, v.syms[c.fn]? = some s ∧ l = .call s.name pc

/-- The line says which instance a variable holds, by the name of the symbol the instance belongs to. -/
def SaysInst (v : Vm) (p : Option Nat) (known : Bytes → BitVec 32 → Line) (null transient l : Line) : Prop :=
  match p with
  | none => l = null
  | some a => ∃ n, v.heap[a]? = some n ∧
      ((n.symIndex.toInt = -1 ∧ l = transient) ∨
        (n.symIndex.toInt ≠ -1 ∧ ∃ s, v.syms[n.symIndex.toNat]? = some s ∧ l = known s.name n.symIndex))

/-- The line says which instance a global variable holds. -/
def SaysGlobal (v : Vm) (y : Nat) (l : Line) : Prop :=
  ∃ s p, v.syms[y]? = some s ∧ s.getInstance = .ok p ∧ SaysInst v p (.global s.name) (.globalNull s.name) (.globalTransient s.name) l

/-- A complete report: the active functions, the last first, each with the address where it is; the values on the stack, the last first; the
global variables that the script has; the current instance. -/
structure Complete (v : Vm) (lines : List Line) : Prop where
  intro ::
  parts : ∃ calls slots globals this, lines = .callHead :: calls ++ .stackHead :: slots ++ .globalHead :: globals ++ [this] ∧
    List.Forall₂ (fun (c : Call × BitVec 32) l => SaysCall v c.1 c.2 l) (v.calls.zip (v.pc :: v.calls.map Call.pc)) calls ∧
    List.Forall₂ (SaysSlot v) (List.range v.sp.toNat).reverse slots ∧
    List.Forall₂ (SaysGlobal v) ([b!"HERO", b!"SELF", b!"OTHER", b!"VICTIM", b!"ITEM"].filterMap (findByName v.syms)) globals ∧
    SaysInst v v.instance_ .this .thisNull .thisTransient this

/-- The instance belongs to no symbol or to one that exists. -/
def Rooted (v : Vm) (p : Option Nat) : Prop :=
  ∀ a, p = some a → ∃ n, v.heap[a]? = some n ∧ (n.symIndex.toInt = -1 ∨ n.symIndex.toNat < v.syms.length)

/-- The element exists; if the symbol is a member, in the current instance. -/
def Reachable (v : Vm) (s : Sym) (k : Byte) : Prop :=
  k.toNat < s.count.toNat ∧
    if s.isMember then s.registeredTo.isSome ∧ ∃ n, instAt v v.instance_ = some n ∧ n.type = s.registeredTo
    else match s.type with
      | .float => ∃ a, s.value = .floats a
      | .string => ∃ a, s.value = .strs a
      | _ => ∃ a, s.value = .ints a

/-- A function variable holds a function. -/
def HoldsFunction (v : Vm) (s : Sym) (k : Byte) : Prop :=
  s.type = .function → ∀ r, s.getInt k.toNat (instAt v v.instance_) = .ok r → r.toNat < v.syms.length

/-- The references on the stack. -/
def OnStack (v : Vm) (s : Sym) (k : Byte) : Prop :=
  ∃ i y p, i < v.sp.toNat ∧ v.stack[i]? = some (some (.ref y k p)) ∧ v.syms[y]? = some s

/-- A global variable of the report. -/
def IsGlobal (v : Vm) (s : Sym) : Prop :=
  ∃ n ∈ [b!"HERO", b!"SELF", b!"OTHER", b!"VICTIM", b!"ITEM"], ∃ y, findByName v.syms n = some y ∧ v.syms[y]? = some s

/-- What the report takes for granted without looking: function variables hold functions, instances belong to symbols. -/
structure Traceable (v : Vm) : Prop where
  function : ∀ s k, OnStack v s k → HoldsFunction v s k
  global : ∀ s p, IsGlobal v s → s.value = .inst p → Rooted v p
  this : Rooted v v.instance_

/-- What the report needs in order not to fail: references on the stack are to elements that exist, the global variables are instances. -/
structure Presentable (v : Vm) : Prop where
  element : ∀ s k, OnStack v s k → s.type = .float ∨ s.type = .int ∨ s.type = .string ∨ s.type = .function → Reachable v s k
  instance_ : ∀ s k, OnStack v s k → s.type = .instance → ∃ p, s.value = .inst p
  global : ∀ s, IsGlobal v s → s.type = .instance ∧ ∃ p, s.value = .inst p

end Verif.Spec.Daedalus
