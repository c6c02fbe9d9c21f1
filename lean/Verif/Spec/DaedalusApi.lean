import Verif.Model.DaedalusApi
import Verif.Spec.DaedalusCall

/-!
# What hosts rely on (C66, C69, C70, C77)
-/

namespace Verif.Spec.Daedalus

open Verif.Daedalus

/-- What a number means as a function: the constant function with that index, or what the variable with that index means;
nothing for other symbols and for numbers that are not the index of a symbol. -/
inductive Denotes (syms : List Sym) : BitVec 32 → Option Nat → Prop where
  | missing {id} : syms[id.toNat]? = none → Denotes syms id none
  | other {id s} : syms[id.toNat]? = some s → s.type ≠ .function → Denotes syms id none
  | const {id s} : syms[id.toNat]? = some s → s.type = .function → s.isConst = true → Denotes syms id (some id.toNat)
  | var {id s x rest r} : syms[id.toNat]? = some s → s.type = .function → s.isConst = false → s.value = .ints (some (some x :: rest)) →
      Denotes syms x r → Denotes syms id r

/-- Variables of type function hold a number. -/
def FunctionsSet (syms : List Sym) : Prop :=
  ∀ s ∈ syms, s.type = .function → s.isConst = false →
    s.isMember = false ∧ s.count ≠ 0 ∧ ∃ x rest, s.value = .ints (some (some x :: rest))

/-- The class of a symbol: the first one on the way from a symbol to its parent, to the parent of that, and so on. -/
inductive ClassOf (syms : List Sym) : Nat → Nat → Prop where
  | here {i s} : syms[i]? = some s → s.type = .class_ → ClassOf syms i i
  | up {i s c} : syms[i]? = some s → s.type ≠ .class_ → ClassOf syms s.parent.toNat c → ClassOf syms i c

/-- That way leaves the table without meeting a class. -/
inductive Orphan (syms : List Sym) : Nat → Prop where
  | gone {i} : syms[i]? = none → Orphan syms i
  | up {i s} : syms[i]? = some s → s.type ≠ .class_ → Orphan syms s.parent.toNat → Orphan syms i

/-- An argument of the host as a value on the stack: strings are in a temporary variable, and readable there. -/
def Passed (v : Vm) : Frame → Arg → Prop
  | f, .int x => f = .int x
  | f, .bool b => f = .int (if b then 1 else 0)
  | f, .float x => f = .float x
  | f, .inst p => f = .inst p
  | .ref y i p, .str s => y = v.tmp ∧ symGetString y i.toNat p v = (.ok s, v)
  | _, .str _ => False

def PassedAll (v : Vm) : List Frame → List Arg → Prop
  | [], [] => True
  | f :: fs, a :: as => Passed v f a ∧ PassedAll v fs as
  | _, _ => False

/-- How many texts there are. -/
def texts : List Arg → Nat
  | [] => 0
  | .str _ :: as => texts as + 1
  | _ :: as => texts as

/-- The types of parameters an argument can be given for. Functions are passed by number. -/
def Accepted : Arg → List DType
  | .int _ => [.int, .function]
  | .bool _ => [.int, .function]
  | .float _ => [.float]
  | .str _ => [.string]
  | .inst _ => [.instance]

/-- The types a function may have for the host to ask for such a result; `none` for all of them. -/
def Expected : RType → Option (List DType)
  | .ignore => none
  | .void => some [.void]
  | .int => some [.int, .function]
  | .func => some [.int, .function]
  | .float => some [.float]
  | .str => some [.string]
  | .inst _ => some [.instance]

/-- The arguments fit the types of the parameters. -/
def Fit (syms : List Sym) : List Nat → List Arg → Prop
  | [], [] => True
  | p :: ps, a :: as => (∃ s, syms[p]? = some s ∧ s.type ∈ Accepted a) ∧ Fit syms ps as
  | _, _ => False

/-! ## Values on the stack -/

/-- A value on the stack is a number, or a variable that holds it. -/
def IntIn (v : Vm) (f : Frame) (x : BitVec 32) : Prop :=
  f = .int x ∨ ∃ y i p, f = .ref y i p ∧ vmGetInt y i p v = (.ok x, v)

/-- Scripts push the bits of constants of type float as integers. -/
def FloatIn (v : Vm) (f : Frame) (x : BitVec 32) : Prop :=
  f = .float x ∨ f = .int x ∨ ∃ y i p, f = .ref y i p ∧ vmGetFloat y i p v = (.ok x, v)

def InstIn (v : Vm) (f : Frame) (q : Option Nat) : Prop :=
  f = .inst q ∨ ∃ y i p, f = .ref y i p ∧ symGetInstance y v = (.ok q, v)

def TextIn (v : Vm) (f : Frame) (s : Bytes) : Prop :=
  ∃ y i p, f = .ref y i p ∧ symGetString y i.toNat p v = (.ok s, v)

/-- An instance of a class, or none. -/
def HasClass (v : Vm) (t : Nat) (q : Option Nat) : Prop :=
  q = none ∨ ∃ a i, q = some a ∧ v.heap[a]? = some i ∧ i.type = some t

/-- What the host gets for a result of a script function. Where the machine permits it, members of no instance are empty. -/
def Returned (v : Vm) (f : Frame) : RType → RVal → Prop
  | .int, .int x => IntIn v f x
  | .float, .float x => FloatIn v f x
  | .str, .str s => TextIn v f s ∨ (v.nullOk = true ∧ s = [] ∧ ∃ y i, f = .ref y i none)
  | .inst t, .inst q => InstIn v f q ∧ HasClass v t q
  | .ignore, .none => True
  | _, _ => False

/-- What a callback gets for a value on the stack. A view of a text is the variable that has it. -/
def Taken (v : Vm) (f : Frame) : PType → PVal → Prop
  | .int, .int x => IntIn v f x
  | .bool, .bool b => ∃ x, IntIn v f x ∧ b = decide (x ≠ 0)
  | .float, .float x => FloatIn v f x
  | .str, .view y i p => f = .ref y i p ∧ ∃ s, TextIn v f s
  | .inst none, .inst q => InstIn v f q
  | .inst (some t), .inst q => InstIn v f q ∧ HasClass v t q
  | .sym, .sym y => ∃ i p, f = .ref y i p ∧ y < v.syms.length
  | .func, .func r => ∃ x, IntIn v f x ∧ Denotes v.syms x r
  | _, _ => False

def TakenAll (v : Vm) : List Frame → List PType → List PVal → Prop
  | [], [], [] => True
  | f :: fs, t :: ts, x :: xs => Taken v f t x ∧ TakenAll v fs ts xs
  | _, _, _ => False

/-- What is on the stack for a result of a callback. -/
def Pushed (v : Vm) : XVal → List Frame → Prop
  | .void, rs => rs = []
  | .int x, rs => rs = [.int x]
  | .float x, rs => rs = [.float x]
  | .inst p, rs => rs = [.inst p]
  | .str s, rs => ∃ f, rs = [f] ∧ TextIn v f s
  | .func _, _ => False

/-- A function declares a result exactly if its type is one of values. -/
def Declared (f : Sym) : Prop := f.hasReturn = true ↔ f.rtype ≠ .void

end Verif.Spec.Daedalus
