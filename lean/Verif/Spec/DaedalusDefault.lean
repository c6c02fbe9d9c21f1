import Verif.Spec.DaedalusApi

/-!
# Externals that nobody implemented (C106)
-/

namespace Verif.Spec.Daedalus

open Verif.Daedalus

/-- Values that can be dropped for parameters of these types, from the top of the stack downwards: numbers that can be read for numbers,
variables for instances and texts. `live` are the temporary texts in use before and after. -/
inductive Drops (v : Vm) (t : Sym) : List Frame → List DType → List (Nat × Bytes) → List (Nat × Bytes) → Prop
  | none {live} : Drops v t [] [] live live
  | int {f x fs ts live live'} : IntIn v f x → Drops v t fs ts live live' → Drops v t (f :: fs) (.int :: ts) live live'
  | float {f x fs ts live live'} : FloatIn v f x → Drops v t fs ts live live' → Drops v t (f :: fs) (.float :: ts) live live'
  | var {y i p s k fs ts live live'} : k ∈ [DType.instance, .string] → v.syms[y]? = some s → s.index ≠ t.index →
      Drops v t fs ts live live' → Drops v t (.ref y i p :: fs) (k :: ts) live live'
  | text {i : Byte} {p s k fs ts l1 l2 live'} : k ∈ [DType.instance, .string] → Drops v t fs ts (l1 ++ l2) live' →
      Drops v t (.ref v.tmp i p :: fs) (k :: ts) (l1 ++ (i.toNat, s) :: l2) live'

/-- Zero, the empty text or no instance, as the function declares it. -/
def neutral (f : Sym) : XVal :=
  if f.hasReturn = true then
    match f.rtype with
    | .float => .float 0
    | .int => .int 0
    | .string => .str []
    | .instance => .inst none
    | _ => .void
  else .void

end Verif.Spec.Daedalus
