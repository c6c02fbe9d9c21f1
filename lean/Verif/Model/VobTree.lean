import Verif.Model.WayNet

/-! # VOb trees: `src/world/VobTree.cc` -/

namespace Verif.VobTree

open Ar

/-- `children` of the virtual objects in memory (`include/zenkit/vobs/VirtualObject.hh:478`), by address. -/
abbrev Kids := Nat → List (Option Nat)

mutual

/-- `save_vob_tree` (`src/world/VobTree.cc:45-58`): the calls it makes, and the counter. A null pointer is written and then
dereferenced. Fuel: the depth of the recursion and the number of children. -/
def save (kids : Kids) : Nat → Option Nat → Nat → Except Fail (List Field × Nat)
  | 0, _, _ => .error .hang
  | _ + 1, none, _ => .error .ub
  | fuel + 1, some a, n => do
    let (fs, m) ← saveAll kids fuel (kids a) (n + 1)
    return (.ptr nullClass (some a) :: .val (b!"childs" ++ dec (n % 2 ^ 32)) (.int (BitVec.ofNat 32 (kids a).length)) :: fs, m)

/-- The loop over the children (`src/world/VobTree.cc:50-52`). -/
def saveAll (kids : Kids) : Nat → List (Option Nat) → Nat → Except Fail (List Field × Nat)
  | 0, _, _ => .error .hang
  | _ + 1, [], n => .ok ([], n)
  | fuel + 1, p :: ps, n => do
    let (fs, n) ← save kids fuel p n
    let (gs, n) ← saveAll kids fuel ps n
    return (fs ++ gs, n)

end

/-- The second argument of `skip`: a negative number is so large that the counter of 32 bits never gets there (none). -/
def skipCount (n : BitVec 32) : Option Nat := if n.toInt < 0 then none else some n.toNat

/-- `skip` (`src/world/VobTree.cc:20-27`). -/
def skipAll {σ} (r : Reader σ) : Nat → Option Nat → σ → Except Fail σ
  | 0, _, _ => .error .hang
  | fuel + 1, c, s =>
    if c = some 0 then .ok s
    else do
      let (_, s) ← r.skipObj false s
      let (n, s) ← readInt r s
      let s ← skipAll r fuel (skipCount n) s
      skipAll r fuel (c.map (· - 1)) s

/-- The calls `children.push_back`: who gets which child. -/
abbrev Pushes := List (Nat × Nat)

/-- The children of a loaded object. -/
def childrenOf (K : Pushes) (n : Nat) : List Nat := (K.filter fun p => p.1 = n).map (·.2)

mutual

/-- `parse_vob_tree` (`src/world/VobTree.cc:8-43`). `S` are the `load` functions of the objects, `pf` is the fuel for
`read_object`. Simplification: `reserve` only fails for negative numbers. -/
def parse {σ} (r : Reader σ) (S : Schema) (pf : Nat) : Nat → σ → GRd → Pushes → Except Fail (Option Nat × σ × GRd × Pushes)
  | 0, _, _, _ => .error .hang
  | fuel + 1, s, g, K => do
    let (p, s, g) ← readPtr r S pf s g
    let p := p.filter fun n => (g.heap[n]?).any fun o => o.1.isVobject
    let (c, s) ← readInt r s
    match p with
    | none => do
      let s ← skipAll r fuel (skipCount c) s
      return (none, s, g, K)
    | some n => do
      let c ← reserve c
      let (s, g, K) ← parseAll r S pf n fuel c s g K
      return (some n, s, g, K)

/-- The loop over the children (`src/world/VobTree.cc:35-40`). -/
def parseAll {σ} (r : Reader σ) (S : Schema) (pf : Nat) (parent : Nat) :
    Nat → Nat → σ → GRd → Pushes → Except Fail (σ × GRd × Pushes)
  | 0, _, _, _, _ => .error .hang
  | _ + 1, 0, s, g, K => .ok (s, g, K)
  | fuel + 1, c + 1, s, g, K => do
    let (p, s, g, K) ← parse r S pf fuel s g K
    let K := match p with
      | none => K
      | some n => K ++ [(parent, n)]
    parseAll r S pf parent fuel c s g K

end

end Verif.VobTree
