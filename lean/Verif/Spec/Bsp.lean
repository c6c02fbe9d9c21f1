import Verif.Model.Bsp

/-! # Binary trees and their list form, for the BSP properties -/

namespace Verif.Spec

/-- A BSP tree as a tree. `none` is an absent child. -/
inductive BTree where
  | none
  | leaf (bbox : Aabb) (polygonIndex polygonCount : BitVec 32)
  | inner (bbox : Aabb) (polygonIndex polygonCount : BitVec 32) (plane : Vec4) (lod : BitVec 8) (front back : BTree)
  deriving DecidableEq

namespace BTree

def size : BTree → Nat
  | .none => 0
  | .leaf .. => 1
  | .inner _ _ _ _ _ f b => 1 + f.size + b.size

/-- The number of the root of `t` when its nodes are numbered from `start`; -1 if there is none. -/
def link (t : BTree) (start : Nat) : BitVec 32 :=
  match t with
  | .none => 0xFFFFFFFF
  | _ => BitVec.ofNat 32 start

/-- The nodes in preorder, numbered from `start`, with their links. -/
def nodesAt : BTree → Nat → BitVec 32 → List BspNode
  | .none, _, _ => []
  | .leaf bbox i c, _, parent => [⟨⟨0, 0, 0, 0⟩, bbox, i, c, 0xFFFFFFFF, 0xFFFFFFFF, parent, 0⟩]
  | .inner bbox i c plane lod f b, start, parent =>
    ⟨plane, bbox, i, c, f.link (start + 1), b.link (start + 1 + f.size), parent, lod⟩ ::
      (f.nodesAt (start + 1) (BitVec.ofNat 32 start) ++ b.nodesAt (start + 1 + f.size) (BitVec.ofNat 32 start))

/-- The numbers of the leaves. -/
def leavesAt : BTree → Nat → List Nat
  | .none, _ => []
  | .leaf .., start => [start]
  | .inner _ _ _ _ _ f b, start => f.leavesAt (start + 1) ++ b.leavesAt (start + 1 + f.size)

/-- Every inner node has a child. -/
def Proper : BTree → Prop
  | .none => True
  | .leaf .. => True
  | .inner _ _ _ _ _ f b => (f ≠ .none ∨ b ≠ .none) ∧ f.Proper ∧ b.Proper

/-- Level of detail flags are kept by Gothic 1 files only. -/
def Lod (g1 : Bool) : BTree → Prop
  | .none => True
  | .leaf .. => True
  | .inner _ _ _ _ lod f b => (g1 = false → lod = 0) ∧ f.Lod g1 ∧ b.Lod g1

def isLeaf : BTree → Bool
  | .leaf .. => true
  | _ => false

end BTree

end Verif.Spec
