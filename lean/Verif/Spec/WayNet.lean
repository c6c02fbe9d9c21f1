import Verif.Model.WayNet
import Verif.Spec.ArchiveGraph

/-! # Copies of way nets -/

namespace Verif

/-- One of the edges begins or ends at the way point. -/
def Touched (edges : List (Option Nat × Option Nat)) (a : Nat) : Prop := ∃ e ∈ edges, e.1 = some a ∨ e.2 = some a

/-- `out` is what should be loaded after a way net with the free points `free` and the edges `edges` was saved: `φ` is the copy of a way
point. The edges are the same, in the same order, the free points are the same, and the points are the free ones, in the same order,
followed by the others that an edge touches, each once. -/
structure IsNetCopy (free : List Nat) (edges : List (Option Nat × Option Nat)) (φ : Nat → Nat) (out : LoadedNet) : Prop where
  sameEdges : out.edges = edges.map fun e => (e.1.map φ, e.2.map φ)
  sameFree : out.free = free.map φ
  points : ∃ extra : List Nat, out.points = free.map (fun a => some (φ a)) ++ extra.map some ∧ extra.Nodup ∧
    ∀ n, n ∈ extra ↔ ∃ a, φ a = n ∧ Touched edges a ∧ a ∉ free

/-- The free ones of some way points. -/
def freeOf (P : WpHeap) (pts : List Nat) : List Nat := pts.filter fun a => (P a).any (·.freePoint)

/-- A way net that is saved completely: its points and the ends of its edges are not null, there are less than 2^31 of each, and a way
point with an edge to itself is free, or another edge touches it first. -/
structure NetOk (P : WpHeap) (net : WayNet) (dom pts : List Nat) (E : List (Nat × Nat)) : Prop where
  finite : ∀ a p, P a = some p → a ∈ dom
  small : dom.length ≤ 2 ^ 32
  points : net.points = pts.map some
  edges : net.edges = E.map fun e => (some e.1, some e.2)
  pointsIn : ∀ a ∈ pts, (P a).isSome
  edgesIn : ∀ e ∈ E, (P e.1).isSome ∧ (P e.2).isSome
  fewPoints : (freeOf P pts).length < 2 ^ 31
  fewEdges : E.length < 2 ^ 31
  loops : ∀ (i a : Nat), E[i]? = some (a, a) → a ∈ freeOf P pts ∨ ∃ j < i, ∃ e, E[j]? = some e ∧ (e.1 = a ∨ e.2 = a)

end Verif
