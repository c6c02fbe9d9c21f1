import Verif.Spec.VobTree
import Verif.Model.World

/-! # Copies of worlds -/

namespace Verif

open Ar VobTree

namespace World

/-- The pointers of a world and of the trees of its virtual objects. -/
def pointers (w : World) (nodes : List Nat) : List (Option Nat) :=
  nodes.map some ++ [w.wayNet, w.player, w.sky] ++ w.npcs ++ w.spawns.map (·.npc)

/-- `w'` is a copy of `w`: `φ` says which object is the copy of which. `heap` are the loaded objects and `K` says which of them got
which child. The flags for spawning are not part of it. -/
structure IsCopy (H : GHeap) (kids : Kids) (nodes : List Nat) (φ : Nat → Nat) (w w' : World) (heap : List (ObjectType × List Got))
    (K : Pushes) : Prop where
  vobs : w'.vobs = w.vobs.map (Option.map φ)
  wayNet : w'.wayNet = w.wayNet.map φ
  player : w'.player = w.player.map φ
  sky : w'.sky = w.sky.map φ
  npcs : w'.npcs = w.npcs.map (Option.map φ)
  spawns : w'.spawns = w.spawns.map fun s => { s with npc := s.npc.map φ }
  enabled : w'.spawnEnabled = w.spawnEnabled
  tree : IsTreeCopy kids nodes φ K
  objects : Ar.IsCopy H ((w.pointers nodes).map (Field.ptr [])) heap φ

/-- The object at an address, if there is one, has a type. -/
def PointsTo (H : GHeap) (t : ObjectType) (p : Option Nat) : Prop := ∀ a, p = some a → ∃ o, H a = some o ∧ o.type = t

/-- A world: the virtual objects are trees `f`, in which no object occurs twice, the other objects have the types of the pointers, and
no number is so large that it is negative. -/
structure Ok (H : GHeap) (kids : Kids) (w : World) (f : Forest) : Prop where
  trees : f.On kids w.vobs
  nodup : f.nodes.Nodup
  vobs : ∀ a ∈ f.nodes, ∃ o, H a = some o ∧ o.type.isVobject = true
  few : ∀ a ∈ f.nodes, (kids a).length < 2 ^ 31
  fewVobs : w.vobs.length < 2 ^ 31
  fewNpcs : w.npcs.length < 2 ^ 31
  fewSpawns : w.spawns.length < 2 ^ 31
  wayNet : PointsTo H .zCWayNet w.wayNet
  player : PointsTo H .oCCSPlayer w.player
  sky : PointsTo H .zCSkyControler_Outdoor w.sky
  npcs : ∀ p ∈ w.npcs, PointsTo H .oCNpc p
  spawns : ∀ s ∈ w.spawns, PointsTo H .oCNpc s.npc

/-- What a world that is not part of a saved game has. -/
def plain (w : World) : World := { vobs := w.vobs, wayNet := w.wayNet }

/-- The part of a world that is saved. -/
def part (save : Bool) (w : World) : World := if save then w else w.plain

end World

end Verif
