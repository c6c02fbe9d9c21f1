import Verif.Spec.Chunks

/-!
# Chunks in another order

The chunks of a file can be written in another order, for example by another tool, as long as those that are needed to understand others
come before them.
-/

namespace Verif.Spec

/-- The chunks with one of two types, in their order. -/
def projected (t u : BitVec 16) (cs : List Seg) : List Seg := cs.filter fun c => c.type == t || c.type == u

/-- `cs'` has the chunks of `cs` in another order, in which chunks of the same type and chunks of types of which one needs the other
have the order that they have in `cs`. -/
structure Reordered (needs : List (BitVec 16 × BitVec 16)) (cs cs' : List Seg) : Prop where
  perm : cs'.Perm cs
  same : ∀ t, projected t t cs' = projected t t cs
  order : ∀ p ∈ needs, projected p.1 p.2 cs' = projected p.1 p.2 cs

/-- What the chunks of a world mesh need: polygons need the header, as it has the version, and the two kinds of light maps each other. -/
def meshNeeds : List (BitVec 16 × BitVec 16) := [(0xB000, 0xB050), (0xB025, 0xB026)]

/-- What the chunks of a BSP tree need: the tree needs the polygons, the light points need the tree. -/
def bspNeeds : List (BitVec 16 × BitVec 16) := [(0xC010, 0xC040), (0xC040, 0xC045)]

/-- What the chunks of an animation need: the samples need the header. -/
def animationNeeds : List (BitVec 16 × BitVec 16) := [(0xA020, 0xA090)]

/-- What the chunks of a morph mesh need: the positions need the mesh. -/
def morphNeeds : List (BitVec 16 × BitVec 16) := [(0xB100, 0xB1FF)]

/-- What the chunks of a soft skin mesh need: the weights need the mesh. -/
def skinNeeds : List (BitVec 16 × BitVec 16) := [(0xB100, 0xB1FF)]

end Verif.Spec
