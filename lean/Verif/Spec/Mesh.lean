import Verif.Model.Mesh

/-! # What is expected of meshes -/

namespace Verif

/-- The corners of the triangles of a fan around `r`. -/
def fanFrom (r : BitVec 32) (l : List (BitVec 32)) : List (BitVec 32) := (l.zip l.tail).flatMap fun x => [r, x.1, x.2]

/-- The fan of a polygon with the given corners. -/
def fanOf : List (BitVec 32) → List (BitVec 32)
  | [] => []
  | r :: rest => fanFrom r rest

/-- The indices of one polygon. -/
def Poly.slice (p : Poly) (l : List (BitVec 32)) : List (BitVec 32) := (l.drop p.indexOffset).take p.indexCount

/-- The polygons to be triangulated, with `i` the number of the first one: those in leaves with an area, without portals, ghosts and outdoor polygons. -/
def chosen (leaf : List (BitVec 32)) : List Poly → Nat → List Poly
  | [], _ => []
  | p :: ps, i =>
    if BitVec.ofNat 32 i ∈ leaf ∧ 3 ≤ p.indexCount ∧ p.flags.portal = 0 ∧ p.flags.ghost = 0 ∧ p.flags.outdoor = 0 then
      p :: chosen leaf ps (i + 1)
    else chosen leaf ps (i + 1)

/-- The bits a file of the given version keeps. -/
def PolyFlags.kept (g2 : Bool) (f : PolyFlags) : PolyFlags :=
  if g2 then { f with lod := 0, normalAxis := 0 }
  else { f with relight := 0, dynLit := 0, normalAxis := f.normalAxis &&& 1 }

/-- What a file keeps of a polygon. -/
def Poly.kept (g2 : Bool) (p : Poly) : Poly := { p with flags := p.flags.kept g2 }

/-- What a file keeps of the index of a vertex: Gothic 1 stores 16 bits. -/
def keptIndex (g2 : Bool) (i : BitVec 32) : BitVec 32 := if g2 then i else (i.setWidth 16).setWidth 32

/-- The polygons take their corners one after the other, beginning at `off`. -/
def Contiguous : Nat → List Poly → Prop
  | _, [] => True
  | off, p :: ps => p.indexOffset = off ∧ Contiguous (off + p.indexCount) ps

end Verif
