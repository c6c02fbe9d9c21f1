import Verif.Model.World
import Verif.Spec.Mesh
import Verif.Spec.WholeMesh
import Verif.Spec.Materials

/-! # The mesh and the BSP tree of a world: what is kept -/

namespace Verif

open Obj (Game Material)

/-- The triangles of a world: the fans of the polygons of the leaves (see C45). -/
def Mesh.fans (m : Mesh) (leaf : List (BitVec 32)) : PolyList where
  materials := (chosen leaf m.geometry 0).flatMap fun p => List.replicate (p.indexCount - 2) p.material
  lightmaps := (chosen leaf m.geometry 0).flatMap fun p => List.replicate (p.indexCount - 2) p.lightmap
  features := (chosen leaf m.geometry 0).flatMap fun p => fanOf (p.slice m.featureIndices)
  vertices := (chosen leaf m.geometry 0).flatMap fun p => fanOf (p.slice m.vertexIndices)
  flags := (chosen leaf m.geometry 0).flatMap fun p => List.replicate (p.indexCount - 2) p.flags

/-- What a file of the game keeps of the geometry. -/
def Mesh.kept (g : Game) (m : Mesh) : Mesh := { m with geometry := m.geometry.map (Poly.kept (g != .g1)), polygons := {} }

/-- `l'` is what a new world has of `l` after loading it: the same BSP tree, the mesh that the file keeps, triangulated anew. -/
structure SameLevel (g : Game) (l l' : Level) : Prop where
  bsp : l'.bsp = l.bsp
  core : l'.mesh.core = { l.mesh.core.kept g with polygons := (l.mesh.core.kept g).fans l.bsp.leafPolygons }
  materials : l'.mesh.materials = l.mesh.materials.map (Material.kept g)
  light : SameLight l.mesh l'.mesh

/-- A world as the constructor leaves it. -/
structure NewLevel (l : Level) : Prop where
  bsp : ∃ mode, l.bsp = { mode := mode }
  materials : l.mesh.materials = []
  lightmaps : l.mesh.lightmaps = []
  vertexIndices : l.mesh.core.vertexIndices = []
  featureIndices : l.mesh.core.featureIndices = []
  polygons : l.mesh.core.polygons = {}

end Verif
