import Verif.Model.WholeMesh
import Verif.Spec.Texture

/-! # Whole meshes: what is kept -/

namespace Verif

/-- The orders in which the keys of a map may come: each image of a light map once. -/
structure WholeMesh.Order (m : WholeMesh) (ord : List (Option Nat)) : Prop where
  nodup : ord.Nodup
  mem : ∀ i, i ∈ ord ↔ ∃ l ∈ m.lightmaps, l.image = i

/-- The picture that a light map shows. -/
def WholeMesh.picture (m : WholeMesh) (l : LightMap) : Option Tex.Texture := l.image.bind fun i => m.images[i]?

/-- The light maps of two meshes are the same: as many, each at the same place with the same picture, and two of them share an image in
the one exactly if they do in the other. -/
structure SameLight (m m' : WholeMesh) : Prop where
  length : m'.lightmaps.length = m.lightmaps.length
  maps : ∀ (k : Nat) l l', m.lightmaps[k]? = some l → m'.lightmaps[k]? = some l' →
    l'.origin = l.origin ∧ l'.normalA = l.normalA ∧ l'.normalB = l.normalB ∧ (m'.picture l').isSome ∧ m'.picture l' = m.picture l
  shared : ∀ (j k : Nat) a b a' b', m.lightmaps[j]? = some a → m.lightmaps[k]? = some b → m'.lightmaps[j]? = some a' →
    m'.lightmaps[k]? = some b' → (a'.image = b'.image ↔ a.image = b.image)

/-- An image that a file can hold (see C40). -/
structure Tex.Texture.Storable (t : Tex.Texture) : Prop where
  levels : t.mipmaps ≠ 0
  sized : t.Sized
  whole : t.Whole
  palette : t.palette.length = 256
  noPalette : t.format ≠ Tex.p8 → t.palette = List.replicate 256 {}

end Verif
