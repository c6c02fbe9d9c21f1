import Verif.Model.Mesh
import Verif.Model.Texture
import Verif.Model.Materials

/-!
# Whole meshes: `src/Mesh.cc`, `include/zenkit/Mesh.hh`

The geometry of `Verif.Model.Mesh` with materials and light maps. Light maps share their images: `std::shared_ptr<Texture>` is an index
into the list of all images, so that two light maps have the same image exactly if they have the same index.
-/

namespace Verif

open Obj (Material Game)
open Tex (Texture)

/-- `struct LightMap` (`include/zenkit/Mesh.hh:19-23`). -/
structure LightMap where
  image : Option Nat
  normalA : Vec3
  normalB : Vec3
  origin : Vec3
  deriving DecidableEq, Repr

/-- `class Mesh` (`include/zenkit/Mesh.hh:88-128`). `images` are the textures that the light maps point to. -/
structure WholeMesh where
  core : Mesh
  materials : List Material := []
  images : List Texture := []
  lightmaps : List LightMap := []

/-- `lightmap_textures[texture_index]` with `n` textures, of which `base` is the first (`src/Mesh.cc:158`): not checked. -/
def LightMap.pick (base n : Nat) (origin normalA normalB : Vec3) (i : BitVec 32) : Rd LightMap :=
  if i.toNat < n then return { image := some (base + i.toNat), normalA, normalB, origin } else Rd.fail .ub

/-- One light map of the shared kind (`src/Mesh.cc:152-158`) with the `n` images of the chunk, of which `base` is the first. -/
def LightMap.loadShared (base n : Nat) : Rd LightMap := do
  let origin ← Rd.vec3
  let normalA ← Rd.vec3
  let normalB ← Rd.vec3
  let i ← Rd.u32
  LightMap.pick base n origin normalA normalB i

/-- The chunk of light maps that share images (`src/Mesh.cc:140-161`). -/
def WholeMesh.loadShared (m : WholeMesh) : Rd WholeMesh := do
  let n ← Rd.u32
  let images ← Rd.times (Texture.load {}) n.toNat
  let count ← Rd.u32
  let maps ← Rd.times (LightMap.loadShared m.images.length n.toNat) count.toNat
  return { m with images := m.images ++ images, lightmaps := m.lightmaps ++ maps }

/-- One light map with its own image (`src/Mesh.cc:166-176`). -/
def LightMap.loadOwn : Rd ((Vec3 × Vec3 × Vec3) × Texture) := do
  let origin ← Rd.vec3
  let normalA ← Rd.vec3
  let normalB ← Rd.vec3
  let t ← Texture.load {}
  return ((origin, normalA, normalB), t)

/-- The light maps for images from number `base` on. -/
def LightMap.number (base : Nat) : List ((Vec3 × Vec3 × Vec3) × Texture) → List LightMap
  | [] => []
  | (x, _) :: xs => { image := some base, normalA := x.2.1, normalB := x.2.2, origin := x.1 } :: LightMap.number (base + 1) xs

/-- The chunk of light maps with their own images (`src/Mesh.cc:162-181`). -/
def WholeMesh.loadOwn (m : WholeMesh) : Rd WholeMesh := do
  let count ← Rd.u32
  let maps ← Rd.times LightMap.loadOwn count.toNat
  return { m with images := m.images ++ maps.map (·.2), lightmaps := m.lightmaps ++ LightMap.number m.images.length maps }

/-- The handler of `Mesh::load` (`src/Mesh.cc:44-189`), with the local variable `version`. -/
def WholeMesh.onChunkV (wide : Bool) (m : WholeMesh) (version : BitVec 16) (type : BitVec 16) : Rd ((WholeMesh × BitVec 16) × Bool) :=
  if type = 0xB020 then do
    let materials ← Material.loadCounted m.materials
    return (({ m with materials }, version), false)
  else if type = 0xB026 then do
    let m ← m.loadShared
    return ((m, version), false)
  else if type = 0xB025 then do
    let m ← m.loadOwn
    return ((m, version), false)
  else do
    let x ← Mesh.onChunkV wide m.core version type
    return (({ m with core := x.1.1 }, x.1.2), x.2)

/-- The handler with the state as a pair. -/
def WholeMesh.onChunk (wide : Bool) (st : WholeMesh × BitVec 16) (type : BitVec 16) : Rd ((WholeMesh × BitVec 16) × Bool) :=
  WholeMesh.onChunkV wide st.1 st.2 type

/-- `Mesh::load(Read*, bool)` (`src/Mesh.cc:38-190`). -/
def WholeMesh.load (wide : Bool) (m : WholeMesh) : Rd WholeMesh := do
  let (m, _) ← readChunked (simpleCb (WholeMesh.onChunk wide)) (m, 0)
  return m

/-! ## Saving -/

/-- `write_chunk` (`include/zenkit/Stream.hh:214-228`) with a callback that can fail. -/
def writeChunkE (type : BitVec 16) (cb : Ws → Except Fail Ws) (w : Ws) : Except Fail Ws :=
  let w := w.u16 type
  let sizeOff := w.pos
  let w := w.u32 0
  match cb w with
  | .error e => .error e
  | .ok w =>
    let len : Int := (w.pos : Int) - sizeOff - 4
    let w := w.seek sizeOff .beg
    let w := w.u32 (BitVec.ofInt 32 len)
    .ok (w.seek len .cur)

/-- The image that a light map points to; saving through a null pointer or a dangling one is undefined. -/
def WholeMesh.deref (m : WholeMesh) (i : Option Nat) : Except Fail Texture :=
  match i.bind fun i => m.images[i]? with
  | some t => .ok t
  | none => .error .ub

/-- One light map (`src/Mesh.cc:270-277`); `ord` is the order of the images in the file. -/
def LightMap.save (ord : List (Option Nat)) (l : LightMap) (w : Ws) : Ws :=
  (((w.vec3 l.origin).vec3 l.normalA).vec3 l.normalB).u32
    (if l.image ∈ ord then BitVec.ofNat 32 (ord.idxOf l.image) else 0)

/-- The chunk of the light maps (`src/Mesh.cc:253-278`). The images are saved in the order in which `std::unordered_map` has its keys,
which is not specified: `ord` is this order. -/
def WholeMesh.saveShared (m : WholeMesh) (ord : List (Option Nat)) (w : Ws) : Except Fail Ws := do
  let images ← ord.mapM m.deref
  let w := w.u32 (BitVec.ofNat 32 ord.length)
  let w := images.foldl (fun w t => t.save w) w
  let w := w.u32 (BitVec.ofNat 32 m.lightmaps.length)
  return m.lightmaps.foldl (fun w l => l.save ord w) w

/-- `Mesh::save` (`src/Mesh.cc:229-339`), with what the clock and the user name are when the archive of the materials is opened (`e`) and
when its header is written a second time (`e'`). -/
def WholeMesh.save (m : WholeMesh) (g : Game) (e e' : Ar.Env) (ord : List (Option Nat)) (w : Ws) : Except Fail Ws := do
  let g2 := g != .g1
  let w := writeChunk 0xB000 (m.core.saveMarker g2) w
  let w := writeChunk 0xB010 m.core.saveBounds w
  let w ← writeChunkE 0xB020 (Material.saveCounted g e e' m.materials) w
  let w ← writeChunkE 0xB026 (m.saveShared ord) w
  let w := writeChunk 0xB030 m.core.saveVertices w
  let w := writeChunk 0xB040 m.core.saveFeatures w
  let corners ← m.core.geometry.mapM (m.core.corners g2)
  let w := writeChunk 0xB050 (m.core.savePolygons g2 corners) w
  return writeChunk 0xB060 (fun w => w) w

end Verif
