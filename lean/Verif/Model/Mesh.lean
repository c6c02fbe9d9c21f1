import Verif.Model.Chunk
import Verif.Model.Boxes
import Verif.Model.Bsp

/-!
# Meshes: `src/Mesh.cc`, `include/zenkit/Mesh.hh`

Geometry. Materials and light maps are left out: their chunks are skipped by this model of `Mesh::load` and left out by this model of
`Mesh::save`. They do not touch the members modelled here. Whole meshes are in `Verif.Model.WholeMesh`.
-/

namespace Verif

/-- `struct PolygonFlagSet` (`include/zenkit/Mesh.hh:38-52`), a set of bit fields. -/
structure PolyFlags where
  portal : BitVec 2 := 0
  occluder : BitVec 1 := 0
  sector : BitVec 1 := 0
  relight : BitVec 1 := 0
  outdoor : BitVec 1 := 0
  ghost : BitVec 1 := 0
  dynLit : BitVec 1 := 0
  sectorIndex : BitVec 16 := 0
  lod : BitVec 1 := 0
  normalAxis : BitVec 2 := 0
  deriving DecidableEq, Repr

/-- `struct Polygon` (`include/zenkit/Mesh.hh:72-82`). -/
structure Poly where
  material : BitVec 32
  lightmap : BitVec 32
  flags : PolyFlags
  indexCount : Nat
  indexOffset : Nat
  planeDistance : F32
  planeNormal : Vec3
  deriving DecidableEq, Repr

/-- `struct VertexFeature` (`include/zenkit/Mesh.hh:26-35`). -/
structure Feature where
  texture : Vec2
  light : BitVec 32
  normal : Vec3
  deriving DecidableEq, Repr

/-- `struct PolygonList` (`include/zenkit/Mesh.hh:55-70`). -/
structure PolyList where
  materials : List (BitVec 32) := []
  lightmaps : List (BitVec 32) := []
  features : List (BitVec 32) := []
  vertices : List (BitVec 32) := []
  flags : List PolyFlags := []
  deriving DecidableEq, Repr

/-- `class Mesh` (`include/zenkit/Mesh.hh:88-128`) without materials and light maps. -/
structure Mesh where
  date : Date
  name : Bytes
  bbox : Aabb
  obb : Obb
  vertices : List Vec3
  features : List Feature
  geometry : List Poly
  vertexIndices : List (BitVec 32)
  featureIndices : List (BitVec 32)
  polygons : PolyList

/-- The first flag byte of either version, bits 0-3, 5 and 6 (`src/Mesh.cc:101-107, 113-119`); the others are 0. -/
def PolyFlags.ofByte (f : BitVec 8) : PolyFlags :=
  { portal := ((f &&& 0b00000011) >>> 0).setWidth 2
    occluder := ((f &&& 0b00000100) >>> 2).setWidth 1
    sector := ((f &&& 0b00001000) >>> 3).setWidth 1
    outdoor := ((f &&& 0b00100000) >>> 5).setWidth 1
    ghost := ((f &&& 0b01000000) >>> 6).setWidth 1 }

/-- The flags in a Gothic 2 file (`src/Mesh.cc:99-108`). -/
def PolyFlags.loadG2 : Rd PolyFlags := do
  let f ← Rd.u8
  let sectorIndex ← Rd.u16
  return { PolyFlags.ofByte f with
    relight := ((f &&& 0b00010000) >>> 4).setWidth 1
    dynLit := ((f &&& 0b10000000) >>> 7).setWidth 1
    sectorIndex }

/-- The flags in a Gothic 1 file (`src/Mesh.cc:110-121`). -/
def PolyFlags.loadG1 : Rd PolyFlags := do
  let f1 ← Rd.u8
  let f2 ← Rd.u8
  let sectorIndex ← Rd.u16
  return { PolyFlags.ofByte f1 with
    lod := ((f1 &&& 0b00010000) >>> 4).setWidth 1
    normalAxis := (((f1 &&& 0b10000000) >>> 7) ||| (f2 &&& 0b00000001)).setWidth 2
    sectorIndex }

/-- The flags of a polygon (`src/Mesh.cc:98-122`). -/
def PolyFlags.load (g2 : Bool) : Rd PolyFlags := if g2 then PolyFlags.loadG2 else PolyFlags.loadG1

/-- The index of a vertex (`src/Mesh.cc:128-129`). -/
def Mesh.loadIndex (wide : Bool) : Rd (BitVec 32) := if wide then Rd.u32 else (do let x ← Rd.u16; return x.setWidth 32)

/-- One corner (`src/Mesh.cc:127-131`). -/
def Mesh.loadCorner (wide : Bool) : Rd (BitVec 32 × BitVec 32) := do
  let v ← Mesh.loadIndex wide
  let f ← Rd.u32
  return (v, f)

/-- One polygon (`src/Mesh.cc:93-135`) at the given offset: the polygon and its corners. -/
def Poly.load (g2 wide : Bool) (offset : BitVec 32) : Rd (Poly × List (BitVec 32 × BitVec 32)) := do
  let material ← Rd.u16
  let lightmap ← Rd.u16
  let planeDistance ← Rd.f32
  let planeNormal ← Rd.vec3
  let flags ← PolyFlags.load g2
  let n ← Rd.u8
  let corners ← Rd.times (Mesh.loadCorner (g2 || wide)) n.toNat
  return ({ material := material.setWidth 32, lightmap := lightmap.signExtend 32, flags, indexCount := n.toNat,
            indexOffset := offset.toNat, planeDistance, planeNormal }, corners)

/-- The loop over the polygons (`src/Mesh.cc:90-136`): the polygons and all corners. -/
def Poly.loadMany (g2 wide : Bool) : Nat → BitVec 32 → Rd (List Poly × List (BitVec 32 × BitVec 32))
  | 0, _ => return ([], [])
  | n + 1, offset => do
    let (p, cs) ← Poly.load g2 wide offset
    let (ps, cs') ← Poly.loadMany g2 wide n (offset + BitVec.ofNat 32 p.indexCount)
    return (p :: ps, cs ++ cs')

/-- One feature (`src/Mesh.cc:76-80`). -/
def Feature.load : Rd Feature := do
  let texture ← Rd.vec2
  let light ← Rd.u32
  let normal ← Rd.vec3
  return { texture, light, normal }

/-- The handler of `Mesh::load` (`src/Mesh.cc:44-189`); the state includes the local variable `version`. The flags that a version
does not store keep the value of the new polygon, 0: the model is for objects without geometry. -/
def Mesh.onChunkV (wide : Bool) (m : Mesh) (version : BitVec 16) (type : BitVec 16) : Rd ((Mesh × BitVec 16) × Bool) :=
  if type = 0xB000 then do
    let version ← Rd.u16
    let date ← Date.load
    let name ← Rd.line false
    return (({ m with date, name }, version), false)
  else if type = 0xB010 then do
    let bbox ← Aabb.load
    let obb ← Obb.load
    return (({ m with bbox, obb }, version), false)
  else if type = 0xB030 then do
    let n ← Rd.u32
    let vertices ← Rd.times Rd.vec3 n.toNat
    return (({ m with vertices }, version), false)
  else if type = 0xB040 then do
    let n ← Rd.u32
    let features ← Rd.times Feature.load n.toNat
    return (({ m with features }, version), false)
  else if type = 0xB050 then do
    let n ← Rd.u32
    let (geometry, corners) ← Poly.loadMany (version == 265) wide n.toNat 0
    return (({ m with geometry, vertexIndices := m.vertexIndices ++ corners.map (·.1),
                      featureIndices := m.featureIndices ++ corners.map (·.2) }, version), false)
  else if type = 0xB060 then return ((m, version), true)
  else return ((m, version), false)

/-- The handler with the state as a pair. -/
def Mesh.onChunk (wide : Bool) (st : Mesh × BitVec 16) (type : BitVec 16) : Rd ((Mesh × BitVec 16) × Bool) :=
  Mesh.onChunkV wide st.1 st.2 type

/-- `Mesh::load(Read*, bool)` (`src/Mesh.cc:38-190`). -/
def Mesh.load (wide : Bool) (m : Mesh) : Rd Mesh := do
  let (m, _) ← readChunked (simpleCb (Mesh.onChunk wide)) (m, 0)
  return m

/-! ## Triangulation -/

/-- `std::lower_bound` on a random access range: the first position in `[first, first + len)` whose element is not less, if the
range is sorted (`binary_search` is `lower_bound` with a comparison). Fuel: `len`. -/
def lowerBound (l : List (BitVec 32)) (x : BitVec 32) : Nat → Nat → Nat → Nat
  | 0, first, _ => first
  | fuel + 1, first, len =>
    if len = 0 then first
    else
      let half := len / 2
      match l[first + half]? with
      | some y => if y < x then lowerBound l x fuel (first + half + 1) (len - half - 1) else lowerBound l x fuel first half
      | none => first

/-- `std::binary_search`. -/
def binarySearch (l : List (BitVec 32)) (x : BitVec 32) : Bool :=
  match l[lowerBound l x l.length 0 l.length]? with
  | some y => !(x < y)
  | none => false

/-- Access to a vector. -/
def at? (l : List (BitVec 32)) (i : Nat) : Except Fail (BitVec 32) :=
  match l[i]? with
  | some x => .ok x
  | none => .error .ub

/-- The loop over the fan of one polygon (`src/Mesh.cc:210-225`): `b` runs up to the number of corners, for `fuel` rounds.
(`b` is a 32-bit number; polygons have fewer corners.) -/
def Mesh.fan (m : Mesh) (p : Poly) : Nat → Nat → Nat → PolyList → Except Fail PolyList
  | 0, _, _, out => .ok out
  | fuel + 1, a, b, out =>
    if b < p.indexCount then do
      let root := p.indexOffset
      let v0 ← at? m.vertexIndices root
      let v1 ← at? m.vertexIndices (root + a)
      let v2 ← at? m.vertexIndices (root + b)
      let f0 ← at? m.featureIndices root
      let f1 ← at? m.featureIndices (root + a)
      let f2 ← at? m.featureIndices (root + b)
      Mesh.fan m p fuel b (b + 1)
        { materials := out.materials ++ [p.material], lightmaps := out.lightmaps ++ [p.lightmap],
          features := out.features ++ [f0, f1, f2], vertices := out.vertices ++ [v0, v1, v2], flags := out.flags ++ [p.flags] }
    else .ok out

/-- The loop over the polygons (`src/Mesh.cc:199-226`), from polygon `i` on. -/
def Mesh.triangulateFrom (m : Mesh) (leaf : List (BitVec 32)) : List Poly → Nat → PolyList → Except Fail PolyList
  | [], _, out => .ok out
  | p :: ps, i, out =>
    if !binarySearch leaf (BitVec.ofNat 32 i) then m.triangulateFrom leaf ps (i + 1) out
    else if p.indexCount < 3 || p.flags.portal != 0 || p.flags.ghost != 0 || p.flags.outdoor != 0 then
      m.triangulateFrom leaf ps (i + 1) out
    else do
      let out ← m.fan p p.indexCount 1 2 out
      m.triangulateFrom leaf ps (i + 1) out

/-- `Mesh::triangulate` (`src/Mesh.cc:192-227`). -/
def Mesh.triangulate (m : Mesh) (leaf : List (BitVec 32)) : Except Fail Mesh := do
  let polygons ← m.triangulateFrom leaf m.geometry 0 m.polygons
  return { m with polygons }

/-! ## Saving -/

/-- The byte with the flags in a Gothic 2 file (`src/Mesh.cc:310-313`). -/
def PolyFlags.byteG2 (f : PolyFlags) : BitVec 8 :=
  (f.portal.setWidth 8 &&& 3) ||| ((f.occluder.setWidth 8 &&& 1) <<< 2) ||| ((f.sector.setWidth 8 &&& 1) <<< 3) |||
    ((f.relight.setWidth 8 &&& 1) <<< 4) ||| ((f.outdoor.setWidth 8 &&& 1) <<< 5) ||| ((f.ghost.setWidth 8 &&& 1) <<< 6) |||
    ((f.dynLit.setWidth 8 &&& 1) <<< 7)

/-- The first byte with the flags in a Gothic 1 file (`src/Mesh.cc:317-320`). -/
def PolyFlags.byteG1 (f : PolyFlags) : BitVec 8 :=
  (f.portal.setWidth 8 &&& 3) ||| ((f.occluder.setWidth 8 &&& 1) <<< 2) ||| ((f.sector.setWidth 8 &&& 1) <<< 3) |||
    ((f.lod.setWidth 8 &&& 1) <<< 4) ||| ((f.outdoor.setWidth 8 &&& 1) <<< 5) ||| ((f.ghost.setWidth 8 &&& 1) <<< 6) |||
    ((f.normalAxis.setWidth 8 &&& 1) <<< 7)

/-- The flags to a file (`src/Mesh.cc:308-323`). -/
def PolyFlags.save (g2 : Bool) (f : PolyFlags) (w : Ws) : Ws :=
  if g2 then (w.u8 f.byteG2).u16 f.sectorIndex
  else ((w.u8 f.byteG1).u8 (f.normalAxis.setWidth 8 &&& 2)).u16 f.sectorIndex

/-- The corners that `Mesh::save` writes for a polygon (`src/Mesh.cc:326-334`): Gothic 1 takes the polygon's own indices, Gothic 2
those of the triangles. -/
def Mesh.corners (m : Mesh) (g2 : Bool) (p : Poly) : Except Fail (List (BitVec 32 × BitVec 32)) :=
  (List.range p.indexCount).mapM fun i => do
    let v ← at? (if g2 then m.polygons.vertices else m.vertexIndices) (p.indexOffset + i)
    let f ← at? (if g2 then m.polygons.features else m.featureIndices) (p.indexOffset + i)
    return (v, f)

/-- One corner to a file. -/
def Mesh.saveCorner (g2 : Bool) (c : BitVec 32 × BitVec 32) (w : Ws) : Ws :=
  (if g2 then w.u32 c.1 else w.u16 (c.1.setWidth 16)).u32 c.2

/-- One polygon to a file (`src/Mesh.cc:302-334`). -/
def Poly.save (g2 : Bool) (p : Poly) (corners : List (BitVec 32 × BitVec 32)) (w : Ws) : Ws :=
  let w := w.u16 (p.material.setWidth 16)
  let w := w.u16 (p.lightmap.setWidth 16)
  let w := w.f32 p.planeDistance
  let w := w.vec3 p.planeNormal
  let w := p.flags.save g2 w
  let w := w.u8 (BitVec.ofNat 8 p.indexCount)
  corners.foldl (fun w c => Mesh.saveCorner g2 c w) w

/-- The content of the first chunk (`src/Mesh.cc:230-234`). -/
def Mesh.saveMarker (m : Mesh) (g2 : Bool) (w : Ws) : Ws := (m.date.save (w.u16 (if g2 then 265 else 9))).line m.name

/-- The bounding boxes (`src/Mesh.cc:236-239`). -/
def Mesh.saveBounds (m : Mesh) (w : Ws) : Ws := m.obb.save (m.bbox.save w)

/-- The vertices (`src/Mesh.cc:280-286`). -/
def Mesh.saveVertices (m : Mesh) (w : Ws) : Ws := m.vertices.foldl (fun w v => w.vec3 v) (w.u32 (BitVec.ofNat 32 m.vertices.length))

/-- The features (`src/Mesh.cc:288-296`). -/
def Mesh.saveFeatures (m : Mesh) (w : Ws) : Ws :=
  m.features.foldl (fun w f => ((w.vec2 f.texture).u32 f.light).vec3 f.normal) (w.u32 (BitVec.ofNat 32 m.features.length))

/-- The polygons (`src/Mesh.cc:298-336`) with their corners. -/
def Mesh.savePolygons (m : Mesh) (g2 : Bool) (corners : List (List (BitVec 32 × BitVec 32))) (w : Ws) : Ws :=
  (m.geometry.zip corners).foldl (fun w p => p.1.save g2 p.2 w) (w.u32 (BitVec.ofNat 32 m.geometry.length))

/-- `Mesh::save` (`src/Mesh.cc:229-339`) without the chunks of materials and light maps. -/
def Mesh.save (m : Mesh) (g2 : Bool) (w : Ws) : Except Fail Ws := do
  let corners ← m.geometry.mapM (m.corners g2)
  let w := writeChunk 0xB000 (m.saveMarker g2) w
  let w := writeChunk 0xB010 m.saveBounds w
  let w := writeChunk 0xB030 m.saveVertices w
  let w := writeChunk 0xB040 m.saveFeatures w
  let w := writeChunk 0xB050 (m.savePolygons g2 corners) w
  return writeChunk 0xB060 (fun w => w) w

end Verif
