import Verif.Lemmas.Mesh

/-! # Properties of meshes: C45, C46, C73 -/

namespace Verif.Props

/-! ## C45: triangulation -/

/-- **C45** — triangulating adds, in the order of the polygons, the fan of every polygon that belongs to a leaf, has an area and is
neither portal, ghost occluder nor outdoor: all triangles (first corner, corner k, corner k+1), with the same corners for features,
and the material, light map and flags of the polygon once per triangle. The list of leaf polygons has to be sorted. -/
theorem c45_partial (m : Mesh) (leaf : List (BitVec 32)) (hs : leaf.Pairwise fun a b => a.toNat ≤ b.toNat)
    (hr : ∀ p ∈ chosen leaf m.geometry 0, p.indexOffset + p.indexCount ≤ m.vertexIndices.length ∧
      p.indexOffset + p.indexCount ≤ m.featureIndices.length) :
    m.triangulate leaf = .ok { m with polygons :=
      { materials := m.polygons.materials ++ (chosen leaf m.geometry 0).flatMap fun p => List.replicate (p.indexCount - 2) p.material
        lightmaps := m.polygons.lightmaps ++ (chosen leaf m.geometry 0).flatMap fun p => List.replicate (p.indexCount - 2) p.lightmap
        features := m.polygons.features ++ (chosen leaf m.geometry 0).flatMap fun p => fanOf (p.slice m.featureIndices)
        vertices := m.polygons.vertices ++ (chosen leaf m.geometry 0).flatMap fun p => fanOf (p.slice m.vertexIndices)
        flags := m.polygons.flags ++ (chosen leaf m.geometry 0).flatMap fun p => List.replicate (p.indexCount - 2) p.flags } } := by
  unfold Mesh.triangulate
  rw [triangulateFrom_eq m leaf hs m.geometry 0 m.polygons hr, foldl_addFan]
  rfl

theorem fanFrom_length (r : BitVec 32) (l : List (BitVec 32)) : (fanFrom r l).length = 3 * (l.length - 1) := by
  unfold fanFrom
  rw [List.length_flatMap]
  have : ∀ (z : List (BitVec 32 × BitVec 32)), (z.map fun x => [r, x.1, x.2].length).sum = 3 * z.length := by
    intro z
    induction z with
    | nil => rfl
    | cons a z ih => rw [List.map_cons, List.sum_cons, ih, List.length_cons]; simp only [List.length_cons, List.length_nil]; omega
  rw [this]
  simp only [List.length_zip, List.length_tail]
  omega

/-- **C45** — the triangles and their attributes stay in step: three corners in both lists for each entry of the attributes. -/
theorem c45_in_step (m m' : Mesh) (leaf : List (BitVec 32)) (hs : leaf.Pairwise fun a b => a.toNat ≤ b.toNat)
    (hr : ∀ p ∈ chosen leaf m.geometry 0, p.indexOffset + p.indexCount ≤ m.vertexIndices.length ∧
      p.indexOffset + p.indexCount ≤ m.featureIndices.length) (h0 : m.polygons = {}) (h : m.triangulate leaf = .ok m') :
    m'.polygons.vertices.length = 3 * m'.polygons.materials.length ∧
    m'.polygons.features.length = 3 * m'.polygons.materials.length ∧
    m'.polygons.lightmaps.length = m'.polygons.materials.length ∧ m'.polygons.flags.length = m'.polygons.materials.length := by
  rw [c45_partial m leaf hs hr] at h
  cases h
  rw [h0]
  dsimp only
  generalize chosen leaf m.geometry 0 = ps at hr
  have hfan : ∀ (l : List (BitVec 32)), (fanOf l).length = 3 * (l.length - 2) := by
    intro l
    cases l with
    | nil => rfl
    | cons a t => rw [show fanOf (a :: t) = fanFrom a t from rfl, fanFrom_length]; simp
  induction ps with
  | nil => simp
  | cons p ps ih =>
    obtain ⟨hp, hps⟩ := List.forall_mem_cons.1 hr
    obtain ⟨i1, i2, i3, i4⟩ := ih hps
    simp only [List.nil_append] at i1 i2 i3 i4
    simp only [List.nil_append, List.flatMap_cons, List.length_append, List.length_replicate, hfan, slice_length p _ hp.1,
      slice_length p _ hp.2, i1, i2, i3, i4]
    refine ⟨?_, ?_, trivial, trivial⟩ <;> omega

/-- A polygon with corners `off … off + n - 1`. -/
def demoPoly (off n : Nat) (material : BitVec 32) (flags : PolyFlags := {}) : Poly :=
  ⟨material, 0xFFFFFFFF, flags, n, off, 1, ⟨0, 1, 0⟩⟩

def demoDate : Date := ⟨2002, 1, 2, 3, 4, 5⟩

/-- A mesh with a quad, a portal and a triangle. -/
def demoMesh : Mesh where
  date := demoDate
  name := b!"MESH"
  bbox := ⟨⟨0, 0, 0⟩, ⟨1, 1, 1⟩⟩
  obb := ⟨⟨0, 0, 0⟩, ⟨1, 0, 0⟩, ⟨0, 1, 0⟩, ⟨0, 0, 1⟩, ⟨1, 1, 1⟩, []⟩
  vertices := [⟨0, 0, 0⟩, ⟨1, 0, 0⟩, ⟨1, 1, 0⟩, ⟨0, 1, 0⟩]
  features := [⟨⟨0, 0⟩, 7, ⟨0, 0, 1⟩⟩]
  geometry := [demoPoly 0 4 1, demoPoly 4 3 2 { portal := 1 }, demoPoly 7 3 3 { sector := 1, sectorIndex := 9 }]
  vertexIndices := [0, 1, 2, 3, 0, 1, 2, 1, 2, 3]
  featureIndices := [0, 0, 0, 0, 0, 0, 0, 0, 0, 0]
  polygons := {}

example : [0, 1, 2].Pairwise (fun a b : BitVec 32 => a.toNat ≤ b.toNat) ∧
    chosen [0, 1, 2] demoMesh.geometry 0 = [demoPoly 0 4 1, demoPoly 7 3 3 { sector := 1, sectorIndex := 9 }] ∧
    (∀ p ∈ chosen [0, 1, 2] demoMesh.geometry 0, p.indexOffset + p.indexCount ≤ demoMesh.vertexIndices.length ∧
      p.indexOffset + p.indexCount ≤ demoMesh.featureIndices.length) ∧
    fanOf ((demoPoly 0 4 1).slice demoMesh.vertexIndices) = [0, 1, 2, 0, 2, 3] := by decide +kernel

/-- **C45** fails: with a list of leaf polygons out of order, polygons of leaves are left out. -/
theorem c45_violation : ∃ (m : Mesh) (leaf : List (BitVec 32)) (m' : Mesh), (∀ i < m.geometry.length, BitVec.ofNat 32 i ∈ leaf) ∧
    m.triangulate leaf = .ok m' ∧ m'.polygons.materials ≠ m.polygons.materials ++ (chosen leaf m.geometry 0).flatMap fun p =>
      List.replicate (p.indexCount - 2) p.material :=
  ⟨{ demoMesh with geometry := [demoPoly 0 3 1, demoPoly 3 3 2, demoPoly 6 3 3] }, [2, 1, 0], _, by decide, rfl, by decide +kernel⟩

/-- **C45** fails: a polygon with corners outside of the lists of indices is read out of bounds. -/
theorem c45_bounds_violation : ∃ m : Mesh, m.triangulate [0] = .error .ub :=
  ⟨{ demoMesh with geometry := [demoPoly 8 3 1] }, rfl⟩

/-! ## C46: flags -/

/-- **C46** — exactly what comes back of the flags of a polygon. Gothic 2 drops the level of detail and the normal axis; Gothic 1
drops `should_relight`, `is_dynamically_lit` and the upper bit of the normal axis. -/
theorem c46_kept (g2 : Bool) (f : PolyFlags) (w : Ws) (hw : w.pos ≤ w.data.length) (post : Bytes) :
    PolyFlags.load g2 ⟨(f.save g2 w).data ++ post, w.pos⟩ = .ok (f.kept g2, ⟨(f.save g2 w).data ++ post, (f.save g2 w).pos⟩) := by
  have := PolyFlags.emits g2 f w hw
  rw [this]
  exact Reads.of_write (PolyFlags.reads g2 f) w hw post

/-- **C46** — Gothic 2: flags of that version come back. -/
theorem c46_g2_partial (f : PolyFlags) (h1 : f.lod = 0) (h2 : f.normalAxis = 0) (w : Ws) (hw : w.pos ≤ w.data.length) (post : Bytes) :
    PolyFlags.load true ⟨(f.save true w).data ++ post, w.pos⟩ = .ok (f, ⟨(f.save true w).data ++ post, (f.save true w).pos⟩) := by
  have h := c46_kept true f w hw post
  have e : f.kept true = f := by
    obtain ⟨_, _, _, _, _, _, _, _, _, _⟩ := f
    dsimp only at h1 h2
    subst h1 h2
    rfl
  rw [e] at h
  exact h

/-- **C46** — Gothic 1: flags of that version come back if the normal axis is 0 or 1. -/
theorem c46_g1_partial (f : PolyFlags) (h1 : f.relight = 0) (h2 : f.dynLit = 0) (h3 : f.normalAxis.toNat < 2) (w : Ws)
    (hw : w.pos ≤ w.data.length) (post : Bytes) :
    PolyFlags.load false ⟨(f.save false w).data ++ post, w.pos⟩ = .ok (f, ⟨(f.save false w).data ++ post, (f.save false w).pos⟩) := by
  have h := c46_kept false f w hw post
  have e : f.kept false = f := by
    have ha : ∀ a : BitVec 2, a.toNat < 2 → a &&& 1 = a := by decide
    obtain ⟨_, _, _, _, _, _, _, _, _, a⟩ := f
    dsimp only at h1 h2 h3
    subst h1 h2
    simp only [PolyFlags.kept, ha a h3]
    rfl
  rw [e] at h
  exact h

example : ∃ f : PolyFlags, f.portal ≠ 0 ∧ f.relight ≠ 0 ∧ f.lod = 0 ∧ f.normalAxis = 0 := ⟨{ portal := 3, relight := 1 }, by decide⟩
example : ∃ f : PolyFlags, f.lod ≠ 0 ∧ f.normalAxis ≠ 0 ∧ f.relight = 0 ∧ f.dynLit = 0 ∧ f.normalAxis.toNat < 2 :=
  ⟨{ lod := 1, normalAxis := 1 }, by decide⟩

/-- **C46** fails: a Gothic 1 polygon whose normal axis is 2 comes back with 0, though that version stores the axis. -/
theorem c46_axis_violation : ∃ (f : PolyFlags) (r : PolyFlags) (s : Rs), f.relight = 0 ∧ f.dynLit = 0 ∧
    PolyFlags.load false ⟨(f.save false Ws.empty).data, 0⟩ = .ok (r, s) ∧ r.normalAxis ≠ f.normalAxis := by
  have h := c46_kept false { normalAxis := 2 } Ws.empty (by decide) []
  rw [List.append_nil] at h
  exact ⟨_, _, _, rfl, rfl, h, by decide⟩

/-! ## C73: geometry -/

/-- `m` fits into a file of the version; `vs` and `fs` are the lists `Mesh::save` takes the corners from. -/
structure MeshFits (g2 : Bool) (m : Mesh) (vs fs : List (BitVec 32)) : Prop where
  name : NoEol m.name
  obb : m.obb.Small
  lengths : vs.length = fs.length
  contiguous : Contiguous 0 m.geometry
  total : (m.geometry.map (·.indexCount)).sum = vs.length
  polys : ∀ p ∈ m.geometry, p.material.toNat < 2 ^ 16 ∧ (p.lightmap.setWidth 16).signExtend 32 = p.lightmap ∧ p.indexCount < 256
  vertexCount : m.vertices.length < 2 ^ 32
  featureCount : m.features.length < 2 ^ 32
  polygonCount : m.geometry.length < 2 ^ 32
  cornerCount : vs.length < 2 ^ 32
  /-- no chunk exceeds 4 GiB -/
  sizes : ∀ c ∈ m.chunks g2 (m.geometry.map fun p => (p.slice vs).zip (p.slice fs)), c.payload.length < 2 ^ 32

/-- The chunks of a saved mesh, each read into a mesh `x` by a file of the version `ver`. -/
theorem mesh_chunks (g2 : Bool) (m : Mesh) (vs fs : List (BitVec 32)) (h : MeshFits g2 m vs fs) (ver : BitVec 16) (hver : (ver == 265) = g2) :
    (∀ (x : Mesh) (v : BitVec 16), Reads (Mesh.onChunkV false x v 0xB000) (encW 2 ver ++ (m.date.enc ++ (m.name ++ [10])))
      (({ x with date := m.date, name := m.name }, ver), false)) ∧
    (∀ x : Mesh, Reads (Mesh.onChunkV false x ver 0xB010) (m.bbox.enc ++ m.obb.enc) (({ x with bbox := m.bbox, obb := m.obb }, ver), false)) ∧
    (∀ x : Mesh, Reads (Mesh.onChunkV false x ver 0xB030)
      (encW 4 (BitVec.ofNat 32 m.vertices.length) ++ (m.vertices.map Vec3.mem).flatten) (({ x with vertices := m.vertices }, ver), false)) ∧
    (∀ x : Mesh, Reads (Mesh.onChunkV false x ver 0xB040)
      (encW 4 (BitVec.ofNat 32 m.features.length) ++ (m.features.map Feature.enc).flatten) (({ x with features := m.features }, ver), false)) ∧
    (∀ x : Mesh, Reads (Mesh.onChunkV false x ver 0xB050)
      (encW 4 (BitVec.ofNat 32 m.geometry.length) ++ ((m.geometry.zip (m.geometry.map fun p =>
         (p.slice vs).zip (p.slice fs))).map fun p => p.1.enc g2 p.2).flatten)
      (({ x with geometry := m.geometry.map (Poly.kept g2), vertexIndices := x.vertexIndices ++ vs.map (keptIndex g2),
                 featureIndices := x.featureIndices ++ fs }, ver), false)) ∧
    (∀ x : Mesh, Reads (Mesh.onChunkV false x ver 0xB060) [] ((x, ver), true)) := by
  obtain ⟨hc1, hc2⟩ := contiguous_corners vs fs h.lengths m.geometry 0 h.contiguous (by rw [h.total]; omega)
  have nV : (BitVec.ofNat 32 m.vertices.length).toNat = m.vertices.length := by have := h.vertexCount; simp; omega
  have nF : (BitVec.ofNat 32 m.features.length).toNat = m.features.length := by have := h.featureCount; simp; omega
  have nG : (BitVec.ofNat 32 m.geometry.length).toNat = m.geometry.length := by have := h.polygonCount; simp; omega
  refine ⟨fun x v => ?_, fun x => ?_, fun x => ?_, fun x => ?_, fun x => ?_, fun x => ?_⟩
  · unfold Mesh.onChunkV
    rw [if_pos rfl]
    exact (Reads.u16 _).bind ((Reads.date _).bind (Reads.lineLf _ h.name).bind_pure)
  · unfold Mesh.onChunkV
    rw [if_neg (by decide), if_pos rfl]
    exact (Reads.aabb _).bind (obb_reads _ h.obb).bind_pure
  · unfold Mesh.onChunkV
    rw [if_neg (by decide), if_neg (by decide), if_pos rfl]
    refine (Reads.u32 _).bind ?_
    rw [nV]
    exact (Reads.times (p := Rd.vec3) (enc := Vec3.mem) m.vertices fun v _ => Reads.vec3 v).bind_pure
  · unfold Mesh.onChunkV
    rw [if_neg (by decide), if_neg (by decide), if_neg (by decide), if_pos rfl]
    refine (Reads.u32 _).bind ?_
    rw [nF]
    exact (Reads.times (p := Feature.load) (enc := Feature.enc) m.features fun v _ => feature_reads v).bind_pure
  · unfold Mesh.onChunkV
    rw [if_neg (by decide), if_neg (by decide), if_neg (by decide), if_neg (by decide), if_pos rfl]
    refine (Reads.u32 _).bind ?_
    rw [nG]
    rw [hver]
    have hz : ∀ (ps : List Poly) (F : Poly → List (BitVec 32 × BitVec 32)), ps.zip (ps.map F) = ps.map fun p => (p, F p) := by
      intro ps F
      induction ps with
      | nil => rfl
      | cons p ps ih => simp [ih]
    have hm := loadMany_reads g2 (m.geometry.map fun p => (p, (p.slice vs).zip (p.slice fs))) 0 ?_ ?_ ?_
    · rw [List.length_map] at hm
      rw [hz]
      refine hm.bind_pure.congr rfl ?_
      simp only [List.map_map, Function.comp_def]
      rw [hc2, List.drop_zero, List.drop_zero]
      have f1 : (vs.zip fs).map (fun x => keptIndex g2 x.1) = vs.map (keptIndex g2) := by
        rw [show (fun x : BitVec 32 × BitVec 32 => keptIndex g2 x.1) = keptIndex g2 ∘ Prod.fst from rfl, ← List.map_map,
          List.map_fst_zip (by rw [h.lengths]; exact Nat.le_refl _)]
      have f2 : (vs.zip fs).map (fun x => x.2) = fs := List.map_snd_zip (by rw [h.lengths]; exact Nat.le_refl _)
      rw [f1, f2]
    · intro q hq
      obtain ⟨p, hp, rfl⟩ := List.mem_map.1 hq
      obtain ⟨a, b, c⟩ := h.polys p hp
      refine ⟨a, b, c, ?_⟩
      rw [List.length_zip, slice_length p _ (hc1 p hp), slice_length p _ (by rw [← h.lengths]; exact hc1 p hp), Nat.min_self]
    · rw [List.map_map]
      have : m.geometry.map ((fun x : Poly × List (BitVec 32 × BitVec 32) => x.1) ∘ fun p => (p, (p.slice vs).zip (p.slice fs))) = m.geometry := by
        simp [Function.comp_def]
      rw [this]
      exact h.contiguous
    · rw [List.map_map]
      have := h.cornerCount
      have := h.total
      simp only [Function.comp_def]
      show 0 + (m.geometry.map (·.indexCount)).sum < 2 ^ 32
      omega
  · unfold Mesh.onChunkV
    rw [if_neg (by decide), if_neg (by decide), if_neg (by decide), if_neg (by decide), if_neg (by decide), if_pos rfl]
    exact Reads.pure _

theorem mesh_corners (g2 : Bool) (m : Mesh) (vs fs : List (BitVec 32))
    (hv : ∃ t, (if g2 then m.polygons.vertices else m.vertexIndices) = vs ++ t)
    (hf : ∃ t, (if g2 then m.polygons.features else m.featureIndices) = fs ++ t) (h : MeshFits g2 m vs fs) :
    m.geometry.mapM (m.corners g2) = .ok (m.geometry.map fun p => (p.slice vs).zip (p.slice fs)) := by
  obtain ⟨hc1, hc2⟩ := contiguous_corners vs fs h.lengths m.geometry 0 h.contiguous (by rw [h.total]; omega)
  exact mapM_map_ok _ _ _ fun p hp => corners_ok m g2 p vs fs hv hf (hc1 p hp) (by rw [← h.lengths]; exact hc1 p hp)

/-- A saved mesh is read with the corners from the lists that were written, after those that the object had before. -/
theorem mesh_round_trip (g2 : Bool) (m old : Mesh) (vs fs : List (BitVec 32))
    (hv : ∃ t, (if g2 then m.polygons.vertices else m.vertexIndices) = vs ++ t)
    (hf : ∃ t, (if g2 then m.polygons.features else m.featureIndices) = fs ++ t) (h : MeshFits g2 m vs fs) (w : Ws) (hw : w.pos ≤ w.data.length)
    (post : Bytes) :
    ∃ w', m.save g2 w = .ok w' ∧ Mesh.load false old ⟨w'.data ++ post, w.pos⟩ = .ok
      ({ m with geometry := m.geometry.map (Poly.kept g2), vertexIndices := old.vertexIndices ++ vs.map (keptIndex g2),
                featureIndices := old.featureIndices ++ fs, polygons := old.polygons },
       ⟨w'.data ++ post, w'.pos⟩) := by
  refine ⟨_, Mesh.save_emits m g2 _ (mesh_corners g2 m vs fs hv hf h) w hw, ?_⟩
  refine Reads.of_write ?_ w hw post
  have sz := h.sizes
  simp only [Mesh.chunks, List.mem_cons, List.not_mem_nil, or_false, forall_eq_or_imp, forall_eq] at sz
  obtain ⟨z1, z2, z3, z4, z5, z6⟩ := sz
  unfold Mesh.chunks
  have hver : ((if g2 then 265 else 9 : BitVec 16) == 265) = g2 := by cases g2 <;> rfl
  generalize (if g2 then 265 else 9 : BitVec 16) = ver at *
  obtain ⟨r1, r2, r3, r4, r5, r6⟩ := mesh_chunks g2 m vs fs h ver hver
  have run : ChunkRun (simpleCb (Mesh.onChunk false)) (old, 0) _ _ :=
    (.step (Handles.of_reads' (r1 old 0) z1) (.step (Handles.of_reads' (r2 _) z2) (.step (Handles.of_reads' (r3 _) z3)
      (.step (Handles.of_reads' (r4 _) z4) (.step (Handles.of_reads' (r5 _) z5) (.last (Handles.of_reads' (r6 _) z6)))))))
  exact (Reads.chunked run).bind_pure

/-- **C73**, Gothic 1 — a mesh whose polygons fit into a file and take their corners one after the other is loaded unchanged, except
for the flags that the version does not store (C46) and the triangles, which are not stored. -/
theorem c73_g1_partial (m old : Mesh) (h : MeshFits false m m.vertexIndices m.featureIndices)
    (hn : ∀ v ∈ m.vertexIndices, v.toNat < 2 ^ 16)
    (ho : old.vertexIndices = [] ∧ old.featureIndices = []) (w : Ws) (hw : w.pos ≤ w.data.length) (post : Bytes) :
    ∃ w', m.save false w = .ok w' ∧ Mesh.load false old ⟨w'.data ++ post, w.pos⟩ = .ok
      ({ m with geometry := m.geometry.map (Poly.kept false), polygons := old.polygons }, ⟨w'.data ++ post, w'.pos⟩) := by
  obtain ⟨w', h1, h2⟩ := mesh_round_trip false m old m.vertexIndices m.featureIndices ⟨[], (List.append_nil _).symm⟩
    ⟨[], (List.append_nil _).symm⟩ h w hw post
  refine ⟨w', h1, ?_⟩
  rw [h2, ho.1, ho.2]
  have : m.vertexIndices.map (keptIndex false) = m.vertexIndices := by
    rw [List.map_congr_left (g := id), List.map_id]
    intro v hv
    show (v.setWidth 16).setWidth 32 = v
    apply BitVec.eq_of_toNat_eq
    have := hn v hv
    simp only [BitVec.toNat_setWidth]
    omega
  rw [this]
  rfl

/-- **C73**, Gothic 2 — the same for meshes of triangles that all have been triangulated. -/
theorem c73_g2_partial (m old : Mesh) (h : MeshFits true m m.vertexIndices m.featureIndices) (hv : m.polygons.vertices = m.vertexIndices)
    (hf : m.polygons.features = m.featureIndices) (ho : old.vertexIndices = [] ∧ old.featureIndices = []) (w : Ws)
    (hw : w.pos ≤ w.data.length) (post : Bytes) :
    ∃ w', m.save true w = .ok w' ∧ Mesh.load false old ⟨w'.data ++ post, w.pos⟩ = .ok
      ({ m with geometry := m.geometry.map (Poly.kept true), polygons := old.polygons }, ⟨w'.data ++ post, w'.pos⟩) := by
  obtain ⟨w', h1, h2⟩ := mesh_round_trip true m old m.vertexIndices m.featureIndices ⟨[], by simp [hv]⟩ ⟨[], by simp [hf]⟩ h w hw post
  refine ⟨w', h1, ?_⟩
  rw [h2, ho.1, ho.2]
  have : m.vertexIndices.map (keptIndex true) = m.vertexIndices := List.map_id _
  rw [this]
  rfl

example : MeshFits false demoMesh demoMesh.vertexIndices demoMesh.featureIndices where
  name := by decide
  obb := by simp [demoMesh, Obb.Small, Obb.SmallMany]
  lengths := by decide
  contiguous := ⟨rfl, rfl, rfl, trivial⟩
  total := by decide
  polys := by decide
  vertexCount := by decide
  featureCount := by decide
  polygonCount := by decide
  cornerCount := by decide
  sizes := by decide +kernel

/-- The same mesh with triangles only, triangulated. -/
def demoTriangles : Mesh :=
  { demoMesh with geometry := [demoPoly 0 3 1, demoPoly 3 3 2], vertexIndices := [0, 1, 2, 1, 2, 3], featureIndices := [0, 0, 0, 0, 0, 0],
                  polygons := ⟨[1, 2], [0xFFFFFFFF, 0xFFFFFFFF], [0, 0, 0, 0, 0, 0], [0, 1, 2, 1, 2, 3], [{}, {}]⟩ }

example : MeshFits true demoTriangles demoTriangles.vertexIndices demoTriangles.featureIndices where
  name := by decide
  obb := by simp [demoTriangles, demoMesh, Obb.Small, Obb.SmallMany]
  lengths := by decide
  contiguous := ⟨rfl, rfl, trivial⟩
  total := by decide
  polys := by decide
  vertexCount := by decide
  featureCount := by decide
  polygonCount := by decide
  cornerCount := by decide
  sizes := by decide +kernel

/-- **C73** fails: saving a mesh that has not been triangulated for Gothic 2 reads out of bounds. -/
theorem c73_g2_bounds_violation : MeshFits true demoMesh demoMesh.vertexIndices demoMesh.featureIndices ∧
    demoMesh.save true Ws.empty = .error .ub := by
  refine ⟨⟨by decide, by simp [demoMesh, Obb.Small, Obb.SmallMany], by decide, ⟨rfl, rfl, rfl, trivial⟩, by decide, by decide,
    by decide, by decide, by decide, by decide, by decide +kernel⟩, ?_⟩
  unfold Mesh.save
  rw [show demoMesh.geometry.mapM (demoMesh.corners true) = .error .ub from rfl]
  rfl

/-- A mesh with a quad and a triangle, triangulated. -/
def demoQuad : Mesh :=
  { demoMesh with geometry := [demoPoly 0 4 1, demoPoly 4 3 2], vertexIndices := [0, 1, 2, 3, 1, 2, 3], featureIndices := [0, 0, 0, 0, 0, 0, 0],
                  polygons := ⟨[1, 1, 2], [0xFFFFFFFF, 0xFFFFFFFF, 0xFFFFFFFF], [0, 0, 0, 0, 0, 0, 0, 0, 0], [0, 1, 2, 0, 2, 3, 1, 2, 3], [{}, {}, {}]⟩ }

/-- An object without content. -/
def newMesh : Mesh := ⟨demoDate, [], ⟨⟨0, 0, 0⟩, ⟨0, 0, 0⟩⟩, ⟨⟨0, 0, 0⟩, ⟨0, 0, 0⟩, ⟨0, 0, 0⟩, ⟨0, 0, 0⟩, ⟨0, 0, 0⟩, []⟩, [], [], [], [], [], {}⟩

/-- **C73** fails for Gothic 2: the corners of the triangles are saved in place of those of the polygons. A quad with the corners
0, 1, 2, 3 comes back with the corners 0, 1, 2, 0. -/
theorem c73_g2_violation : ({ demoQuad with polygons := {} } : Mesh).triangulate [0, 1] = .ok demoQuad ∧
    ∃ w m' s, demoQuad.save true Ws.empty = .ok w ∧ Mesh.load false newMesh ⟨w.data, 0⟩ = .ok (m', s) ∧
      m'.vertexIndices.take 4 = [0, 1, 2, 0] ∧ demoQuad.vertexIndices.take 4 = [0, 1, 2, 3] := by
  refine ⟨rfl, ?_⟩
  obtain ⟨w', h1, h2⟩ := mesh_round_trip true demoQuad newMesh [0, 1, 2, 0, 2, 3, 1] [0, 0, 0, 0, 0, 0, 0] ⟨[2, 3], rfl⟩ ⟨[0, 0], rfl⟩
    ⟨by decide, by simp [demoQuad, demoMesh, Obb.Small, Obb.SmallMany], by decide, ⟨rfl, rfl, trivial⟩, by decide, by decide, by decide,
     by decide, by decide, by decide, by decide +kernel⟩ Ws.empty (by decide) []
  rw [List.append_nil] at h2
  exact ⟨w', _, _, h1, h2, rfl, rfl⟩

/-- **C73** fails for Gothic 1 meshes with more than 65536 vertices: indices are cut off. -/
theorem c73_g1_violation : ∃ m : Mesh, (∃ w m' s, m.save false Ws.empty = .ok w ∧ Mesh.load false newMesh ⟨w.data, 0⟩ = .ok (m', s) ∧
    m.vertexIndices = [65536, 1, 2] ∧ m'.vertexIndices = [0, 1, 2]) := by
  let m : Mesh := { demoMesh with geometry := [demoPoly 0 3 1], vertexIndices := [65536, 1, 2], featureIndices := [0, 0, 0] }
  obtain ⟨w', h1, h2⟩ := mesh_round_trip false m newMesh [65536, 1, 2] [0, 0, 0] ⟨[], rfl⟩ ⟨[], rfl⟩
    ⟨by decide, by simp [m, demoMesh, Obb.Small, Obb.SmallMany], by decide, ⟨rfl, trivial⟩, by decide, by decide, by decide,
     by decide, by decide, by decide, by decide +kernel⟩ Ws.empty (by decide) []
  rw [List.append_nil] at h2
  exact ⟨m, w', _, _, h1, h2, rfl, rfl⟩

/-- **C73** fails for objects that are loaded twice: the corners are added to the old ones, while the polygons refer to the first
ones. -/
theorem c73_reuse_violation (m old : Mesh) (h : MeshFits false m m.vertexIndices m.featureIndices)
    (w : Ws) (hw : w.pos ≤ w.data.length) :
    ∃ w' m' s, m.save false w = .ok w' ∧ Mesh.load false old ⟨w'.data, w.pos⟩ = .ok (m', s) ∧
      m'.vertexIndices.length = old.vertexIndices.length + m.vertexIndices.length ∧
      m'.vertexIndices.take old.vertexIndices.length = old.vertexIndices ∧
      m'.geometry.map (·.indexOffset) = m.geometry.map (·.indexOffset) := by
  obtain ⟨w', h1, h2⟩ := mesh_round_trip false m old m.vertexIndices m.featureIndices ⟨[], (List.append_nil _).symm⟩
    ⟨[], (List.append_nil _).symm⟩ h w hw []
  rw [List.append_nil] at h2
  refine ⟨w', _, _, h1, h2, ?_, ?_, ?_⟩
  · simp
  · simp
  · simp [Function.comp_def, Poly.kept]

end Verif.Props
