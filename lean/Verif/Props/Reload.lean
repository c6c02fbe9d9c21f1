import Verif.Lemmas.Reload
import Verif.Props.Font
import Verif.Props.Texture
import Verif.Props.Boxes
import Verif.Props.Materials
import Verif.Lemmas.ReloadMaterials
import Verif.Lemmas.ReloadBsp
import Verif.Lemmas.ReloadMesh
import Verif.Props.Bsp
import Verif.Props.Mesh

/-! # C104: what was loaded can be saved and loaded again -/

namespace Verif.Props

open Verif.Tex

/-- **C104**, textures: whatever the file was. -/
theorem c104_texture {s s' : Rs} {t : Texture} (h : Texture.load {} s = .ok (t, s')) (w : Ws) (hw : w.pos ≤ w.data.length) (post : Bytes) :
    Texture.load {} ⟨(t.save w).data ++ post, w.pos⟩ = .ok (t, ⟨(t.save w).data ++ post, (t.save w).pos⟩) := by
  obtain ⟨h1, h2, h3, h4, h5⟩ := Texture.load_sizes h
  exact c40_expected t h1 h2 h3 h4 h5 w hw post

/-- **C104**, bounding boxes: whatever the file was. -/
theorem c104_obb {s s' : Rs} {b : Obb} (h : Obb.load s = .ok (b, s')) (w : Ws) (hw : w.pos ≤ w.data.length) (post : Bytes) :
    Obb.load ⟨(b.save w).data ++ post, w.pos⟩ = .ok (b, ⟨(b.save w).data ++ post, (b.save w).pos⟩) :=
  c49_round_trip b ((Obb.small_of_load _).1 _ _ _ h) w hw post

/-- **C104**, hierarchies, from files of up to 2 GiB: whatever the file was, and whatever the object held into which it is loaded again. -/
theorem c104_hierarchy {data : Bytes} {pos : Nat} (hd : data.length < 2 ^ 31) (hp : pos ≤ data.length) {new h old : Hierarchy}
    (hn : new.nodes = [] ∧ new.sourcePath = []) {s : Rs} (e : new.load ⟨data, pos⟩ = .ok (h, s)) (w : Ws) (hw : w.pos ≤ w.data.length)
    (post : Bytes) :
    Hierarchy.load old ⟨(h.save w).data ++ post, w.pos⟩ = .ok (h, ⟨(h.save w).data ++ post, (h.save w).pos⟩) := by
  have hf : h.From data.length := Hierarchy.load_from (by omega) (h := new)
    ⟨(by rw [hn.1]; simp), (by rw [hn.2]; intro c hc; cases hc), by rw [hn.1]; decide, by rw [hn.1]; simp, by rw [hn.2]; simp⟩ hp e
  obtain ⟨h1, h2⟩ := hf.fits hd
  exact c50_hierarchy h old hf.names hf.path hf.count h1 h2 w hw post

/-- **C104**, fonts whose name is not empty and does not begin with whitespace. -/
theorem c104_font_partial {data : Bytes} {pos : Nat} (hd : data.length < 2 ^ 32) (hp : pos ≤ data.length) {f : Font} {s : Rs}
    (e : Font.load ⟨data, pos⟩ = .ok (f, s)) (hne : f.name ≠ []) (hh : ∀ c ∈ f.name.head?, c ∉ Rd.lineSpaces) (w : Ws)
    (hw : w.pos ≤ w.data.length) (post : Bytes) :
    Font.load ⟨(f.save w).data ++ post, w.pos⟩ = .ok (f, ⟨(f.save w).data ++ post, (f.save w).pos⟩) := by
  obtain ⟨h1, h2⟩ := Font.load_sizes hd hp e
  exact c50_font_partial f h1 hne hh h2 w hw post

/-- **C104** is false of fonts: one is loaded with a name that begins with a blank, which is gone after it was saved and loaded again. -/
theorem c104_font_violation : ∃ data f s g s', Font.load ⟨data, 0⟩ = .ok (f, s) ∧
    Font.load ⟨(f.save Ws.empty).data, 0⟩ = .ok (g, s') ∧ f.name = b!" A" ∧ g.name = b!"A" :=
  ⟨[49, 0] ++ b!" A\n" ++ encW 4 (9 : BitVec 32) ++ encW 4 (0 : BitVec 32), ⟨b!" A", 9, []⟩,
    ⟨[49, 0] ++ b!" A\n" ++ encW 4 (9 : BitVec 32) ++ encW 4 (0 : BitVec 32), 13⟩, ⟨b!"A", 9, []⟩,
    ⟨((Font.mk b!" A" 9 []).save Ws.empty).data, 13⟩, by decide +kernel, by decide +kernel, rfl, rfl⟩

/-- A damaged texture: it announces two levels of 2 times 1 pixels and ends within the first. -/
def cutTexture : Bytes := b!"ZTEX" ++ encW 4 (0 : BitVec 32) ++ encW 4 r8g8b8a8 ++ encW 4 (2 : BitVec 32) ++ encW 4 (1 : BitVec 32) ++
  encW 4 (2 : BitVec 32) ++ encW 4 (2 : BitVec 32) ++ encW 4 (1 : BitVec 32) ++ encW 4 (0 : BitVec 32) ++ [1, 2]

example : (Texture.load {} ⟨cutTexture, 0⟩).toOption.map (fun x => x.1.textures) = some [[1, 2, 0, 0], [0, 0, 0, 0, 0, 0, 0, 0]] := by
  decide +kernel

/-- A damaged hierarchy: it announces two nodes and ends within the first. -/
example : (Hierarchy.load ⟨[], ⟨⟨0, 0, 0⟩, ⟨0, 0, 0⟩⟩, ⟨⟨0, 0, 0⟩, ⟨0, 0, 0⟩⟩, ⟨0, 0, 0⟩, 0, ⟨0, 0, 0, 0, 0, 0⟩, []⟩
    ⟨encW 2 (0xD100 : BitVec 16) ++ encW 4 (9 : BitVec 32) ++ encW 4 (3 : BitVec 32) ++ encW 2 (2 : BitVec 16) ++ b!"BIP", 0⟩).toOption.map
      (fun x => x.1.nodes.map HNode.name) = some [b!"BIP", []] := by decide +kernel

/-! ## Materials -/

open Verif.Obj Verif.Ar

/-- The archive that begins at a position of a file is opened and is BINARY. -/
def BinaryAt (data : Bytes) (pos : Nat) : Prop := ∃ o s, openArchive ⟨data, pos⟩ = .ok (o, s) ∧ o.header.format = .binary

/-- Materials that were loaded can be kept by a file. -/
private theorem loaded_plain {data : Bytes} {pos n : Nat} (hb : BinaryAt data pos) {xs : List Material} {s : Rs}
    (h : Material.loadParts n ⟨data, pos⟩ = .ok (xs, s)) : xs.length = n ∧ ∀ x ∈ xs, x.Plain := by
  have hz : Finite 0 := by show FText.mag 0 < FText.infMag; decide
  obtain ⟨o, s0, ho, hf⟩ := hb
  unfold Material.loadParts at h
  rw [Rd.bind_ok ho, hf] at h
  unfold Material.loadIn Material.resize at h
  simp only [List.take_nil, List.nil_append, List.length_nil, Nat.sub_zero] at h
  cases hm : Material.loadMany Bin.reader (List.replicate n ({} : Material)) ⟨s0, []⟩ with
  | error x => rw [hm] at h; cases h
  | ok y =>
    rw [hm] at h
    cases h
    obtain ⟨h1, h2⟩ := Material.loadMany_plain _ (fun o ho => by
      rw [List.eq_of_mem_replicate ho]
      exact ⟨hz, hz, hz, hz⟩) _ _ _ hm
    exact ⟨by rw [h1, List.length_replicate], h2⟩

private theorem saved_again (g : Game) (e e' : Ar.Env) (he : ClockOk e e') (xs : List Material) (hx : ∀ x ∈ xs, x.Plain)
    (h0 : xs ≠ []) (hn : xs.length < 10 ^ 9) (w : Ws) (hw : w.pos ≤ w.data.length) :
    ∃ w', Material.saveParts g e e' xs w = .ok w' ∧ (w'.pos - w.pos < 2 ^ 32 → ∀ post,
      Material.loadParts xs.length ⟨w'.data ++ post, w.pos⟩ = .ok (xs.map (Material.kept g), ⟨w'.data ++ post, w'.pos⟩)) := by
  obtain ⟨bs, h1, h2⟩ := c87_parts_partial g e e' he xs hx hn
  refine ⟨_, h1 w hw, fun hl post => ?_⟩
  have hr := h2 (by simpa [Ws.write] using hl)
  exact Reads.of_write (fun pre post => hr pre post fun h => absurd h h0) w hw post

/-- **C104**, materials of multi resolution meshes in BINARY archives, part: whatever the archive was, the materials that were loaded from
it can be saved for a game, and what is loaded then are the same materials up to what the game does not store of any material (C87).
Missing: of the mode of transparency only remains whether there is one (`c104_materials_violation`), and texts of archives of the other
formats can have line breaks. -/
theorem c104_materials_partial {data : Bytes} {pos n : Nat} (hb : BinaryAt data pos) (h0 : n ≠ 0) (hn : n < 10 ^ 9) {xs : List Material} {s : Rs}
    (h : Material.loadParts n ⟨data, pos⟩ = .ok (xs, s)) (g : Game) (e e' : Ar.Env) (he : ClockOk e e') (w : Ws) (hw : w.pos ≤ w.data.length) :
    ∃ w', Material.saveParts g e e' xs w = .ok w' ∧ (w'.pos - w.pos < 2 ^ 32 → ∀ post,
      Material.loadParts n ⟨w'.data ++ post, w.pos⟩ = .ok (xs.map (Material.kept g), ⟨w'.data ++ post, w'.pos⟩)) := by
  obtain ⟨rfl, h2⟩ := loaded_plain hb h
  exact saved_again g e e' he xs h2 (fun h => h0 (by rw [h]; rfl)) hn w hw

/-- **C104**, materials: from then on nothing changes any more, however often they are saved and loaded. -/
theorem c104_materials_settle {data : Bytes} {pos n : Nat} (hb : BinaryAt data pos) (h0 : n ≠ 0) (hn : n < 10 ^ 9) {xs : List Material} {s : Rs}
    (h : Material.loadParts n ⟨data, pos⟩ = .ok (xs, s)) (g : Game) (e e' : Ar.Env) (he : ClockOk e e') (w : Ws) (hw : w.pos ≤ w.data.length) :
    ∃ w', Material.saveParts g e e' (xs.map (Material.kept g)) w = .ok w' ∧ (w'.pos - w.pos < 2 ^ 32 → ∀ post,
      Material.loadParts n ⟨w'.data ++ post, w.pos⟩ = .ok (xs.map (Material.kept g), ⟨w'.data ++ post, w'.pos⟩)) := by
  obtain ⟨rfl, h2⟩ := loaded_plain hb h
  have hk : ∀ x : Material, (x.kept g).kept g = x.kept g := by
    intro x
    cases g with
    | g1 => rfl
    | g2 =>
      simp only [Material.kept]
      by_cases ha : x.alphaFunc = 0 <;> simp [ha]
  have := saved_again g e e' he (xs.map (Material.kept g)) (by
    intro x hx
    obtain ⟨y, hy, rfl⟩ := List.mem_map.mp hx
    obtain ⟨p1, p2, p3, p4, p5⟩ := h2 y hy
    cases g <;> exact ⟨p1, p2, p3, p4, p5⟩) (fun h => h0 (by rw [List.map_eq_nil_iff] at h; rw [h]; rfl)) (by simpa using hn) w hw
  simpa [hk, Function.comp_def] using this

/-- An archive with one material of Gothic 2 without name and texture, with a mode of transparency. -/
def alphaFile (mode : Byte) : Bytes :=
  b!"ZenGin Archive\nver 1\nzCArchiverGeneric\nBINARY\nsaveGame 0\nEND\nobjects 1\nEND\n" ++ [0] ++ encW 4 (75 : BitVec 32) ++ encW 2 (0x9c03 : BitVec 16) ++ encW 4 (0 : BitVec 32) ++
    b!"%" ++ [0] ++ b!"zCMaterial" ++ [0] ++ List.replicate 43 0 ++ [mode] ++ List.replicate 8 0

/-- The modes of transparency of the materials that are loaded. -/
def alphaModes (bs : Bytes) : Option (List (BitVec 32)) := (Material.loadParts 1 ⟨bs, 0⟩).toOption.map fun x => x.1.map Material.alphaFunc

/-- The same after they were saved and loaded again. -/
def alphaModesAgain (bs : Bytes) : Option (List (BitVec 32)) :=
  (Material.loadParts 1 ⟨bs, 0⟩).toOption.bind fun x => (Material.saveParts .g2 clock clock x.1 Ws.empty).toOption.bind fun w => alphaModes w.data

/-- **C104** is false of materials: the mode of transparency 3 is loaded and is 1 after it was saved and loaded again. -/
theorem c104_materials_violation : alphaModes (alphaFile 3) = some [3] ∧ alphaModesAgain (alphaFile 3) = some [1] := by decide +kernel

example : BinaryAt (alphaFile 3) 0 := by
  have h : (openArchive ⟨alphaFile 3, 0⟩).toOption.map (fun x => x.1.header.format) = some .binary := by decide +kernel
  cases ho : openArchive ⟨alphaFile 3, 0⟩ with
  | error x => rw [ho] at h; cases h
  | ok y =>
    rw [ho] at h
    exact ⟨y.1, y.2, ho, Option.some.inj h⟩

-- A file that ends in the middle of the material: the rest is taken for zeros.
example : alphaModes ((alphaFile 3).take 110) = some [0] := by decide +kernel

/-! ## BSP trees -/

/-- The members of a tree that was loaded fit together. Nothing is asked of the links between the nodes but that there is one root. -/
structure FitsTogether (b : Bsp) : Prop where
  /-- there is a tree, and only its first node has no parent -/
  present : b.nodes ≠ []
  root : ∀ (i : Nat) (n : BspNode), b.nodes[i]? = some n → n.parentIndex = 0xFFFFFFFF → i = 0
  /-- nodes without children are leaves -/
  leaves : ∀ (i : Nat) (n : BspNode), b.nodes[i]? = some n → n.isLeaf = true → i ∈ b.leafNodes
  lights : b.lightPoints.length = b.leafNodes.length
  /-- the polygons of the leaves are slices of the list of polygons -/
  inRange : ∀ i ∈ b.leafNodes, ∃ n, b.nodes[i]? = some n ∧ n.polygonIndex.toNat + n.polygonCount.toNat ≤ b.polygonIndices.length
  perm : b.leafPolygons.Perm (b.leafNodes.flatMap fun i =>
    (b.nodes[i]?.map fun n => (b.polygonIndices.drop n.polygonIndex.toNat).take n.polygonCount.toNat).getD [])

/-- **C104**, BSP trees, part: whatever the file of up to 1 GiB was, if the members of what was loaded fit together, it can be saved, and
loaded again it is the same. Missing: files without a tree (`c104_bsp_empty_violation`), with inner nodes without children
(`c104_bsp_violation`), and files from which several trees or other numbers of light points are loaded. -/
theorem c104_bsp_partial {g1 : Bool} {data : Bytes} {pos : Nat} (hd : data.length < 2 ^ 30) (hp : pos ≤ data.length) {mode : BitVec 32} {b : Bsp} {s : Rs}
    (e : Bsp.load g1 { mode := mode } ⟨data, pos⟩ = .ok (b, s)) (h : FitsTogether b) (w : Ws) (hw : w.pos ≤ w.data.length) :
    ∃ w', b.save g1 w = .ok w' ∧ (w'.pos - w.pos < 2 ^ 32 → ∀ mode' post,
      Bsp.load g1 { mode := mode' } ⟨w'.data ++ post, w.pos⟩ = .ok (b, ⟨w'.data ++ post, w'.pos⟩)) := by
  have hf : b.From g1 data.length := Bsp.load_from (by omega) (b := { mode := mode })
    ⟨fun _ h => (by cases h), .nil, .inl ⟨rfl, rfl⟩⟩ hp e
  rcases hf.tree with ⟨hn, _⟩ | ⟨t, h1, h2, h3, h4, h5⟩ | ⟨i, x, hi, hx, hxp⟩
  · exact absurd hn h.present
  · have hpr : t.Proper := Bsp.proper_of t 0 0xFFFFFFFF fun i n hn hl => by
      rw [← h1] at hn
      rw [← h2, Nat.zero_add]
      exact h.leaves i n hn hl
    refine ⟨_, Bsp.save_emits g1 b t h1 hpr (by omega) w hw, fun hl mode' post => ?_⟩
    have hl : (chunksBytes (Bsp.chunks g1 b t)).length < 2 ^ 32 := by simpa [Ws.write] using hl
    have sz : ∀ c ∈ Bsp.chunks g1 b t, c.payload.length < 2 ^ 32 := by
      simp only [Bsp.chunks, chunksBytes, List.map_cons, List.map_nil, List.flatten_cons, List.flatten_nil, List.length_append, chunkBytes_length,
        List.length_nil, List.mem_cons, List.not_mem_nil, or_false, forall_eq_or_imp, forall_eq] at hl ⊢
      omega
    have len : ∀ (l : List (BitVec 32)), ((l.map (encW 4)).flatten).length = 4 * l.length := by
      intro l
      induction l with
      | nil => rfl
      | cons x l ih => simp only [List.map_cons, List.flatten_cons, List.length_append, encW_length, List.length_cons, ih]; omega
    have secs : ∀ (l : List BspSector), l.length ≤ ((l.map Bsp.encSector).flatten).length := by
      intro l
      induction l with
      | nil => exact Nat.le_refl _
      | cons x l ih =>
        simp only [List.map_cons, List.flatten_cons, List.length_append, List.length_cons, Bsp.encSector, encW_length] at ih ⊢
        omega
    have sz' := sz
    simp only [Bsp.chunks, List.mem_cons, List.not_mem_nil, or_false, forall_eq_or_imp, forall_eq, List.length_append, encW_length, len] at sz'
    obtain ⟨_, z2, _, _, z5, _⟩ := sz'
    have z5' := secs b.sectors
    exact Reads.of_write (bsp_reads g1 b t ⟨h1, h2, h3, hpr, h4, by omega, h.inRange, hf.sorted, h.perm, h.lights, hf.names, by omega, by omega,
      by omega, sz⟩ mode') w hw post
  · exact absurd (h.root i x hx hxp) (by omega)

example : FitsTogether demoBsp where
  present := by decide
  root := by
    intro i n hn hp
    rcases i with _ | _ | _ | _ | _ | _ | i
    · rfl
    all_goals (cases hn; try exact absurd hp (by decide))
  leaves := by
    intro i n hn hl
    rcases i with _ | _ | _ | _ | _ | _ | i
    all_goals first | (revert hl; cases hn; decide) | cases hn
  lights := by decide
  inRange := by
    intro i hi
    simp only [demoBsp, List.mem_cons, List.not_mem_nil, or_false] at hi
    rcases hi with rfl | rfl | rfl <;> exact ⟨_, rfl, by decide⟩
  perm := by decide

/-- It is loaded from a file. -/
example : ((demoBsp.save true Ws.empty).toOption.bind fun w => (Bsp.load true {} ⟨w.data, 0⟩).toOption.map fun x => { x.1 with leafPolygons := [3, 5, 7] }) =
    some demoBsp := by
  decide +kernel

/-- The tree that is loaded from a file, and the one that is loaded after it was saved. -/
def bspAgain (bs : Bytes) : Option (Bsp × Bsp) :=
  (Bsp.load false {} ⟨bs, 0⟩).toOption.bind fun x => (x.1.save false Ws.empty).toOption.bind fun w =>
    (Bsp.load false {} ⟨w.data, 0⟩).toOption.map fun y => (x.1, y.1)

/-- A tree that is one inner node without children. -/
def childlessFile : Bytes :=
  chunkBytes 0xC040 (encW 4 (2 : BitVec 32) ++ encW 4 (0 : BitVec 32) ++ List.replicate 33 0 ++ encW 4 (0x3f800000 : BitVec 32) ++ List.replicate 12 0) ++
    chunkBytes 0xC0FF [0]

/-- **C104** is false of BSP trees: an inner node without children is saved as a leaf and loses its plane. -/
theorem c104_bsp_violation : (bspAgain childlessFile).map (fun p => (p.1.nodes.map fun n => n.plane.w, p.1.leafNodes)) = some ([0x3f800000], []) ∧
    (bspAgain childlessFile).map (fun p => (p.2.nodes.map fun n => n.plane.w, p.2.leafNodes)) = some ([0], [0]) := by decide +kernel

/-- **C104** is false of files without a BSP tree: after saving and loading there is a node that was in no file. -/
theorem c104_bsp_empty_violation : (bspAgain (chunkBytes 0xC0FF [0])).map (fun p => (p.1.nodes.length, p.2.nodes.length)) = some (0, 1) := by
  decide +kernel

/-! ## Meshes -/

/-- An object into which no mesh has been loaded. -/
structure BlankMesh (m : Mesh) : Prop where
  name : m.name = []
  obb : m.obb.Small
  vertices : m.vertices = []
  features : m.features = []
  geometry : m.geometry = []
  indices : m.vertexIndices = [] ∧ m.featureIndices = []
  triangles : m.polygons = {}

/-- The number of corners of all polygons. -/
def cornerCount (m : Mesh) : Nat := (m.geometry.map (·.indexCount)).sum

theorem loaded_mesh {data : Bytes} {pos : Nat} (hd : data.length < 2 ^ 32) (hp : pos ≤ data.length) {wide : Bool} {new m : Mesh} (hn : BlankMesh new)
    {s : Rs} (e : Mesh.load wide new ⟨data, pos⟩ = .ok (m, s)) : m.From :=
  Mesh.load_from hd (m := new) ⟨(by rw [hn.name]; intro c hc; cases hc), hn.obb, (by rw [hn.indices.1, hn.indices.2]),
    (by rw [hn.geometry]; exact fun _ => trivial), (by rw [hn.geometry]; exact Nat.zero_le _), (by rw [hn.geometry]; intro p h; cases h),
    (by rw [hn.vertices]; decide), (by rw [hn.features]; decide), (by rw [hn.geometry]; decide), hn.triangles⟩ hp e

/-- **C104**, the geometry of meshes that are saved for Gothic 1, part: whatever the file was, what was loaded can be saved, and loaded again it
is the same up to what the game does not store of any mesh: flags of polygons, indices above 65535 and indices that belong to no polygon.
Missing: Gothic 2 (`c104_mesh_violation`). -/
theorem c104_mesh_partial {data : Bytes} {pos : Nat} (hd : data.length < 2 ^ 32) (hp : pos ≤ data.length) {wide : Bool} {new m : Mesh} (hn : BlankMesh new)
    {s : Rs} (e : Mesh.load wide new ⟨data, pos⟩ = .ok (m, s)) (hc : m.vertexIndices.length < 2 ^ 32) (w : Ws) (hw : w.pos ≤ w.data.length) :
    ∃ w', m.save false w = .ok w' ∧ (w'.pos - w.pos < 2 ^ 32 → ∀ (old : Mesh) (post : Bytes), old.vertexIndices = [] → old.featureIndices = [] →
      Mesh.load false old ⟨w'.data ++ post, w.pos⟩ = .ok
        ({ m with geometry := m.geometry.map (Poly.kept false),
                  vertexIndices := (m.vertexIndices.take (cornerCount m)).map (keptIndex false),
                  featureIndices := m.featureIndices.take (cornerCount m), polygons := old.polygons }, ⟨w'.data ++ post, w'.pos⟩)) := by
  have hf := loaded_mesh hd hp hn e
  have hl := hf.lengths
  have ht : cornerCount m ≤ m.vertexIndices.length := hf.total
  generalize hvs : m.vertexIndices.take (cornerCount m) = vs
  generalize hfs : m.featureIndices.take (cornerCount m) = fs
  have l1 : vs.length = cornerCount m := by rw [← hvs, List.length_take]; omega
  have l2 : fs.length = cornerCount m := by rw [← hfs, List.length_take]; omega
  have hv : ∃ t, (if false = true then m.polygons.vertices else m.vertexIndices) = vs ++ t :=
    ⟨m.vertexIndices.drop (cornerCount m), by rw [← hvs, List.take_append_drop]; rfl⟩
  have hfe : ∃ t, (if false = true then m.polygons.features else m.featureIndices) = fs ++ t :=
    ⟨m.featureIndices.drop (cornerCount m), by rw [← hfs, List.take_append_drop]; rfl⟩
  have hcont := hf.contiguous hc
  have hcor : m.geometry.mapM (m.corners false) = .ok (m.geometry.map fun p => (p.slice vs).zip (p.slice fs)) := by
    obtain ⟨hc1, _⟩ := contiguous_corners vs fs (by omega) m.geometry 0 hcont (by rw [l1, Nat.zero_add]; rfl)
    exact mapM_map_ok _ _ _ fun p hp => corners_ok m false p vs fs hv hfe (hc1 p hp) (by rw [l2, ← l1]; exact hc1 p hp)
  have hsave := Mesh.save_emits m false _ hcor w hw
  refine ⟨_, hsave, fun hs old post h1 h2 => ?_⟩
  have hs : (chunksBytes (m.chunks false (m.geometry.map fun p => (p.slice vs).zip (p.slice fs)))).length < 2 ^ 32 := by simpa [Ws.write] using hs
  have sz : ∀ c ∈ m.chunks false (m.geometry.map fun p => (p.slice vs).zip (p.slice fs)), c.payload.length < 2 ^ 32 := by
    simp only [Mesh.chunks, chunksBytes, List.map_cons, List.map_nil, List.flatten_cons, List.flatten_nil, List.length_append, chunkBytes_length,
      List.length_nil, List.mem_cons, List.not_mem_nil, or_false, forall_eq_or_imp, forall_eq] at hs ⊢
    omega
  obtain ⟨w'', e1, e2⟩ := mesh_round_trip false m old vs fs hv hfe ⟨hf.name, hf.obb, by omega, hcont, l1.symm, fun p hp => (hf.polys p hp).1,
    hf.vertexCount, hf.featureCount, hf.polygonCount, by omega, sz⟩ w hw post
  cases e1.symm.trans hsave
  rw [e2, h1, h2]
  rfl

/-- **C104**, meshes: when the file says nothing that Gothic 1 does not store and has its polygons once, the mesh is the very same. -/
theorem c104_mesh_g1_partial {data : Bytes} {pos : Nat} (hd : data.length < 2 ^ 32) (hp : pos ≤ data.length) {wide : Bool} {new m : Mesh} (hn : BlankMesh new)
    {s : Rs} (e : Mesh.load wide new ⟨data, pos⟩ = .ok (m, s)) (hc : m.vertexIndices.length < 2 ^ 32) (ht : m.vertexIndices.length = cornerCount m)
    (hv : ∀ v ∈ m.vertexIndices, v.toNat < 2 ^ 16) (hg : ∀ p ∈ m.geometry, p.flags.relight = 0 ∧ p.flags.dynLit = 0)
    (w : Ws) (hw : w.pos ≤ w.data.length) :
    ∃ w', m.save false w = .ok w' ∧ (w'.pos - w.pos < 2 ^ 32 → ∀ (old : Mesh) (post : Bytes), BlankMesh old →
      Mesh.load false old ⟨w'.data ++ post, w.pos⟩ = .ok (m, ⟨w'.data ++ post, w'.pos⟩)) := by
  have hf := loaded_mesh hd hp hn e
  obtain ⟨w', h1, h2⟩ := c104_mesh_partial hd hp hn e hc w hw
  refine ⟨w', h1, fun hs old post ho => ?_⟩
  have i1 : (m.vertexIndices.take (cornerCount m)).map (keptIndex false) = m.vertexIndices := by
    rw [← ht, List.take_length]
    conv_rhs => rw [← List.map_id m.vertexIndices]
    refine List.map_congr_left fun v hv' => ?_
    show (v.setWidth 16).setWidth 32 = v
    apply BitVec.eq_of_toNat_eq
    have := hv v hv'
    simp only [BitVec.toNat_setWidth]
    omega
  have i2 : m.featureIndices.take (cornerCount m) = m.featureIndices := by rw [← ht, hf.lengths, List.take_length]
  have i3 : m.geometry.map (Poly.kept false) = m.geometry := by
    conv_rhs => rw [← List.map_id m.geometry]
    refine List.map_congr_left fun p hp' => ?_
    obtain ⟨a, b⟩ := hg p hp'
    have c := (hf.polys p hp').2
    obtain ⟨_, _, ⟨_, _, _, _, _, _, _, _, _⟩, _, _, _, _⟩ := p
    simp only [Poly.kept, PolyFlags.kept, id_eq, Bool.false_eq_true, if_false] at *
    simp_all
  rw [h2 hs old post ho.indices.1 ho.indices.2, i1, i2, i3, ho.triangles, ← hf.triangles]

/-- **C104** is false of meshes that are saved for Gothic 2, each of them that has a polygon with a corner: saving reads out of bounds. -/
theorem c104_mesh_violation {data : Bytes} {pos : Nat} (hd : data.length < 2 ^ 32) (hp : pos ≤ data.length) {wide : Bool} {new m : Mesh} (hn : BlankMesh new)
    {s : Rs} (e : Mesh.load wide new ⟨data, pos⟩ = .ok (m, s)) (hg : ∃ p ∈ m.geometry, p.indexCount ≠ 0) (w : Ws) :
    m.save true w = .error .ub := by
  have hf := loaded_mesh hd hp hn e
  obtain ⟨p, hpm, hpc⟩ := hg
  have fails : ∀ q : Poly, q.indexCount ≠ 0 → m.corners true q = .error .ub := by
    intro q hq
    obtain ⟨k, hk⟩ := Nat.exists_eq_succ_of_ne_zero hq
    unfold Mesh.corners
    rw [hk, List.range_succ_eq_map, hf.triangles]
    rfl
  have none : ∀ q : Poly, q.indexCount = 0 → m.corners true q = .ok [] := by
    intro q hq
    unfold Mesh.corners
    rw [hq]
    rfl
  have all : m.geometry.mapM (m.corners true) = .error .ub := by
    refine Bsp.mapM_ub _ _ p hpm (fails p hpc) fun q x hx => ?_
    by_cases hq : q.indexCount = 0
    · rw [none q hq] at hx; cases hx
    · rw [fails q hq] at hx; cases hx; rfl
  unfold Mesh.save
  rw [all]
  rfl

example : BlankMesh newMesh := ⟨rfl, by simp [newMesh, Obb.Small, Obb.SmallMany], rfl, rfl, rfl, ⟨rfl, rfl⟩, rfl⟩

/-- A file with three polygons, without boxes. -/
def boxlessMesh : Bytes := chunksBytes ((demoMesh.chunks false (demoMesh.geometry.map fun p =>
  (p.slice demoMesh.vertexIndices).zip (p.slice demoMesh.featureIndices))).filter fun c => c.type ≠ 0xB010)

example : (Mesh.load false newMesh ⟨boxlessMesh, 0⟩).toOption.map (fun x => (x.1.geometry.length, x.1.vertexIndices.length, cornerCount x.1)) =
    some (3, 10, 10) ∧
    (Mesh.load false newMesh ⟨boxlessMesh, 0⟩).toOption.map (fun x => (x.1.vertexIndices.all fun v => v.toNat < 2 ^ 16,
      x.1.geometry.all fun p => p.flags.relight = 0 ∧ p.flags.dynLit = 0, x.1.geometry.any fun p => p.indexCount ≠ 0)) = some (true, true, true) := by
  decide +kernel

end Verif.Props
