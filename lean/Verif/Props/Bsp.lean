import Verif.Lemmas.Bsp

/-! # Properties of BSP trees: C43, C44, C72 -/

namespace Verif.Props

open Spec (BTree)

/-- `b` holds the tree `t` in preorder, and its other members are consistent with it. -/
structure Holds (g1 : Bool) (b : Bsp) (t : BTree) : Prop where
  nodes : b.nodes = t.nodesAt 0 0xFFFFFFFF
  leaves : b.leafNodes = t.leavesAt 0
  notEmpty : t ≠ .none
  proper : t.Proper
  lod : t.Lod g1
  small : t.size < 2 ^ 31
  /-- the polygons of the leaves are slices of the list of polygons, and `leafPolygons` holds them in ascending order -/
  inRange : ∀ i ∈ b.leafNodes, ∃ n, b.nodes[i]? = some n ∧ n.polygonIndex.toNat + n.polygonCount.toNat ≤ b.polygonIndices.length
  sorted : b.leafPolygons.Pairwise fun x y => x.toNat ≤ y.toNat
  perm : b.leafPolygons.Perm (b.leafNodes.flatMap fun i =>
    (b.nodes[i]?.map fun n => (b.polygonIndices.drop n.polygonIndex.toNat).take n.polygonCount.toNat).getD [])
  lights : b.lightPoints.length = b.leafNodes.length
  names : ∀ s ∈ b.sectors, NoEol s.name ∧ s.nodeIndices.length < 2 ^ 32 ∧ s.portalIndices.length < 2 ^ 32
  polygonCount : b.polygonIndices.length < 2 ^ 32
  sectorCount : b.sectors.length < 2 ^ 32
  portalCount : b.portalIndices.length < 2 ^ 32
  /-- no chunk exceeds 4 GiB -/
  sizes : ∀ c ∈ Bsp.chunks g1 b t, c.payload.length < 2 ^ 32

/-- The chunks of a BSP tree are handled one by one. -/
theorem bsp_run (g1 : Bool) (b : Bsp) (t : BTree) (h : Holds g1 b t) (mode : BitVec 32) :
    ChunkRun (simpleCb (Bsp.onChunk g1)) { mode := mode } (Bsp.chunks g1 b t) b := by
  have sz := h.sizes
  simp only [Bsp.chunks, List.mem_cons, List.not_mem_nil, or_false, forall_eq_or_imp, forall_eq] at sz
  obtain ⟨z1, z2, z3, z4, z5, z6⟩ := sz
  have nP : (BitVec.ofNat 32 b.polygonIndices.length).toNat = b.polygonIndices.length := by have := h.polygonCount; simp; omega
  have nS : (BitVec.ofNat 32 b.sectors.length).toNat = b.sectors.length := by have := h.sectorCount; simp; omega
  have nQ : (BitVec.ofNat 32 b.portalIndices.length).toNat = b.portalIndices.length := by have := h.portalCount; simp; omega
  have hg := Bsp.gather_ok b.polygonIndices b.nodes b.leafNodes h.polygonCount h.inRange
  rw [h.nodes, h.leaves] at hg
  have hsort := Bsp.sortU32_eq _ _ h.sorted h.perm
  rw [h.nodes, h.leaves] at hsort
  refine (.step (s' := ⟨b.mode, [], [], [], [], [], [], []⟩) (Handles.of_reads' ?_ z1)
    (.step (s' := ⟨b.mode, b.polygonIndices, [], [], [], [], [], []⟩) (Handles.of_reads' ?_ z2)
    (.step (s' := ⟨b.mode, b.polygonIndices, b.leafPolygons, [], [], [], b.nodes, b.leafNodes⟩) (Handles.of_reads' ?_ z3)
    (.step (s' := ⟨b.mode, b.polygonIndices, b.leafPolygons, b.lightPoints, [], [], b.nodes, b.leafNodes⟩) (Handles.of_reads' ?_ z4)
    (.step (s' := b) (Handles.of_reads' ?_ z5) (.last (Handles.of_reads' ?_ z6)))))))
  · unfold Bsp.onChunk
    rw [if_pos rfl]
    exact (Reads.u16 _).bind (Reads.u32 _).bind_pure
  · unfold Bsp.onChunk
    rw [if_neg (by decide), if_pos rfl]
    refine (Reads.u32 _).bind ?_
    rw [nP]
    exact (Bsp.u32s_reads _).bind_pure
  · unfold Bsp.onChunk
    rw [if_neg (by decide), if_neg (by decide), if_pos rfl]
    have := Bsp.tree_reads g1 ⟨b.mode, b.polygonIndices, [], [], [], [], [], []⟩ t (BitVec.ofNat 32 b.leafNodes.length) h.notEmpty
      h.proper h.lod (by have := h.small; omega) rfl rfl _ hg
    rw [show t.size = b.nodes.length by rw [h.nodes, Bsp.nodesAt_length]] at this
    refine this.bind_pure.congr rfl ?_
    rw [h.nodes, h.leaves]
    show _ = ((⟨b.mode, b.polygonIndices, b.leafPolygons, [], [], [], _, _⟩ : Bsp), false)
    rw [← hsort]
    rfl
  · unfold Bsp.onChunk
    rw [if_neg (by decide), if_neg (by decide), if_neg (by decide), if_pos rfl]
    have := Reads.times (p := Rd.vec3) (enc := Vec3.mem) b.lightPoints (fun v _ => Reads.vec3 v)
    rw [h.lights] at this
    exact this.bind_pure
  · unfold Bsp.onChunk
    rw [if_neg (by decide), if_neg (by decide), if_neg (by decide), if_neg (by decide), if_pos rfl]
    refine (Reads.u32 _).bind ?_
    rw [nS]
    refine (Reads.times b.sectors fun s hs => Bsp.sector_reads s (h.names s hs).1 (h.names s hs).2.1 (h.names s hs).2.2).bind ?_
    refine (Reads.u32 _).bind ?_
    rw [nQ]
    exact (Bsp.u32s_reads _).bind_pure
  · unfold Bsp.onChunk
    rw [if_neg (by decide), if_neg (by decide), if_neg (by decide), if_neg (by decide), if_neg (by decide), if_pos rfl]
    exact (Reads.u8 _).bind_pure

/-- The chunks of a BSP tree are written and read back. -/
theorem bsp_reads (g1 : Bool) (b : Bsp) (t : BTree) (h : Holds g1 b t) (mode : BitVec 32) :
    Reads (Bsp.load g1 { mode := mode }) (chunksBytes (Bsp.chunks g1 b t)) b := Reads.chunked (bsp_run g1 b t h mode)

/-- **C43** — a BSP tree whose nodes are in preorder is loaded unchanged into a new object: nodes, links and everything else. -/
theorem c43_round_trip (g1 : Bool) (b : Bsp) (t : BTree) (h : Holds g1 b t) (mode : BitVec 32) (w : Ws)
    (hw : w.pos ≤ w.data.length) (post : Bytes) :
    ∃ w', b.save g1 w = .ok w' ∧ Bsp.load g1 { mode := mode } ⟨w'.data ++ post, w.pos⟩ = .ok (b, ⟨w'.data ++ post, w'.pos⟩) :=
  ⟨_, Bsp.save_emits g1 b t h.nodes h.proper (by have := h.small; omega) w hw, Reads.of_write (bsp_reads g1 b t h mode) w hw post⟩

/-- A leaf with one polygon. -/
def demoLeaf (k : BitVec 32) : BTree := .leaf ⟨⟨k, k, k⟩, ⟨k, k, k⟩⟩ k 1

/-- A tree with three leaves, two inner nodes (one without a back child) and level of detail flags. -/
def demoTree : BTree :=
  .inner ⟨⟨1, 1, 1⟩, ⟨2, 2, 2⟩⟩ 0 3 ⟨1, 2, 3, 4⟩ 1
    (.inner ⟨⟨1, 1, 1⟩, ⟨2, 2, 2⟩⟩ 0 2 ⟨1, 0, 0, 4⟩ 2 (demoLeaf 0) (demoLeaf 1))
    (.inner ⟨⟨1, 1, 1⟩, ⟨2, 2, 2⟩⟩ 0 2 ⟨1, 0, 0, 4⟩ 3 (demoLeaf 2) .none)

def demoBsp : Bsp where
  mode := 1
  polygonIndices := [7, 3, 5]
  leafPolygons := [3, 5, 7]
  lightPoints := [⟨1, 1, 1⟩, ⟨2, 2, 2⟩, ⟨3, 3, 3⟩]
  sectors := [⟨b!"WALD", [1, 2], [3]⟩]
  portalIndices := [9]
  nodes := demoTree.nodesAt 0 0xFFFFFFFF
  leafNodes := [2, 3, 5]

example : Holds true demoBsp demoTree where
  nodes := rfl
  leaves := by decide
  notEmpty := by decide
  proper := by simp [demoTree, demoLeaf, BTree.Proper]
  lod := by simp [demoTree, demoLeaf, BTree.Lod]
  small := by decide
  inRange := by
    intro i hi
    simp only [demoBsp, List.mem_cons, List.not_mem_nil, or_false] at hi
    rcases hi with rfl | rfl | rfl <;> exact ⟨_, rfl, by decide⟩
  sorted := by decide
  perm := by decide
  lights := by decide
  names := by decide
  polygonCount := by decide
  sectorCount := by decide
  portalCount := by decide
  sizes := by decide +kernel

/-- A check of the nodes after saving `b` and loading the result into `old`. -/
def loadedNodes (b old : Bsp) (P : List BspNode → Bool) : Bool :=
  match b.save true Ws.empty with
  | .ok w => match Bsp.load true old ⟨w.data, 0⟩ with
    | .ok (b', _) => P b'.nodes
    | .error _ => false
  | .error _ => false

theorem loadedNodes_spec {b old : Bsp} {P : List BspNode → Bool} (h : loadedNodes b old P = true) :
    ∃ w b' s, b.save true Ws.empty = .ok w ∧ Bsp.load true old ⟨w.data, 0⟩ = .ok (b', s) ∧ P b'.nodes = true := by
  unfold loadedNodes at h
  cases hw : b.save true Ws.empty with
  | error e => rw [hw] at h; cases h
  | ok w =>
    rw [hw] at h
    dsimp only at h
    cases hl : Bsp.load true old ⟨w.data, 0⟩ with
    | error e => rw [hl] at h; cases h
    | ok r => rw [hl] at h; exact ⟨w, r.1, r.2, rfl, hl, h⟩

/-- **C43** is false of the empty tree: the loader always reads a root, here from the chunks behind the tree. -/
theorem c43_empty_violation :
    ∃ w b' s, ({} : Bsp).save true Ws.empty = .ok w ∧ Bsp.load true {} ⟨w.data, 0⟩ = .ok (b', s) ∧
      ({} : Bsp).nodes = [] ∧ b'.nodes ≠ [] := by
  have : loadedNodes {} {} (fun l => decide (l ≠ [])) = true := by decide +kernel
  obtain ⟨w, b', s, h1, h2, h3⟩ := loadedNodes_spec this
  exact ⟨w, b', s, h1, h2, rfl, by simpa using h3⟩

/-- Loading appends to the nodes of an object that is used a second time. -/
theorem c43_reuse_violation :
    ∃ w b' s, demoBsp.save true Ws.empty = .ok w ∧ Bsp.load true demoBsp ⟨w.data, 0⟩ = .ok (b', s) ∧
      b'.nodes.length = 2 * demoBsp.nodes.length := by
  have : loadedNodes demoBsp demoBsp (fun l => decide (l.length = 2 * demoBsp.nodes.length)) = true := by decide +kernel
  obtain ⟨w, b', s, h1, h2, h3⟩ := loadedNodes_spec this
  exact ⟨w, b', s, h1, h2, by simpa using h3⟩

/-! ## C44 -/

/-- The loader of the TREE chunk behind the two counts, for a new object. -/
def loadNodes (g1 : Bool) (count : BitVec 32) : Rd BspParse := fun s =>
  Bsp.parse g1 (s.data.length - s.pos + 1) { nodes := [], leaves := [], cap := count.toNat, gen := 0 } 0xFFFFFFFF (count == 1) s

/-- Every file holds a tree. -/
theorem c44_tree (g1 : Bool) (count : BitVec 32) (data : Bytes) (pos : Nat) (hp : pos ≤ data.length) :
    ∃ t pos', Bsp.readTree g1 (data.length - pos + 1) (count == 1) ⟨data, pos⟩ = .ok (t, ⟨data, pos'⟩) ∧ pos ≤ pos' ∧ pos' ≤ data.length :=
  Bsp.readTree_ok g1 data _ _ pos hp (by omega)

/-- **C44**, if the header declares at least as many nodes as the file holds: whatever the file, the loader does not touch a dead
reference, and the result is the tree of the file. -/
theorem c44_partial (g1 : Bool) (count : BitVec 32) (s s' : Rs) (t : BTree)
    (h : Bsp.readTree g1 (s.data.length - s.pos + 1) (count == 1) s = .ok (t, s')) (hc : t.size ≤ count.toNat) :
    loadNodes g1 count s = .ok (⟨t.nodesAt 0 0xFFFFFFFF, t.leavesAt 0, count.toNat, 0⟩, s') := by
  have := Bsp.parse_eq g1 _ ⟨[], [], count.toNat, 0⟩ 0xFFFFFFFF _ _ _ _ h (by simpa using hc)
  simpa [loadNodes] using this

/-- **C44** is false: of every file whose root has two children and a front subtree that the declared count does not cover. -/
theorem c44_violation (g1 : Bool) (count : BitVec 32) (s s' : Rs) (bbox : Aabb) (i c : BitVec 32) (p : Vec4) (l : BitVec 8)
    (f b : BTree) (h : Bsp.readTree g1 (s.data.length - s.pos + 1) (count == 1) s = .ok (.inner bbox i c p l f b, s'))
    (hf : f ≠ .none) (hb : b ≠ .none) (hc : count.toNat < 1 + f.size) : loadNodes g1 count s = .error .ub := by
  have hpos : 0 < f.size := by cases f <;> simp_all [BTree.size]; omega
  refine Bsp.parse_moved g1 _ ⟨[], [], count.toNat, 0⟩ 0xFFFFFFFF _ _ _ _ _ _ _ _ _ _ h (Nat.zero_le _) hb ?_
  unfold BspParse.emplace
  split
  · simpa using hc
  · simp; omega

/-- A file with a root and two leaves. -/
def threeNodes : Bytes := Bsp.encTree true (.inner ⟨⟨1, 1, 1⟩, ⟨2, 2, 2⟩⟩ 0 3 ⟨1, 2, 3, 4⟩ 1 (demoLeaf 0) (demoLeaf 1))

example : ∃ s', Bsp.readTree true (threeNodes.length + 1) false ⟨threeNodes, 0⟩ =
    .ok (.inner ⟨⟨1, 1, 1⟩, ⟨2, 2, 2⟩⟩ 0 3 ⟨1, 2, 3, 4⟩ 1 (demoLeaf 0) (demoLeaf 1), s') := by
  have := Bsp.readTree_reads true (.inner ⟨⟨1, 1, 1⟩, ⟨2, 2, 2⟩⟩ 0 3 ⟨1, 2, 3, 4⟩ 1 (demoLeaf 0) (demoLeaf 1))
    (threeNodes.length + 1) (by simp) (by simp [BTree.Lod, demoLeaf]) (by decide) [] []
  exact ⟨_, by simpa [threeNodes, BTree.isLeaf] using this⟩

/-- Undefined behaviour? -/
def isUb {α} : Except Fail α → Bool
  | .error .ub => true
  | _ => false

theorem isUb_spec {α} {x : Except Fail α} (h : isUb x = true) : x = .error .ub := by
  cases x with
  | ok => cases h
  | error e => cases e <;> first | rfl | cases h

/-- The same through the public interface: a header that declares no nodes. -/
theorem c44_file_violation : ∃ data, Bsp.load true {} ⟨data, 0⟩ = .error .ub := by
  refine ⟨chunkBytes 0xC040 (encW 4 (0 : BitVec 32) ++ encW 4 (0 : BitVec 32) ++ threeNodes), ?_⟩
  exact isUb_spec (by decide +kernel)

/-! ## C72 -/

/-- **C72**, for leaves whose range lies inside the list of polygons. -/
theorem c72_partial (polygons : List (BitVec 32)) (nodes : List BspNode) (leaves : List Nat) (hp : polygons.length < 2 ^ 32)
    (h : ∀ i ∈ leaves, ∃ n, nodes[i]? = some n ∧ n.polygonIndex.toNat + n.polygonCount.toNat ≤ polygons.length) :
    ∃ ps, Bsp.gather polygons nodes leaves = .ok ps := ⟨_, Bsp.gather_ok polygons nodes leaves hp h⟩

/-- **C72** is false of every leaf with polygons whose range goes beyond the list. -/
theorem c72_violation (polygons : List (BitVec 32)) (n : BspNode) (hp : polygons.length < 2 ^ 32) (hn : n.polygonCount ≠ 0)
    (h : polygons.length < n.polygonIndex.toNat + n.polygonCount.toNat) : Bsp.leafGather polygons n = .error .ub :=
  Bsp.leafGather_ub polygons n hp (by unfold Bsp.InRange; omega) hn

/-- The same through the public interface: a single leaf with one polygon, and no polygons. -/
theorem c72_file_violation : ∃ data, Bsp.load true {} ⟨data, 0⟩ = .error .ub := by
  refine ⟨chunkBytes 0xC040 (encW 4 (1 : BitVec 32) ++ encW 4 (1 : BitVec 32) ++ Bsp.encTree true (demoLeaf 0)), ?_⟩
  exact isUb_spec (by decide +kernel)

end Verif.Props
