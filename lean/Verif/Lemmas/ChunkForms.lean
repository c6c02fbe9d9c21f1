import Verif.Lemmas.ChunkOrder

/-! # What the loaders do with each of their chunks -/

namespace Verif

open Spec

/-! ## Hierarchies -/

def Hierarchy.form0 : Form Hierarchy.onChunk 0xD100 where
  key := fun _ => ()
  parse := fun _ => do
    let _version ← Rd.u32
    let n ← Rd.u16
    let nodes ← Rd.times HNode.load n.toNat
    let bbox ← Aabb.load
    let collisionBbox ← Aabb.load
    let rootTranslation ← Rd.vec3
    let checksum ← Rd.u32
    return (nodes, bbox, collisionBbox, rootTranslation, checksum)
  upd := fun v s => { s with nodes := v.1, bbox := v.2.1, collisionBbox := v.2.2.1, rootTranslation := v.2.2.2.1, checksum := v.2.2.2.2 }
  eq := fun s => by simp (decide := true) only [Hierarchy.onChunk, if_true, Rd.assoc]; rfl
  inj := fun v v' s s' h => by simp only [Hierarchy.mk.injEq] at h ⊢; simp [h]

def Hierarchy.form1 : Form Hierarchy.onChunk 0xD110 where
  key := fun _ => ()
  parse := fun _ => do
    let sourceDate ← Date.load
    let sourcePath ← Rd.line false
    return (sourceDate, sourcePath)
  upd := fun v s => { s with sourceDate := v.1, sourcePath := v.2 }
  eq := fun s => by simp (decide := true) only [Hierarchy.onChunk, if_false, if_true, Rd.assoc]; rfl
  inj := fun v v' s s' h => by simp only [Hierarchy.mk.injEq] at h ⊢; simp [h]

theorem Hierarchy.ends : Ends Hierarchy.onChunk 0xD120 := by
  intro s x s' b r h
  simp (decide := true) only [Hierarchy.onChunk, if_false, if_true] at h
  cases h
  rfl

theorem Hierarchy.commutes : ∀ t u : BitVec 16, t ≠ u → (t, u) ∉ ([] : List (BitVec 16 × BitVec 16)) → (u, t) ∉ ([] : List (BitVec 16 × BitVec 16)) →
    Commutes (simpleCb Hierarchy.onChunk) t u := by
  refine Commutes.table [⟨_, Hierarchy.form0⟩, ⟨_, Hierarchy.form1⟩] [0xD120] ?_ ?_ ?_
  · intro t h1 h2 s
    simp only [List.map_cons, List.map_nil, List.mem_cons, List.not_mem_nil, or_false, not_or] at h1 h2
    simp only [Hierarchy.onChunk, h1, h2, if_false]
  · intro t ht
    rw [List.mem_singleton] at ht
    exact ht ▸ Hierarchy.ends
  · simp only [List.mem_cons, List.not_mem_nil, or_false]
    rintro f (rfl | rfl) g (rfl | rfl) hn h1 h2 <;>
      first
      | exact absurd rfl hn
      | exact ⟨fun _ _ => rfl, fun _ _ => rfl, fun _ _ _ => rfl⟩

/-! ## BSP trees -/

def Bsp.form0 (g1 : Bool) : Form (Bsp.onChunk g1) 0xC000 where
  key := fun _ => ()
  parse := fun _ => do
    let _ ← Rd.u16
    Rd.u32
  upd := fun v s => { s with mode := v }
  eq := fun s => by simp (decide := true) only [Bsp.onChunk, if_true, Rd.assoc]
  inj := fun v v' s s' h => by simp only [Bsp.mk.injEq] at h ⊢; simp [h]

def Bsp.form1 (g1 : Bool) : Form (Bsp.onChunk g1) 0xC010 where
  key := fun _ => ()
  parse := fun _ => do
    let n ← Rd.u32
    Rd.times Rd.u32 n.toNat
  upd := fun v s => { s with polygonIndices := v }
  eq := fun s => by simp (decide := true) only [Bsp.onChunk, if_false, if_true, Rd.assoc]
  inj := fun v v' s s' h => by simp only [Bsp.mk.injEq] at h ⊢; simp [h]

def Bsp.form2 (g1 : Bool) : Form (Bsp.onChunk g1) 0xC040 where
  key := fun b => (b.nodes, b.leafNodes, b.polygonIndices, b.leafPolygons)
  parse := fun k => do
    let nodeCount ← Rd.u32
    let _leafCount ← Rd.u32
    let st ← (fun s => Bsp.parse g1 (s.data.length - s.pos + 1)
      { nodes := k.1, leaves := k.2.1, cap := max k.1.length nodeCount.toNat, gen := 0 } 0xFFFFFFFF (nodeCount == 1) s)
    let polys ← Rd.lift (Bsp.gather k.2.2.1 st.nodes st.leaves)
    return (st.nodes, st.leaves, sortU32 (k.2.2.2 ++ polys))
  upd := fun v s => { s with nodes := v.1, leafNodes := v.2.1, leafPolygons := v.2.2 }
  eq := fun s => by
    simp (decide := true) only [Bsp.onChunk, Bsp.onTree, if_false, if_true, Rd.assoc]
    congr 1
    funext x
    congr 1
    funext y
    refine (Rd.assoc (α := BspParse) _ _ _).trans (Eq.trans ?_ (Rd.assoc (α := BspParse) _ _ _).symm)
    congr 1
    funext st
    simp only [Rd.assoc]
    rfl
  inj := fun v v' s s' h => by simp only [Bsp.mk.injEq] at h ⊢; simp [h]

def Bsp.form3 (g1 : Bool) : Form (Bsp.onChunk g1) 0xC045 where
  key := fun b => b.leafNodes.length
  parse := fun k => Rd.times Rd.vec3 k
  upd := fun v s => { s with lightPoints := v }
  eq := fun s => by simp (decide := true) only [Bsp.onChunk, if_false, if_true, Rd.assoc]
  inj := fun v v' s s' h => by simp only [Bsp.mk.injEq] at h ⊢; simp [h]

def Bsp.form4 (g1 : Bool) : Form (Bsp.onChunk g1) 0xC050 where
  key := fun _ => ()
  parse := fun _ => do
    let n ← Rd.u32
    let sectors ← Rd.times BspSector.load n.toNat
    let k ← Rd.u32
    let portalIndices ← Rd.times Rd.u32 k.toNat
    return (sectors, portalIndices)
  upd := fun v s => { s with sectors := s.sectors ++ v.1, portalIndices := v.2 }
  eq := fun s => by simp (decide := true) only [Bsp.onChunk, if_false, if_true, Rd.assoc]; rfl
  inj := fun v v' s s' h => by simp only [Bsp.mk.injEq, List.append_cancel_left_eq] at h ⊢; simp [h]

theorem Bsp.ends (g1 : Bool) : Ends (Bsp.onChunk g1) 0xC0FF := by
  intro s x s' b r h
  simp (decide := true) only [Bsp.onChunk, if_false, if_true] at h
  cases hu : Rd.u8 x with
  | error e => rw [Rd.bind_err hu] at h; cases h
  | ok y =>
    obtain ⟨y, st⟩ := y
    rw [Rd.bind_ok hu] at h
    cases h
    rfl

theorem Bsp.commutes (g1 : Bool) : ∀ t u : BitVec 16, t ≠ u → (t, u) ∉ bspNeeds → (u, t) ∉ bspNeeds →
    Commutes (simpleCb (Bsp.onChunk g1)) t u := by
  refine Commutes.table [⟨_, Bsp.form0 g1⟩, ⟨_, Bsp.form1 g1⟩, ⟨_, Bsp.form2 g1⟩, ⟨_, Bsp.form3 g1⟩, ⟨_, Bsp.form4 g1⟩] [0xC0FF] ?_ ?_ ?_
  · intro t h1 h2 s
    simp only [List.map_cons, List.map_nil, List.mem_cons, List.not_mem_nil, or_false, not_or] at h1 h2
    simp only [Bsp.onChunk, h1, h2, if_false]
  · intro t ht
    rw [List.mem_singleton] at ht
    exact ht ▸ Bsp.ends g1
  · simp only [List.mem_cons, List.not_mem_nil, or_false]
    rintro f (rfl | rfl | rfl | rfl | rfl) g (rfl | rfl | rfl | rfl | rfl) hn h1 h2 <;> dsimp only at hn h1 h2 <;>
      first
      | exact absurd rfl hn
      | exact absurd (by decide) h1
      | exact absurd (by decide) h2
      | exact ⟨fun _ _ => rfl, fun _ _ => rfl, fun _ _ _ => rfl⟩

/-! ## Animations -/

def Animation.form0 (o : SampleOps) : Form (onChunk o) 0xA010 where
  key := fun _ => ()
  parse := fun _ => do
    let sourceDate ← Date.load
    let sourcePath ← Rd.line false
    let sourceScript ← Rd.line false
    return (sourceDate, sourcePath, sourceScript)
  upd := fun v s => { s with sourceDate := v.1, sourcePath := v.2.1, sourceScript := v.2.2 }
  eq := fun s => by simp (decide := true) only [onChunk, if_true, Rd.assoc]; rfl
  inj := fun v v' s s' h => by simp only [Animation.mk.injEq] at h ⊢; simp [h]

def Animation.form1 (o : SampleOps) : Form (onChunk o) 0xA020 where
  key := fun _ => ()
  parse := fun _ => do
    let _version ← Rd.u16
    let name ← Rd.line false
    let layer ← Rd.u32
    let frameCount ← Rd.u32
    let nodeCount ← Rd.u32
    let fps ← Rd.f32
    let fpsSource ← Rd.f32
    let positionMin ← Rd.f32
    let positionScale ← Rd.f32
    let bbox ← Aabb.load
    let next ← Rd.line false
    return ((name, layer, frameCount, nodeCount, fps), fpsSource, positionMin, positionScale, bbox, next)
  upd := fun v s => { s with name := v.1.1, layer := v.1.2.1, frameCount := v.1.2.2.1, nodeCount := v.1.2.2.2.1, fps := v.1.2.2.2.2,
                             fpsSource := v.2.1, positionMin := v.2.2.1, positionScale := v.2.2.2.1, bbox := v.2.2.2.2.1, next := v.2.2.2.2.2 }
  eq := fun s => by simp (decide := true) only [onChunk, if_false, if_true, Rd.assoc]; rfl
  inj := fun v v' s s' h => by simp only [Animation.mk.injEq] at h ⊢; simp [h]

def Animation.form2 (o : SampleOps) : Form (onChunk o) 0xA030 where
  key := fun _ => ()
  parse := fun _ => do
    let count ← Rd.u32
    Rd.times loadEvent count.toNat
  upd := fun v s => { s with events := v }
  eq := fun s => by simp (decide := true) only [onChunk, if_false, if_true, Rd.assoc]
  inj := fun v v' s s' h => by simp only [Animation.mk.injEq] at h ⊢; simp [h]

def Animation.form3 (o : SampleOps) : Form (onChunk o) 0xA090 where
  key := fun m => (m.nodeCount, m.frameCount, m.positionScale, m.positionMin)
  parse := fun k => do
    let checksum ← Rd.u32
    let nodeIndices ← Rd.times Rd.u32 k.1.toNat
    let samples ← Rd.times (loadSample o k.2.2.1 k.2.2.2) (k.1 * k.2.1).toNat
    return (checksum, nodeIndices, samples)
  upd := fun v s => { s with checksum := v.1, nodeIndices := v.2.1, samples := v.2.2 }
  eq := fun s => by simp (decide := true) only [onChunk, if_false, if_true, Rd.assoc]; rfl
  inj := fun v v' s s' h => by simp only [Animation.mk.injEq] at h ⊢; simp [h]

theorem Animation.commutes (o : SampleOps) : ∀ t u : BitVec 16, t ≠ u → (t, u) ∉ animationNeeds → (u, t) ∉ animationNeeds →
    Commutes (simpleCb (onChunk o)) t u := by
  refine Commutes.table [⟨_, form0 o⟩, ⟨_, form1 o⟩, ⟨_, form2 o⟩, ⟨_, form3 o⟩] [] ?_ (by simp) ?_
  · intro t h1 _ s
    simp only [List.map_cons, List.map_nil, List.mem_cons, List.not_mem_nil, or_false, not_or] at h1
    simp only [onChunk, h1, if_false]
  · simp only [List.mem_cons, List.not_mem_nil, or_false]
    rintro f (rfl | rfl | rfl | rfl) g (rfl | rfl | rfl | rfl) hn h1 h2 <;> dsimp only at hn h1 h2 <;>
      first
      | exact absurd rfl hn
      | exact absurd (by decide) h1
      | exact absurd (by decide) h2
      | exact ⟨fun _ _ => rfl, fun _ _ => rfl, fun _ _ _ => rfl⟩

/-! ## Morph meshes -/

def MorphMesh.form0 {μ} (mats : Nat → Rd (List μ)) : Form (onChunk mats) 0xE010 where
  key := fun _ => ()
  parse := fun _ => do
    let count ← Rd.u16
    Rd.times loadSource count.toNat
  upd := fun v s => { s with sources := v }
  eq := fun s => by simp (decide := true) only [onChunk, if_true, Rd.assoc]
  inj := fun v v' s s' h => by simp only [MorphMesh.mk.injEq] at h ⊢; simp [h]

def MorphMesh.form1 {μ} (mats : Nat → Rd (List μ)) : Form (onChunk mats) 0xE020 where
  key := fun _ => ()
  parse := fun _ => do
    let _version ← Rd.u32
    Rd.line true
  upd := fun v s => { s with name := v }
  eq := fun s => by simp (decide := true) only [onChunk, if_false, if_true, Rd.assoc]
  inj := fun v v' s s' h => by simp only [MorphMesh.mk.injEq] at h ⊢; simp [h]

def MorphMesh.form2 {μ} (mats : Nat → Rd (List μ)) : Form (onChunk mats) 0xB100 where
  key := fun m => m.mesh
  parse := fun k => Mrm.loadFrom mats k
  upd := fun v s => { s with mesh := v, morphPositions := resize s.morphPositions v.positions.length }
  eq := fun s => by simp (decide := true) only [onChunk, if_false, if_true, Rd.assoc]
  inj := fun v v' s s' h => by simp only [MorphMesh.mk.injEq] at h ⊢; simp [h]

def MorphMesh.form3 {μ} (mats : Nat → Rd (List μ)) : Form (onChunk mats) 0xB1FF where
  key := fun m => m.morphPositions.length
  parse := fun k => Rd.times Rd.vec3 k
  upd := fun v s => { s with morphPositions := v }
  eq := fun s => by simp (decide := true) only [onChunk, if_false, if_true, Rd.assoc]
  inj := fun v v' s s' h => by simp only [MorphMesh.mk.injEq] at h ⊢; simp [h]

def MorphMesh.form4 {μ} (mats : Nat → Rd (List μ)) : Form (onChunk mats) 0xE030 where
  key := fun _ => ()
  parse := fun _ => do
    let count ← Rd.u16
    Rd.times loadAnimation count.toNat
  upd := fun v s => { s with animations := s.animations ++ v }
  eq := fun s => by simp (decide := true) only [onChunk, if_false, if_true, Rd.assoc]
  inj := fun v v' s s' h => by simp only [MorphMesh.mk.injEq, List.append_cancel_left_eq] at h ⊢; simp [h]

theorem MorphMesh.commutes {μ} (mats : Nat → Rd (List μ)) : ∀ t u : BitVec 16, t ≠ u → (t, u) ∉ morphNeeds → (u, t) ∉ morphNeeds →
    Commutes (simpleCb (onChunk mats)) t u := by
  refine Commutes.table [⟨_, form0 mats⟩, ⟨_, form1 mats⟩, ⟨_, form2 mats⟩, ⟨_, form3 mats⟩, ⟨_, form4 mats⟩] [] ?_ (by simp) ?_
  · intro t h1 _ s
    simp only [List.map_cons, List.map_nil, List.mem_cons, List.not_mem_nil, or_false, not_or] at h1
    simp only [onChunk, h1, if_false]
  · simp only [List.mem_cons, List.not_mem_nil, or_false]
    rintro f (rfl | rfl | rfl | rfl | rfl) g (rfl | rfl | rfl | rfl | rfl) hn h1 h2 <;> dsimp only at hn h1 h2 <;>
      first
      | exact absurd rfl hn
      | exact absurd (by decide) h1
      | exact absurd (by decide) h2
      | exact ⟨fun _ _ => rfl, fun _ _ => rfl, fun _ _ _ => rfl⟩

/-! ## Soft skin meshes -/

def SoftSkin.form0 {μ} (mats : Nat → Rd (List μ)) : Form (onChunk mats) 0xE100 where
  key := fun _ => ()
  parse := fun _ => Rd.u32
  upd := fun _ s => s
  eq := fun s => by simp (decide := true) only [onChunk, if_true, Rd.assoc]
  inj := fun _ _ _ _ _ => rfl

def SoftSkin.form1 {μ} (mats : Nat → Rd (List μ)) : Form (onChunk mats) 0xB100 where
  key := fun m => m.mesh
  parse := fun k => Mrm.loadFrom mats k
  upd := fun v s => { s with mesh := v }
  eq := fun s => by simp (decide := true) only [onChunk, if_false, if_true, Rd.assoc]
  inj := fun v v' s s' h => by simp only [SoftSkin.mk.injEq] at h ⊢; simp [h]

def SoftSkin.form2 {μ} (mats : Nat → Rd (List μ)) : Form (onChunk mats) 0xB1FF where
  key := fun m => m.mesh.positions.length
  parse := fun k => do
    let size ← Rd.u32
    let here ← Rd.tell
    let weights ← Rd.times loadWeights k
    skipTo (here + size.toNat)
    let normalCount ← Rd.u32
    let wedgeNormals ← Rd.times loadNormal normalCount.toNat
    let nodeCount ← Rd.u16
    let nodes ← Rd.times Rd.u32 nodeCount.toNat
    let bboxes ← Rd.times Obb.load nodes.length
    return (weights, wedgeNormals, nodes, bboxes)
  upd := fun v s => { s with weights := v.1, wedgeNormals := v.2.1, nodes := v.2.2.1, bboxes := v.2.2.2 }
  eq := fun s => by simp (decide := true) only [onChunk, loadNodes, if_false, if_true, Rd.assoc]; rfl
  inj := fun v v' s s' h => by simp only [SoftSkin.mk.injEq] at h ⊢; simp [h]

theorem SoftSkin.ends {μ} (mats : Nat → Rd (List μ)) : Ends (onChunk mats) 0xE110 := by
  intro s x s' b r h
  simp (decide := true) only [onChunk, if_false, if_true] at h
  cases h
  rfl

theorem SoftSkin.commutes {μ} (mats : Nat → Rd (List μ)) : ∀ t u : BitVec 16, t ≠ u → (t, u) ∉ skinNeeds → (u, t) ∉ skinNeeds →
    Commutes (simpleCb (onChunk mats)) t u := by
  refine Commutes.table [⟨_, form0 mats⟩, ⟨_, form1 mats⟩, ⟨_, form2 mats⟩] [0xE110] ?_ ?_ ?_
  · intro t h1 h2 s
    simp only [List.map_cons, List.map_nil, List.mem_cons, List.not_mem_nil, or_false, not_or] at h1 h2
    simp only [onChunk, h1, h2, if_false]
  · intro t ht
    rw [List.mem_singleton] at ht
    exact ht ▸ SoftSkin.ends mats
  · simp only [List.mem_cons, List.not_mem_nil, or_false]
    rintro f (rfl | rfl | rfl) g (rfl | rfl | rfl) hn h1 h2 <;> dsimp only at hn h1 h2 <;>
      first
      | exact absurd rfl hn
      | exact absurd (by decide) h1
      | exact absurd (by decide) h2
      | exact ⟨fun _ _ => rfl, fun _ _ => rfl, fun _ _ _ => rfl⟩

/-! ## World meshes -/

def WholeMesh.form0 (wide : Bool) : Form (WholeMesh.onChunk wide) 0xB000 where
  key := fun _ => ()
  parse := fun _ => do
    let version ← Rd.u16
    let date ← Date.load
    let name ← Rd.line false
    return (version, date, name)
  upd := fun v s => ({ s.1 with core := { s.1.core with date := v.2.1, name := v.2.2 } }, v.1)
  eq := fun s => by simp (decide := true) only [WholeMesh.onChunk, WholeMesh.onChunkV, Mesh.onChunkV, if_false, if_true, Rd.assoc]; rfl
  inj := fun v v' s s' h => by simp only [WholeMesh.mk.injEq, Mesh.mk.injEq, Prod.mk.injEq] at h ⊢; simp [h]

def WholeMesh.form1 (wide : Bool) : Form (WholeMesh.onChunk wide) 0xB010 where
  key := fun _ => ()
  parse := fun _ => do
    let bbox ← Aabb.load
    let obb ← Obb.load
    return (bbox, obb)
  upd := fun v s => ({ s.1 with core := { s.1.core with bbox := v.1, obb := v.2 } }, s.2)
  eq := fun s => by simp (decide := true) only [WholeMesh.onChunk, WholeMesh.onChunkV, Mesh.onChunkV, if_false, if_true, Rd.assoc]; rfl
  inj := fun v v' s s' h => by simp only [WholeMesh.mk.injEq, Mesh.mk.injEq, Prod.mk.injEq] at h ⊢; simp [h]

def WholeMesh.form2 (wide : Bool) : Form (WholeMesh.onChunk wide) 0xB020 where
  key := fun s => s.1.materials
  parse := fun k => Obj.Material.loadCounted k
  upd := fun v s => ({ s.1 with materials := v }, s.2)
  eq := fun s => by simp (decide := true) only [WholeMesh.onChunk, WholeMesh.onChunkV, if_true, Rd.assoc]
  inj := fun v v' s s' h => by simp only [WholeMesh.mk.injEq, Prod.mk.injEq] at h ⊢; simp [h]

def WholeMesh.form3 (wide : Bool) : Form (WholeMesh.onChunk wide) 0xB025 where
  key := fun s => s.1.images.length
  parse := fun k => do
    let count ← Rd.u32
    let maps ← Rd.times LightMap.loadOwn count.toNat
    return (maps.map (·.2), LightMap.number k maps)
  upd := fun v s => ({ s.1 with images := s.1.images ++ v.1, lightmaps := s.1.lightmaps ++ v.2 }, s.2)
  eq := fun s => by simp (decide := true) only [WholeMesh.onChunk, WholeMesh.onChunkV, WholeMesh.loadOwn, if_false, if_true, Rd.assoc]; rfl
  inj := fun v v' s s' h => by simp only [WholeMesh.mk.injEq, Prod.mk.injEq, List.append_cancel_left_eq] at h ⊢; simp [h]

def WholeMesh.form4 (wide : Bool) : Form (WholeMesh.onChunk wide) 0xB026 where
  key := fun s => s.1.images.length
  parse := fun k => do
    let n ← Rd.u32
    let images ← Rd.times (Tex.Texture.load {}) n.toNat
    let count ← Rd.u32
    let maps ← Rd.times (LightMap.loadShared k n.toNat) count.toNat
    return (images, maps)
  upd := fun v s => ({ s.1 with images := s.1.images ++ v.1, lightmaps := s.1.lightmaps ++ v.2 }, s.2)
  eq := fun s => by simp (decide := true) only [WholeMesh.onChunk, WholeMesh.onChunkV, WholeMesh.loadShared, if_false, if_true, Rd.assoc]; rfl
  inj := fun v v' s s' h => by simp only [WholeMesh.mk.injEq, Prod.mk.injEq, List.append_cancel_left_eq] at h ⊢; simp [h]

def WholeMesh.form5 (wide : Bool) : Form (WholeMesh.onChunk wide) 0xB030 where
  key := fun _ => ()
  parse := fun _ => do
    let n ← Rd.u32
    Rd.times Rd.vec3 n.toNat
  upd := fun v s => ({ s.1 with core := { s.1.core with vertices := v } }, s.2)
  eq := fun s => by simp (decide := true) only [WholeMesh.onChunk, WholeMesh.onChunkV, Mesh.onChunkV, if_false, if_true, Rd.assoc]; rfl
  inj := fun v v' s s' h => by simp only [WholeMesh.mk.injEq, Mesh.mk.injEq, Prod.mk.injEq] at h ⊢; simp [h]

def WholeMesh.form6 (wide : Bool) : Form (WholeMesh.onChunk wide) 0xB040 where
  key := fun _ => ()
  parse := fun _ => do
    let n ← Rd.u32
    Rd.times Feature.load n.toNat
  upd := fun v s => ({ s.1 with core := { s.1.core with features := v } }, s.2)
  eq := fun s => by simp (decide := true) only [WholeMesh.onChunk, WholeMesh.onChunkV, Mesh.onChunkV, if_false, if_true, Rd.assoc]; rfl
  inj := fun v v' s s' h => by simp only [WholeMesh.mk.injEq, Mesh.mk.injEq, Prod.mk.injEq] at h ⊢; simp [h]

def WholeMesh.form7 (wide : Bool) : Form (WholeMesh.onChunk wide) 0xB050 where
  key := fun s => s.2
  parse := fun k => do
    let n ← Rd.u32
    let r ← Poly.loadMany (k == 265) wide n.toNat 0
    return (r.1, r.2.map (·.1), r.2.map (·.2))
  upd := fun v s => ({ s.1 with core := { s.1.core with
    geometry := v.1, vertexIndices := s.1.core.vertexIndices ++ v.2.1, featureIndices := s.1.core.featureIndices ++ v.2.2 } }, s.2)
  eq := fun s => by simp (decide := true) only [WholeMesh.onChunk, WholeMesh.onChunkV, Mesh.onChunkV, if_false, if_true, Rd.assoc]; rfl
  inj := fun v v' s s' h => by
    simp only [WholeMesh.mk.injEq, Mesh.mk.injEq, Prod.mk.injEq, List.append_cancel_left_eq] at h ⊢
    simp [h]

theorem WholeMesh.ends (wide : Bool) : Ends (WholeMesh.onChunk wide) 0xB060 := by
  intro s x s' b r h
  simp (decide := true) only [WholeMesh.onChunk, WholeMesh.onChunkV, Mesh.onChunkV, if_false, if_true] at h
  cases h
  rfl

theorem WholeMesh.commutes (wide : Bool) : ∀ t u : BitVec 16, t ≠ u → (t, u) ∉ meshNeeds → (u, t) ∉ meshNeeds →
    Commutes (simpleCb (WholeMesh.onChunk wide)) t u := by
  refine Commutes.table [⟨_, WholeMesh.form0 wide⟩, ⟨_, WholeMesh.form1 wide⟩, ⟨_, WholeMesh.form2 wide⟩, ⟨_, WholeMesh.form3 wide⟩,
    ⟨_, WholeMesh.form4 wide⟩, ⟨_, WholeMesh.form5 wide⟩, ⟨_, WholeMesh.form6 wide⟩, ⟨_, WholeMesh.form7 wide⟩] [0xB060] ?_ ?_ ?_
  · intro t h1 h2 s
    simp only [List.map_cons, List.map_nil, List.mem_cons, List.not_mem_nil, or_false, not_or] at h1 h2
    simp only [WholeMesh.onChunk, WholeMesh.onChunkV, Mesh.onChunkV, h1, h2, if_false]
    rfl
  · intro t ht
    rw [List.mem_singleton] at ht
    exact ht ▸ WholeMesh.ends wide
  · simp only [List.mem_cons, List.not_mem_nil, or_false]
    rintro f (rfl | rfl | rfl | rfl | rfl | rfl | rfl | rfl) g (rfl | rfl | rfl | rfl | rfl | rfl | rfl | rfl) hn h1 h2 <;>
      dsimp only at hn h1 h2 <;>
      first
      | exact absurd rfl hn
      | exact absurd (by decide) h1
      | exact absurd (by decide) h2
      | exact ⟨fun _ _ => rfl, fun _ _ => rfl, fun _ _ _ => rfl⟩

end Verif
