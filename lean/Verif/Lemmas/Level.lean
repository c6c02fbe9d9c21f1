import Verif.Props.WholeMesh
import Verif.Props.Bsp
import Verif.Props.Mesh
import Verif.Spec.Level

/-! # Lemmas about the mesh and the BSP tree of a world -/

namespace Verif

open Obj (Game Material)
open Spec (BTree)

/-- The search for the end of a mesh. -/
theorem World.scan_reads : ∀ (front : List Spec.Chunk) (n : Nat), front.length < n → (∀ c ∈ front, c.type ≠ 0xB060) →
    (∀ c ∈ front, c.payload.length < 2 ^ 32) → Reads (World.scanMesh n) (chunksBytes (front ++ [⟨0xB060, []⟩])) () := by
  intro front
  induction front with
  | nil =>
    intro n hn _ _
    obtain ⟨n, rfl⟩ : ∃ k, n = k + 1 := ⟨n - 1, by simp at hn; omega⟩
    have : Reads (World.scanMesh (n + 1)) (encW 2 (0xB060 : BitVec 16) ++ (encW 4 (0 : BitVec 32) ++ ([] ++ []))) () := by
      unfold World.scanMesh
      refine (Reads.u16 _).bind ((Reads.u32 _).bind ((Reads.seekCur [] _ rfl).bind ?_))
      exact Reads.pure ()
    exact this.congr (by simp [chunksBytes, chunkBytes]) rfl
  | cons c front ih =>
    intro n hn ht hs
    obtain ⟨n, rfl⟩ : ∃ k, n = k + 1 := ⟨n - 1, by simp at hn; omega⟩
    have hc := ht c (by simp)
    have hsz : (BitVec.ofNat 32 c.payload.length).toNat = c.payload.length := by
      have := hs c (by simp)
      simp; omega
    have := ih n (by simp at hn; omega) (fun x hx => ht x (by simp [hx])) (fun x hx => hs x (by simp [hx]))
    have : Reads (World.scanMesh (n + 1)) (encW 2 c.type ++ (encW 4 (BitVec.ofNat 32 c.payload.length) ++ (c.payload ++
        chunksBytes (front ++ [⟨0xB060, []⟩])))) () := by
      unfold World.scanMesh
      refine (Reads.u16 _).bind ((Reads.u32 _).bind ((Reads.seekCur c.payload _ hsz).bind ?_))
      rw [if_pos (by simpa using hc)]
      exact this
    exact this.congr (by simp [chunksBytes, chunkBytes]) rfl

/-- What the section of the mesh needs to fit into a file. -/
structure Level.Fits (g : Game) (e : World.MeshEnv) (l : Level) (t : BTree) : Prop where
  clock : Obj.ClockOk e.start e.finish
  order : l.mesh.Order e.order
  plain : ∀ x ∈ l.mesh.materials, x.Plain
  fewMaterials : l.mesh.materials.length < 10 ^ 9
  notTen : l.mesh.materials.length % 256 ≠ 10
  fewLightmaps : l.mesh.lightmaps.length < 2 ^ 32
  pictures : ∀ m ∈ l.mesh.lightmaps, ∃ t, l.mesh.picture m = some t ∧ t.Storable
  mesh : Props.MeshFits (g != .g1) l.mesh.core l.mesh.core.vertexIndices l.mesh.core.featureIndices
  short : g = .g1 → ∀ v ∈ l.mesh.core.vertexIndices, v.toNat < 2 ^ 16
  triangles : g = .g2 → l.mesh.core.polygons.vertices = l.mesh.core.vertexIndices ∧ l.mesh.core.polygons.features = l.mesh.core.featureIndices
  bsp : Props.Holds (g = .g1) l.bsp t
  /-- the section has less than 4 GiB -/
  small : ∀ w1 w2, l.mesh.save g e.start e.finish e.order Ws.empty = .ok w1 → l.bsp.save (g = .g1) w1 = .ok w2 →
    w2.data.length + 8 < 2 ^ 32

theorem Contiguous.bound : ∀ (ps : List Poly) (off : Nat), Contiguous off ps → ∀ p ∈ ps,
    p.indexOffset + p.indexCount ≤ off + (ps.map (·.indexCount)).sum := by
  intro ps
  induction ps with
  | nil => intro _ _ p hp; cases hp
  | cons q ps ih =>
    rintro off ⟨h1, h2⟩ p hp
    rcases List.mem_cons.1 hp with rfl | hp
    · simp; omega
    · have := ih _ h2 p hp
      simp; omega

theorem mem_chosen {leaf : List (BitVec 32)} : ∀ (ps : List Poly) (i : Nat) (p : Poly), p ∈ chosen leaf ps i → p ∈ ps := by
  intro ps
  induction ps with
  | nil => intro i p h; exact h
  | cons q ps ih =>
    intro i p h
    unfold chosen at h
    split at h
    · rcases List.mem_cons.1 h with rfl | h
      · exact List.mem_cons_self
      · exact List.mem_cons_of_mem _ (ih _ _ h)
    · exact List.mem_cons_of_mem _ (ih _ _ h)

theorem chunk_le {c : Spec.Chunk} : ∀ {cs : List Spec.Chunk}, c ∈ cs → c.payload.length ≤ (chunksBytes cs).length := by
  intro cs
  induction cs with
  | nil => intro h; cases h
  | cons d cs ih =>
    intro h
    simp only [chunksBytes, List.map_cons, List.flatten_cons, List.length_append, chunkBytes_length] at ih ⊢
    rcases List.mem_cons.1 h with rfl | h
    · omega
    · have := ih h
      omega

/-- Saving the section and reading it back. -/
theorem Level.round_trip (g : Game) (e : World.MeshEnv) (l l0 : Level) (t : BTree) (h : l.Fits g e t) (h0 : NewLevel l0) :
    ∃ bs : Bytes, 4 ≤ bs.length ∧ bs.take 4 = encW 4 (if g = .g1 then 0x2090000 else 0x4090000 : BitVec 32) ∧
      (∀ w : Ws, w.pos ≤ w.data.length → w.pos + 8 < 2 ^ 32 → l.save g e w = .ok (w.write bs)) ∧
      ∃ l', SameLevel g l l' ∧ ∀ n ≥ 8, Reads (Level.load false n l0) bs l' := by
  obtain ⟨⟨mode, hmode⟩, hm0, hl0, hv0, hf0, hp0⟩ := h0
  have hv : ∃ t, (if (g != .g1) = true then l.mesh.core.polygons.vertices else l.mesh.core.vertexIndices) = l.mesh.core.vertexIndices ++ t := by
    cases g
    · exact ⟨[], (List.append_nil _).symm⟩
    · exact ⟨[], (if_pos (by decide)).trans (by rw [(h.triangles rfl).1, List.append_nil])⟩
  have hf : ∃ t, (if (g != .g1) = true then l.mesh.core.polygons.features else l.mesh.core.featureIndices) = l.mesh.core.featureIndices ++ t := by
    cases g
    · exact ⟨[], (List.append_nil _).symm⟩
    · exact ⟨[], (if_pos (by decide)).trans (by rw [(h.triangles rfl).2, List.append_nil])⟩
  obtain ⟨ts, ht, htl, mb, hs, hr, front, hfr, hf7, hft⟩ := WholeMesh.round_trip g e.start e.finish h.clock l.mesh l0.mesh e.order h.order h.plain
    h.fewMaterials h.notTen h.fewLightmaps h.pictures _ _ hv hf h.mesh
  have hbs := Bsp.save_emits (g = .g1) l.bsp t h.bsp.nodes h.bsp.proper (by have := h.bsp.small; omega)
  have hbr := Props.bsp_reads (g = .g1) l.bsp t h.bsp mode
  generalize chunksBytes (Bsp.chunks (decide (g = .g1)) l.bsp t) = bb at hbs hbr
  have hk : l.mesh.core.vertexIndices.map (keptIndex (g != .g1)) = l.mesh.core.vertexIndices := by
    cases g
    · rw [List.map_congr_left (g := id), List.map_id]
      intro v hv
      show (v.setWidth 16).setWidth 32 = v
      apply BitVec.eq_of_toNat_eq
      have := h.short rfl v hv
      simp only [BitVec.toNat_setWidth]
      omega
    · exact List.map_id _
  have hlen : mb.length + bb.length + 8 < 2 ^ 32 := by
    have := h.small _ _ (hs Ws.empty (Nat.le_refl _)) (hbs _ (Ws.write_le _ _ (Nat.le_refl _)))
    rw [Ws.write_write _ _ _ (Nat.le_refl _)] at this
    simpa [Ws.write, Ws.empty, splice] using this
  have hr := hr (by omega)
  refine ⟨encW 4 (if g = .g1 then 0x2090000 else 0x4090000 : BitVec 32) ++ (encW 4 (BitVec.ofNat 32 (mb.length + bb.length)) ++ (mb ++ bb)),
    by simp, by simp, ?_, ?_⟩
  · intro w hw hp
    have e1 : (Ws.u32 0 (Ws.u32 (if g = .g1 then 0x2090000 else 0x4090000) w)) =
        w.write (encW 4 (if g = .g1 then 0x2090000 else 0x4090000 : BitVec 32) ++ encW 4 (0 : BitVec 32)) :=
      ((Emits.u32 _).comp (Emits.u32 0)) w hw
    have hpos : ((Ws.u32 (if g = .g1 then 0x2090000 else 0x4090000) w).pos % 2 ^ 32 : Nat) = w.pos + 4 := by
      simp only [Ws.u32, Ws.word, Ws.write, encW_length]
      omega
    unfold Level.save
    dsimp only
    rw [hpos, e1, hs _ (Ws.write_le _ _ hw), Ws.write_write _ _ _ hw]
    simp only [bind, Except.bind]
    rw [hbs _ (Ws.write_le _ _ hw), Ws.write_write _ _ _ hw]
    dsimp only
    generalize (if g = .g1 then 0x2090000 else 0x4090000 : BitVec 32) = ver
    have hl : ((w.write (encW 4 ver ++ encW 4 (0 : BitVec 32) ++ mb ++ bb)).pos : Int) - ((w.pos + 4 : Nat) : Int) - 4 =
        ((mb ++ bb).length : Int) := by
      simp [Ws.write]
    rw [hl]
    have hp2 := splice_patch w.data (encW 4 ver) (encW 4 (0 : BitVec 32)) (encW 4 (BitVec.ofNat 32 (mb ++ bb).length))
      (mb ++ bb) w.pos hw (by simp)
    have e2 : BitVec.ofInt 32 ((mb ++ bb).length : Int) = BitVec.ofNat 32 (mb ++ bb).length := BitVec.ofInt_natCast ..
    have e3 : (BitVec.ofNat 32 (mb ++ bb).length).toNat = (mb ++ bb).length := by
      rw [BitVec.toNat_ofNat, List.length_append]; omega
    rw [e2, e3]
    simp only [Ws.seek, Rd.seekTarget, Ws.u32, Ws.word, Ws.write, encW_length, List.append_assoc] at hp2 ⊢
    simp only [Int.toNat_natCast, hp2]
    simp only [pure, Except.pure, Except.ok.injEq, Ws.mk.injEq, List.length_append, encW_length, true_and]
    omega
  · obtain ⟨m1, hr, hc1, hm1, hi1, hl1⟩ : ∃ m1 : WholeMesh, Reads (WholeMesh.load false l0.mesh) mb m1 ∧ m1.core = l.mesh.core.kept g ∧
        m1.materials = l.mesh.materials.map (Material.kept g) ∧ m1.images = l0.mesh.images ++ ts ∧
        m1.lightmaps = l.mesh.lightmaps.map (LightMap.relink l0.mesh.images.length e.order) :=
      ⟨_, hr, by rw [hk, hv0, hf0, hp0]; rfl, by rw [hm0, Material.keptIn_nil], rfl, by rw [hl0]; rfl⟩
    have htri : m1.core.triangulate l.bsp.leafPolygons =
        .ok { l.mesh.core.kept g with polygons := (l.mesh.core.kept g).fans l.bsp.leafPolygons } := by
      rw [hc1, Props.c45_partial _ _ h.bsp.sorted]
      · rfl
      · intro p hp
        obtain ⟨q, hq, rfl⟩ := List.mem_map.1 (mem_chosen _ _ _ hp)
        have := Contiguous.bound _ _ h.mesh.contiguous q hq
        have h2 := h.mesh.total
        have h3 := h.mesh.lengths
        simp only [Mesh.kept, Poly.kept]
        omega
    refine ⟨⟨{ m1 with core := { l.mesh.core.kept g with polygons := (l.mesh.core.kept g).fans l.bsp.leafPolygons } }, l.bsp⟩,
      ⟨rfl, rfl, hm1, ?_⟩, ?_⟩
    · have := Props.sameLight l.mesh m1 e.order h.order ts ht l0.mesh.images hi1 hl1
      exact ⟨this.length, this.maps, this.shared⟩
    · intro n hn pre post
      have r1 := Reads.u32 (if g = .g1 then 0x2090000 else 0x4090000 : BitVec 32) pre
        (encW 4 (BitVec.ofNat 32 (mb.length + bb.length)) ++ (mb ++ bb) ++ post)
      generalize hver : (if g = .g1 then 0x2090000 else 0x4090000 : BitVec 32) = ver at *
      have hver1 : decide (ver = 0x2090000) = decide (g = .g1) := by
        rw [← hver]; cases g <;> rfl
      generalize hz : encW 4 (BitVec.ofNat 32 (mb.length + bb.length)) = z at *
      have hzl : z.length = 4 := by rw [← hz]; simp
      have r2 := Reads.u32 (BitVec.ofNat 32 (mb.length + bb.length)) (pre ++ encW 4 ver) (mb ++ bb ++ post)
      rw [hz] at r2
      have r3 := World.scan_reads front n (by omega) hft (fun c hc => by
        have := chunk_le (cs := front ++ [⟨0xB060, []⟩]) (c := c) (by simp [hc])
        rw [← hfr] at this
        omega) (pre ++ encW 4 ver ++ z) (bb ++ post)
      rw [← hfr] at r3
      have r4 := hbr (pre ++ encW 4 ver ++ z ++ mb) post
      have r5 := hr (pre ++ encW 4 ver ++ z) (bb ++ post)
      simp only [List.append_assoc, List.length_append, encW_length, hzl, Nat.add_assoc] at r1 r2 r3 r4 r5 ⊢
      generalize hD : pre ++ (encW 4 ver ++ (z ++ (mb ++ (bb ++ post)))) = D at *
      have hDl : pre.length + (4 + (4 + (mb.length + bb.length))) ≤ D.length := by
        rw [← hD]; simp [hzl]
      unfold Level.load
      rw [Rd.bind_ok r1]
      rw [Rd.bind_ok r2]
      rw [Rd.bind_ok (p := Rd.tell) rfl]
      dsimp only
      rw [Rd.bind_ok r3, hver1, hmode, Rd.bind_ok r4, Rd.bind_ok (p := Rd.tell) rfl]
      dsimp only
      rw [Rd.bind_ok (Rd.seek_beg (data := D) (by omega)), Rd.bind_ok r5]
      have hfan : m1.fan l.bsp.leafPolygons =
          (pure { m1 with core := { l.mesh.core.kept g with polygons := (l.mesh.core.kept g).fans l.bsp.leafPolygons } } : Rd WholeMesh) := by
        unfold WholeMesh.fan
        rw [htri]
      rw [hfan]
      rw [Rd.bind_ok (p := pure _) rfl, Rd.bind_ok (Rd.seek_beg (data := D) (by omega))]
      rfl

end Verif
