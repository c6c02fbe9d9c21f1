import Verif.Spec.WholeMesh
import Verif.Props.Mesh
import Verif.Props.Materials
import Verif.Props.Texture

/-! # Lemmas about whole meshes -/

namespace Verif

open Obj (Material Game)
open Tex (Texture)

theorem writeChunkE_ok {type : BitVec 16} {cb : Ws → Except Fail Ws} {bs : Bytes}
    (h : ∀ w : Ws, w.pos ≤ w.data.length → cb w = .ok (w.write bs)) (w : Ws) (hw : w.pos ≤ w.data.length) :
    writeChunkE type cb w = .ok (w.write (chunkBytes type bs)) := by
  have e := Emits.chunk (type := type) (Emits.write bs) w hw
  unfold writeChunk at e
  unfold writeChunkE
  have hp := ((Emits.u16 type).comp (Emits.u32 0)) w hw
  dsimp only at e hp ⊢
  rw [h _ (by rw [hp]; exact Ws.write_le _ _ hw)]
  exact congrArg Except.ok e

theorem writeChunkE_error {type : BitVec 16} {cb : Ws → Except Fail Ws} {e : Fail} (h : ∀ w : Ws, cb w = .error e) (w : Ws) :
    writeChunkE type cb w = .error e := by
  unfold writeChunkE
  dsimp only
  rw [h]

namespace Tex

theorem Texture.Storable.reads {t : Texture} (h : t.Storable) : Reads (Texture.load {}) t.enc t := by
  have hm : max1 t.mipmaps = t.mipmaps := if_neg h.levels
  have hn := h.sized.1
  have := t.reads {} (fun _ => h.palette) (by rw [hm]; exact hn) (by
    intro i m e
    have hi : i < t.mipmaps.toNat := by rw [← hn]; exact (List.getElem?_eq_some_iff.mp e).1
    rw [hn]
    exact (h.sized.2 i m e).size (h.whole _ (by omega)))
  refine this.congr rfl ?_
  rw [hm]
  have hpal : (if t.format = p8 then t.palette else ({} : Texture).palette) = t.palette := by
    by_cases hf : t.format = p8
    · rw [if_pos hf]
    · rw [if_neg hf]; exact (h.noPalette hf).symm
  rw [hpal]
  rfl

end Tex

/-- The bytes of a light map. -/
def LightMap.enc (ord : List (Option Nat)) (l : LightMap) : Bytes :=
  l.origin.mem ++ (l.normalA.mem ++ (l.normalB.mem ++ encW 4 (BitVec.ofNat 32 (ord.idxOf l.image))))

/-- The light map as it is read. -/
def LightMap.relink (base : Nat) (ord : List (Option Nat)) (l : LightMap) : LightMap :=
  { l with image := some (base + ord.idxOf l.image) }

theorem LightMap.emits (ord : List (Option Nat)) (l : LightMap) (h : l.image ∈ ord) : Emits (l.save ord) (l.enc ord) := by
  have := (((Emits.vec3 l.origin).comp (Emits.vec3 l.normalA)).comp (Emits.vec3 l.normalB)).comp
    (Emits.u32 (BitVec.ofNat 32 (ord.idxOf l.image)))
  unfold LightMap.save
  rw [if_pos h]
  exact this.congr (by simp only [LightMap.enc, List.append_assoc])

theorem LightMap.reads (base : Nat) (ord : List (Option Nat)) (l : LightMap) (h : l.image ∈ ord) (hl : ord.length < 2 ^ 32) :
    Reads (LightMap.loadShared base ord.length) (l.enc ord) (l.relink base ord) := by
  have hi := List.idxOf_lt_length_of_mem h
  have hn : (BitVec.ofNat 32 (ord.idxOf l.image)).toNat = ord.idxOf l.image := by
    rw [BitVec.toNat_ofNat, Nat.mod_eq_of_lt (by omega)]
  have hp : LightMap.pick base ord.length l.origin l.normalA l.normalB (BitVec.ofNat 32 (ord.idxOf l.image)) = pure (l.relink base ord) := by
    unfold LightMap.pick
    rw [hn, if_pos hi]
    rfl
  have h2 : Reads (do let i ← Rd.u32; LightMap.pick base ord.length l.origin l.normalA l.normalB i)
      (encW 4 (BitVec.ofNat 32 (ord.idxOf l.image)) ++ []) (l.relink base ord) := by
    refine (Reads.u32 _).bind ?_
    rw [hp]
    exact Reads.pure _
  rw [List.append_nil] at h2
  exact (Reads.vec3 _).bind ((Reads.vec3 _).bind ((Reads.vec3 _).bind h2))

/-- The chunk of the light maps. -/
def WholeMesh.lightBytes (m : WholeMesh) (ord : List (Option Nat)) (ts : List Texture) : Bytes :=
  encW 4 (BitVec.ofNat 32 ord.length) ++ ((ts.map Texture.enc).flatten ++
    (encW 4 (BitVec.ofNat 32 m.lightmaps.length) ++ (m.lightmaps.map (LightMap.enc ord)).flatten))

theorem Emits.foldl_mem {α} (f : α → Ws → Ws) (enc : α → Bytes) (as : List α) (h : ∀ a ∈ as, Emits (f a) (enc a)) :
    Emits (fun w => as.foldl (fun w a => f a w) w) (as.map enc).flatten := by
  induction as with
  | nil => exact Emits.id
  | cons a as ih => exact (h a (by simp)).comp (ih fun b hb => h b (List.mem_cons_of_mem _ hb))

theorem WholeMesh.saveShared_ok (m : WholeMesh) (ord : List (Option Nat)) (ho : m.Order ord) (ts : List Texture)
    (ht : ord.mapM m.deref = .ok ts) (w : Ws) (hw : w.pos ≤ w.data.length) :
    m.saveShared ord w = .ok (w.write (m.lightBytes ord ts)) := by
  have e := (((Emits.u32 (BitVec.ofNat 32 ord.length)).comp (Emits.foldl Texture.save Texture.enc Texture.emits ts)).comp
    (Emits.u32 (BitVec.ofNat 32 m.lightmaps.length))).comp
    (Emits.foldl_mem (fun l w => LightMap.save ord l w) (LightMap.enc ord) m.lightmaps
      fun l hl => l.emits ord ((ho.mem _).2 ⟨l, hl, rfl⟩)) w hw
  unfold WholeMesh.saveShared
  rw [ht]
  refine (congrArg Except.ok e).trans ?_
  simp only [lightBytes, List.append_assoc]

theorem nodup_length_le {α} [DecidableEq α] : ∀ (l k : List α), l.Nodup → (∀ x ∈ l, x ∈ k) → l.length ≤ k.length := by
  intro l
  induction l with
  | nil => intro k _ _; exact Nat.zero_le _
  | cons a l ih =>
    intro k hn hk
    have ha : a ∈ k := hk a (by simp)
    obtain ⟨h1, h2⟩ := List.nodup_cons.1 hn
    have := ih (k.erase a) h2 (fun x hx => by
      have hne : x ≠ a := fun e => h1 (e ▸ hx)
      exact (List.mem_erase_of_ne hne).2 (hk x (by simp [hx])))
    rw [List.length_erase_of_mem ha] at this
    have : 0 < k.length := List.length_pos_of_mem ha
    simp only [List.length_cons]
    omega

theorem WholeMesh.Order.length_le {m : WholeMesh} {ord : List (Option Nat)} (h : m.Order ord) : ord.length ≤ m.lightmaps.length := by
  have := nodup_length_le ord (m.lightmaps.map (·.image)) h.nodup (fun x hx => by
    obtain ⟨l, hl, e⟩ := (h.mem x).1 hx
    exact List.mem_map.2 ⟨l, hl, e⟩)
  simpa using this

theorem WholeMesh.loadShared_reads (m x : WholeMesh) (ord : List (Option Nat)) (ho : m.Order ord) (ts : List Texture)
    (htl : ts.length = ord.length) (hts : ∀ t ∈ ts, t.Storable) (hn : m.lightmaps.length < 2 ^ 32) :
    Reads x.loadShared (m.lightBytes ord ts)
      { x with images := x.images ++ ts, lightmaps := x.lightmaps ++ m.lightmaps.map (LightMap.relink x.images.length ord) } := by
  have hl : ord.length < 2 ^ 32 := Nat.lt_of_le_of_lt ho.length_le hn
  have n1 : (BitVec.ofNat 32 ord.length).toNat = ord.length := by rw [BitVec.toNat_ofNat, Nat.mod_eq_of_lt hl]
  have n2 : (BitVec.ofNat 32 m.lightmaps.length).toNat = m.lightmaps.length := by rw [BitVec.toNat_ofNat, Nat.mod_eq_of_lt hn]
  unfold WholeMesh.loadShared WholeMesh.lightBytes
  refine (Reads.u32 _).bind ?_
  rw [n1, ← htl]
  refine (Reads.times (p := Texture.load {}) (enc := Texture.enc) ts fun t ht => (hts t ht).reads).bind ((Reads.u32 _).bind ?_)
  rw [n2, htl]
  exact (Reads.timesMap (f := LightMap.relink x.images.length ord) m.lightmaps fun l hl' =>
    l.reads _ ord ((ho.mem _).2 ⟨l, hl', rfl⟩) hl).bind_pure

/-- A chunk of the geometry, read into a whole mesh. -/
theorem WholeMesh.lift {x : WholeMesh} {v v' : BitVec 16} {type : BitVec 16} {bs : Bytes} {c : Mesh} {d : Bool}
    (h : Reads (Mesh.onChunkV false x.core v type) bs ((c, v'), d)) (h1 : type ≠ 0xB020) (h2 : type ≠ 0xB026) (h3 : type ≠ 0xB025) :
    Reads (WholeMesh.onChunk false (x, v) type) bs (({ x with core := c }, v'), d) := by
  show Reads (WholeMesh.onChunkV false x v type) _ _
  unfold WholeMesh.onChunkV
  rw [if_neg h1, if_neg h2, if_neg h3]
  exact h.bind_pure

theorem Mesh.marker_emits (m : Mesh) (g2 : Bool) :
    Emits (m.saveMarker g2) (encW 2 (if g2 then 265 else 9 : BitVec 16) ++ (m.date.enc ++ (m.name ++ [10]))) :=
  (((Emits.u16 (if g2 then 265 else 9)).comp (Emits.date m.date)).comp (Emits.line m.name)).congr (by simp only [List.append_assoc])

/-- A reader that fails at these bytes. -/
def Fails {α} (p : Rd α) (bs : Bytes) (e : Fail) : Prop := ∀ pre post : Bytes, p ⟨pre ++ bs ++ post, pre.length⟩ = .error e

theorem Reads.then_fails {α β} {p : Rd α} {f : α → Rd β} {a b : Bytes} {x : α} {e : Fail} (h : Reads p a x) (hf : Fails (f x) b e) :
    Fails (p >>= f) (a ++ b) e := by
  intro pre post
  have h1 := h pre (b ++ post)
  have h2 := hf (pre ++ a) post
  simp only [List.append_assoc, List.length_append] at h1 h2 ⊢
  rw [Rd.bind_ok h1, h2]

theorem Fails.bind {α β} {p : Rd α} {f : α → Rd β} {a : Bytes} {e : Fail} (h : Fails p a e) : Fails (p >>= f) a e := by
  intro pre post
  rw [Rd.bind_err (h pre post)]

/-- The chunks of a whole mesh. -/
def WholeMesh.chunks (m : WholeMesh) (g2 : Bool) (mb lb : Bytes) (cs : List (List (BitVec 32 × BitVec 32))) : List Spec.Chunk :=
  [⟨0xB000, encW 2 (if g2 then 265 else 9 : BitVec 16) ++ (m.core.date.enc ++ (m.core.name ++ [10]))⟩,
   ⟨0xB010, m.core.bbox.enc ++ m.core.obb.enc⟩, ⟨0xB020, mb⟩, ⟨0xB026, lb⟩,
   ⟨0xB030, encW 4 (BitVec.ofNat 32 m.core.vertices.length) ++ (m.core.vertices.map Vec3.mem).flatten⟩,
   ⟨0xB040, encW 4 (BitVec.ofNat 32 m.core.features.length) ++ (m.core.features.map Feature.enc).flatten⟩,
   ⟨0xB050, encW 4 (BitVec.ofNat 32 m.core.geometry.length) ++ ((m.core.geometry.zip cs).map fun p => p.1.enc g2 p.2).flatten⟩,
   ⟨0xB060, []⟩]

theorem WholeMesh.save_ok (m : WholeMesh) (g : Game) (g2 : Bool) (hg : (g != .g1) = g2) (e e' : Ar.Env) (ord : List (Option Nat)) (mb lb : Bytes)
    (cs : List (List (BitVec 32 × BitVec 32)))
    (hmb : ∀ w : Ws, w.pos ≤ w.data.length → Material.saveCounted g e e' m.materials w = .ok (w.write mb))
    (hlb : ∀ w : Ws, w.pos ≤ w.data.length → m.saveShared ord w = .ok (w.write lb))
    (hc : m.core.geometry.mapM (m.core.corners g2) = .ok cs) (w : Ws) (hw : w.pos ≤ w.data.length) :
    m.save g e e' ord w = .ok (w.write (chunksBytes (m.chunks g2 mb lb cs))) := by
  have c1 := m.core.marker_emits g2
  have c2 : Emits m.core.saveBounds (m.core.bbox.enc ++ m.core.obb.enc) := (Emits.aabb m.core.bbox).comp (Obb.emits m.core.obb)
  have c3 : Emits m.core.saveVertices (encW 4 (BitVec.ofNat 32 m.core.vertices.length) ++ (m.core.vertices.map Vec3.mem).flatten) :=
    (Emits.u32 (BitVec.ofNat 32 m.core.vertices.length)).comp
      (Emits.foldl (fun (p : Vec3) w => w.vec3 p) Vec3.mem (fun p => Emits.vec3 p) m.core.vertices)
  have c4 : Emits m.core.saveFeatures (encW 4 (BitVec.ofNat 32 m.core.features.length) ++ (m.core.features.map Feature.enc).flatten) :=
    (Emits.u32 (BitVec.ofNat 32 m.core.features.length)).comp
    (Emits.foldl (fun (f : Feature) w => ((w.vec2 f.texture).u32 f.light).vec3 f.normal) Feature.enc
      (fun f => ((Emits.vec2 f.texture).comp (Emits.u32 f.light)).comp (Emits.vec3 f.normal)) m.core.features)
  have c5 : Emits (m.core.savePolygons g2 cs)
      (encW 4 (BitVec.ofNat 32 m.core.geometry.length) ++ ((m.core.geometry.zip cs).map fun p => p.1.enc g2 p.2).flatten) :=
    (Emits.u32 (BitVec.ofNat 32 m.core.geometry.length)).comp
    (Emits.foldl (fun (p : Poly × List (BitVec 32 × BitVec 32)) w => p.1.save g2 p.2 w) (fun p => p.1.enc g2 p.2)
      (fun p => Poly.emits g2 p.1 p.2) (m.core.geometry.zip cs))
  unfold WholeMesh.save
  dsimp only
  rw [hg, hc, Emits.chunk c1 w hw, Emits.chunk c2 _ (Ws.write_le _ _ hw), Ws.write_write _ _ _ hw]
  rw [writeChunkE_ok hmb _ (Ws.write_le _ _ hw), Ws.write_write _ _ _ hw]
  simp only [bind, Except.bind]
  rw [writeChunkE_ok hlb _ (Ws.write_le _ _ hw), Ws.write_write _ _ _ hw]
  dsimp only
  rw [Emits.chunk c3 _ (Ws.write_le _ _ hw), Ws.write_write _ _ _ hw, Emits.chunk c4 _ (Ws.write_le _ _ hw), Ws.write_write _ _ _ hw,
    Emits.chunk c5 _ (Ws.write_le _ _ hw), Ws.write_write _ _ _ hw, Emits.chunk Emits.id _ (Ws.write_le _ _ hw), Ws.write_write _ _ _ hw]
  simp only [chunks, chunksBytes, List.map_cons, List.map_nil, List.flatten_cons, List.flatten_nil, List.append_nil, List.append_assoc]
  rfl

/-- What a whole mesh becomes when it is saved and its chunks are loaded into `old`. -/
theorem WholeMesh.round_run (g : Game) (e e' : Ar.Env) (he : Obj.ClockOk e e') (m old : WholeMesh) (ord : List (Option Nat))
    (ho : m.Order ord) (hm : ∀ x ∈ m.materials, x.Plain) (hmn : m.materials.length < 10 ^ 9) (h10 : m.materials.length % 256 ≠ 10)
    (hln : m.lightmaps.length < 2 ^ 32) (hl : ∀ l ∈ m.lightmaps, ∃ t, m.picture l = some t ∧ t.Storable)
    (vs fs : List (BitVec 32))
    (hv : ∃ t, (if (g != .g1) = true then m.core.polygons.vertices else m.core.vertexIndices) = vs ++ t)
    (hf : ∃ t, (if (g != .g1) = true then m.core.polygons.features else m.core.featureIndices) = fs ++ t)
    (h : Props.MeshFits (g != .g1) m.core vs fs) :
    ∃ ts : List Texture, ord.mapM m.deref = .ok ts ∧ ts.length = ord.length ∧ ∃ bs : Bytes,
      (∀ w : Ws, w.pos ≤ w.data.length → m.save g e e' ord w = .ok (w.write bs)) ∧
      ∃ front : List Spec.Chunk, bs = chunksBytes (front ++ [⟨0xB060, []⟩]) ∧ front.length = 7 ∧ (∀ c ∈ front, c.type ≠ 0xB060) ∧
      (bs.length < 2 ^ 32 → ∃ version, ChunkRun (simpleCb (WholeMesh.onChunk false)) (old, 0) (front ++ [⟨0xB060, []⟩]) (
        { core := { m.core with geometry := m.core.geometry.map (Poly.kept (g != .g1)),
                                vertexIndices := old.core.vertexIndices ++ vs.map (keptIndex (g != .g1)),
                                featureIndices := old.core.featureIndices ++ fs, polygons := old.core.polygons }
          materials := Material.keptIn g old.materials m.materials
          images := old.images ++ ts
          lightmaps := old.lightmaps ++ m.lightmaps.map (LightMap.relink old.images.length ord) }, version)) := by
  have hd : ∀ i ∈ ord, ∃ t, m.deref i = .ok t ∧ t.Storable := by
    intro i hi
    obtain ⟨l, hl', rfl⟩ := (ho.mem i).1 hi
    obtain ⟨t, e, ht⟩ := hl l hl'
    refine ⟨t, ?_, ht⟩
    unfold WholeMesh.deref
    unfold WholeMesh.picture at e
    rw [e]
  obtain ⟨ts, ht, htl, hts⟩ : ∃ ts, ord.mapM m.deref = .ok ts ∧ ts.length = ord.length ∧ ∀ t ∈ ts, t.Storable := by
    have : ∀ os : List (Option Nat), (∀ i ∈ os, ∃ t, m.deref i = .ok t ∧ t.Storable) →
        ∃ ts, os.mapM m.deref = .ok ts ∧ ts.length = os.length ∧ ∀ t ∈ ts, t.Storable := by
      intro os
      induction os with
      | nil => intro _; exact ⟨[], rfl, rfl, by simp⟩
      | cons i os ih =>
        intro h
        obtain ⟨t, e1, s1⟩ := h i (by simp)
        obtain ⟨ts, e2, l2, s2⟩ := ih fun j hj => h j (List.mem_cons_of_mem _ hj)
        refine ⟨t :: ts, ?_, by simp [l2], ?_⟩
        · rw [List.mapM_cons, e1, e2]; rfl
        · intro u hu
          rcases List.mem_cons.1 hu with rfl | hu
          · exact s1
          · exact s2 u hu
    exact this ord hd
  refine ⟨ts, ht, htl, ?_⟩
  obtain ⟨mb, hmb, hmr⟩ := Props.c87_mesh_reload_partial g e e' he m.materials hm hmn h10
  have hc := Props.mesh_corners _ m.core vs fs hv hf h
  have sz := h.sizes
  simp only [Mesh.chunks, List.mem_cons, List.not_mem_nil, or_false, forall_eq_or_imp, forall_eq] at sz
  obtain ⟨z1, z2, z3, z4, z5, z6⟩ := sz
  generalize hg : (g != Game.g1) = g2 at *
  refine ⟨_, fun w hw => m.save_ok g g2 hg e e' ord mb _ _ hmb (fun w hw => m.saveShared_ok ord ho ts ht w hw) hc w hw,
    (m.chunks g2 mb _ _).take 7, rfl, rfl, by unfold chunks; simp only [List.take_succ_cons, List.take_zero]; simp, ?_⟩
  intro hb
  have hsub : mb.length < 2 ^ 32 ∧ (m.lightBytes ord ts).length < 2 ^ 32 := by
    simp only [chunks, chunksBytes, List.map_cons, List.flatten_cons, List.length_append, chunkBytes_length] at hb
    omega
  have hver : ((if g2 then 265 else 9 : BitVec 16) == 265) = g2 := by cases g2 <;> rfl
  unfold WholeMesh.chunks
  generalize (if g2 then 265 else 9 : BitVec 16) = ver at *
  obtain ⟨r1, r2, r3, r4, r5, r6⟩ := Props.mesh_chunks g2 m.core vs fs h ver hver
  have rm : ∀ x : WholeMesh, Reads (WholeMesh.onChunk false (x, ver) 0xB020) mb
      (({ x with materials := Material.keptIn g x.materials m.materials }, ver), false) := by
    intro x
    show Reads (WholeMesh.onChunkV false x ver _) _ _
    unfold WholeMesh.onChunkV
    rw [if_pos rfl]
    exact (hmr hsub.1 _).bind_pure
  have rl : ∀ x : WholeMesh, Reads (WholeMesh.onChunk false (x, ver) 0xB026) (m.lightBytes ord ts)
      (({ x with images := x.images ++ ts, lightmaps := x.lightmaps ++ m.lightmaps.map (LightMap.relink x.images.length ord) }, ver), false) := by
    intro x
    show Reads (WholeMesh.onChunkV false x ver _) _ _
    unfold WholeMesh.onChunkV
    rw [if_neg (by decide), if_pos rfl]
    exact (m.loadShared_reads x ord ho ts htl hts hln).bind_pure
  have run : ChunkRun (simpleCb (WholeMesh.onChunk false)) (old, 0) _ _ :=
    (.step (Handles.of_reads' (WholeMesh.lift (r1 _ _) (by decide) (by decide) (by decide)) z1)
    (.step (Handles.of_reads' (WholeMesh.lift (r2 _) (by decide) (by decide) (by decide)) z2)
    (.step (Handles.of_reads' (rm _) hsub.1)
    (.step (Handles.of_reads' (rl _) hsub.2)
    (.step (Handles.of_reads' (WholeMesh.lift (r3 _) (by decide) (by decide) (by decide)) z3)
    (.step (Handles.of_reads' (WholeMesh.lift (r4 _) (by decide) (by decide) (by decide)) z4)
    (.step (Handles.of_reads' (WholeMesh.lift (r5 _) (by decide) (by decide) (by decide)) z5)
    (.last (Handles.of_reads' (WholeMesh.lift (r6 _) (by decide) (by decide) (by decide)) z6)))))))))
  exact ⟨_, run⟩

/-- What a whole mesh becomes when it is saved and loaded into `old`. -/
theorem WholeMesh.round_trip (g : Game) (e e' : Ar.Env) (he : Obj.ClockOk e e') (m old : WholeMesh) (ord : List (Option Nat))
    (ho : m.Order ord) (hm : ∀ x ∈ m.materials, x.Plain) (hmn : m.materials.length < 10 ^ 9) (h10 : m.materials.length % 256 ≠ 10)
    (hln : m.lightmaps.length < 2 ^ 32) (hl : ∀ l ∈ m.lightmaps, ∃ t, m.picture l = some t ∧ t.Storable)
    (vs fs : List (BitVec 32))
    (hv : ∃ t, (if (g != .g1) = true then m.core.polygons.vertices else m.core.vertexIndices) = vs ++ t)
    (hf : ∃ t, (if (g != .g1) = true then m.core.polygons.features else m.core.featureIndices) = fs ++ t)
    (h : Props.MeshFits (g != .g1) m.core vs fs) :
    ∃ ts : List Texture, ord.mapM m.deref = .ok ts ∧ ts.length = ord.length ∧ ∃ bs : Bytes,
      (∀ w : Ws, w.pos ≤ w.data.length → m.save g e e' ord w = .ok (w.write bs)) ∧
      (bs.length < 2 ^ 32 → Reads (WholeMesh.load false old) bs
        { core := { m.core with geometry := m.core.geometry.map (Poly.kept (g != .g1)),
                                vertexIndices := old.core.vertexIndices ++ vs.map (keptIndex (g != .g1)),
                                featureIndices := old.core.featureIndices ++ fs, polygons := old.core.polygons }
          materials := Material.keptIn g old.materials m.materials
          images := old.images ++ ts
          lightmaps := old.lightmaps ++ m.lightmaps.map (LightMap.relink old.images.length ord) }) ∧
      ∃ front : List Spec.Chunk, bs = chunksBytes (front ++ [⟨0xB060, []⟩]) ∧ front.length = 7 ∧ ∀ c ∈ front, c.type ≠ 0xB060 := by
  obtain ⟨ts, ht, htl, bs, hs, front, rfl, hf7, hft, hr⟩ := WholeMesh.round_run g e e' he m old ord ho hm hmn h10 hln hl vs fs hv hf h
  refine ⟨ts, ht, htl, _, hs, fun hb => ?_, front, rfl, hf7, hft⟩
  obtain ⟨v, run⟩ := hr hb
  exact (Reads.chunked run).bind_pure

end Verif
