import Verif.Lemmas.WholeMesh

/-! # Properties of whole meshes: C88 -/

namespace Verif.Props

open Obj (Material Game)
open Tex (Texture)

theorem mapM_deref (m : WholeMesh) : ∀ (os : List (Option Nat)) (ts : List Texture), os.mapM m.deref = .ok ts →
    ∀ (k : Nat) i, os[k]? = some i → ts[k]? = (i.bind fun j => m.images[j]?) ∧ (ts[k]?).isSome := by
  intro os
  induction os with
  | nil => intro ts _ k i h; simp at h
  | cons o os ih =>
    intro ts h k i hk
    rw [List.mapM_cons] at h
    cases ho : m.deref o with
    | error e => rw [ho] at h; cases h
    | ok t =>
      cases hr : os.mapM m.deref with
      | error e => rw [ho, hr] at h; cases h
      | ok us =>
        rw [ho, hr] at h
        cases h
        cases k with
        | zero =>
          simp only [List.getElem?_cons_zero, Option.some.injEq] at hk
          subst hk
          unfold WholeMesh.deref at ho
          split at ho
          · rename_i u e
            cases ho
            exact ⟨e.symm, rfl⟩
          · cases ho
        | succ k =>
          rw [List.getElem?_cons_succ] at hk ⊢
          exact ih us hr k i hk

/-- Light maps that are linked to the images in the order of the file are the same light maps. -/
theorem sameLight (m m' : WholeMesh) (ord : List (Option Nat)) (ho : m.Order ord) (ts : List Texture) (ht : ord.mapM m.deref = .ok ts)
    (front : List Texture) (hi : m'.images = front ++ ts) (hl : m'.lightmaps = m.lightmaps.map (LightMap.relink front.length ord)) :
    SameLight m m' := by
  have get : ∀ (k : Nat) l l', m.lightmaps[k]? = some l → m'.lightmaps[k]? = some l' → l' = l.relink front.length ord ∧ l ∈ m.lightmaps := by
    intro k l l' h h'
    rw [hl, List.getElem?_map, h] at h'
    exact ⟨(Option.some.inj h').symm, List.mem_of_getElem? h⟩
  refine ⟨by rw [hl, List.length_map], ?_, ?_⟩
  · intro k l l' h h'
    obtain ⟨rfl, hm⟩ := get k l l' h h'
    have hmem : l.image ∈ ord := (ho.mem _).2 ⟨l, hm, rfl⟩
    have hlt := List.idxOf_lt_length_of_mem hmem
    have := mapM_deref m ord ts ht (ord.idxOf l.image) l.image (by rw [List.getElem?_eq_getElem hlt, List.getElem_idxOf])
    have hp : m'.picture (l.relink front.length ord) = ts[ord.idxOf l.image]? := by
      show (m'.images)[front.length + ord.idxOf l.image]? = _
      rw [hi, List.getElem?_append_right (by omega), Nat.add_sub_cancel_left]
    refine ⟨rfl, rfl, rfl, ?_, ?_⟩
    · rw [hp]; exact this.2
    · rw [hp]; exact this.1
  · intro j k a b a' b' h1 h2 h1' h2'
    obtain ⟨rfl, ha⟩ := get j a a' h1 h1'
    obtain ⟨rfl, hb⟩ := get k b b' h2 h2'
    have hma : a.image ∈ ord := (ho.mem _).2 ⟨a, ha, rfl⟩
    have hmb : b.image ∈ ord := (ho.mem _).2 ⟨b, hb, rfl⟩
    constructor
    · intro h
      have h' : ord.idxOf a.image = ord.idxOf b.image := by
        have := Option.some.inj (show some _ = some _ from h)
        omega
      have e1 := List.getElem_idxOf (List.idxOf_lt_length_of_mem hma)
      have e2 := List.getElem_idxOf (List.idxOf_lt_length_of_mem hmb)
      rw [← e1, ← e2]
      simp only [h']
    · intro h
      show some _ = some _
      rw [h]

/-- **C88** — a mesh that is saved and loaded into an object without light maps and corners has its geometry (with the limits of C73), its
materials (with those of C87; if the object had materials, none of them is left, but see `Material.keptOver`) and its light maps: each at
its place with its picture, and sharing images as before, in whatever order the images were saved.
Missing: see C73 and C87, and light maps without an image (`c88_null_violation`). -/
theorem c88_partial (g : Game) (e e' : Ar.Env) (he : Obj.ClockOk e e') (m old : WholeMesh) (ord : List (Option Nat)) (ho : m.Order ord)
    (hm : ∀ x ∈ m.materials, x.Plain) (hmn : m.materials.length < 10 ^ 9) (h10 : m.materials.length % 256 ≠ 10)
    (hln : m.lightmaps.length < 2 ^ 32) (hl : ∀ l ∈ m.lightmaps, ∃ t, m.picture l = some t ∧ t.Storable)
    (h : MeshFits (g != .g1) m.core m.core.vertexIndices m.core.featureIndices)
    (h1 : g = .g1 → ∀ v ∈ m.core.vertexIndices, v.toNat < 2 ^ 16)
    (h2 : g = .g2 → m.core.polygons.vertices = m.core.vertexIndices ∧ m.core.polygons.features = m.core.featureIndices)
    (hold : old.lightmaps = [] ∧ old.core.vertexIndices = [] ∧ old.core.featureIndices = [])
    (w : Ws) (hw : w.pos ≤ w.data.length) (post : Bytes) :
    ∃ w', m.save g e e' ord w = .ok w' ∧ (w'.pos < w.pos + 2 ^ 32 →
      ∃ m', WholeMesh.load false old ⟨w'.data ++ post, w.pos⟩ = .ok (m', ⟨w'.data ++ post, w'.pos⟩) ∧
        m'.core = { m.core with geometry := m.core.geometry.map (Poly.kept (g != .g1)), polygons := old.core.polygons } ∧
        m'.materials = Material.keptIn g old.materials m.materials ∧
        (old.materials = [] ∨ g = .g2 → m'.materials = m.materials.map (Material.kept g)) ∧ SameLight m m') := by
  obtain ⟨o2, o3, o4⟩ := hold
  have hv : ∃ t, (if (g != .g1) = true then m.core.polygons.vertices else m.core.vertexIndices) = m.core.vertexIndices ++ t := by
    cases g
    · exact ⟨[], (List.append_nil _).symm⟩
    · exact ⟨[], (if_pos (by decide)).trans (by rw [(h2 rfl).1, List.append_nil])⟩
  have hf : ∃ t, (if (g != .g1) = true then m.core.polygons.features else m.core.featureIndices) = m.core.featureIndices ++ t := by
    cases g
    · exact ⟨[], (List.append_nil _).symm⟩
    · exact ⟨[], (if_pos (by decide)).trans (by rw [(h2 rfl).2, List.append_nil])⟩
  obtain ⟨ts, ht, htl, bs, hs, hr, -⟩ := WholeMesh.round_trip g e e' he m old ord ho hm hmn h10 hln hl _ _ hv hf h
  refine ⟨_, hs w hw, fun hp => ?_⟩
  have hk : m.core.vertexIndices.map (keptIndex (g != .g1)) = m.core.vertexIndices := by
    cases g
    · rw [List.map_congr_left (g := id), List.map_id]
      intro v hv
      show (v.setWidth 16).setWidth 32 = v
      apply BitVec.eq_of_toNat_eq
      have := h1 rfl v hv
      simp only [BitVec.toNat_setWidth]
      omega
    · exact List.map_id _
  refine ⟨_, Reads.of_write (hr ?_) w hw post, ?_, rfl, ?_, ?_⟩
  · simp only [Ws.write] at hp
    omega
  · dsimp only
    rw [o3, o4, hk]
    rfl
  · rintro (h | rfl)
    · exact (congrArg (Material.keptIn g · m.materials) h).trans (Material.keptIn_nil g _)
    · exact Material.keptIn_g2 _ _
  · exact sameLight m _ ord ho ts ht old.images rfl (by rw [o2]; rfl)

/-- **C88** fails for light maps without an image, which a program can make: saving follows the null pointer. -/
theorem c88_null_violation (g : Game) (e e' : Ar.Env) (he : Obj.ClockOk e e') (m : WholeMesh) (ord : List (Option Nat)) (ho : m.Order ord)
    (hm : ∀ x ∈ m.materials, x.Plain) (hmn : m.materials.length < 10 ^ 9) (h10 : m.materials.length % 256 ≠ 10)
    (l : LightMap) (hl : l ∈ m.lightmaps) (hn : l.image = none) (w : Ws) (hw : w.pos ≤ w.data.length) :
    m.save g e e' ord w = .error .ub := by
  obtain ⟨mb, hmb, -⟩ := c87_mesh_partial g e e' he m.materials hm hmn h10
  have hub : ∀ (i : Option Nat) f, m.deref i = .error f → f = .ub := by
    intro i f h
    unfold WholeMesh.deref at h
    split at h <;> cases h
    rfl
  have hd : ord.mapM m.deref = .error .ub := by
    have hmem : none ∈ ord := (ho.mem _).2 ⟨l, hl, hn⟩
    clear ho
    induction ord with
    | nil => cases hmem
    | cons o os ih =>
      rw [List.mapM_cons]
      cases hdo : m.deref o with
      | error f => rw [hub o f hdo]; rfl
      | ok t =>
        rcases List.mem_cons.1 hmem with rfl | hmem
        · cases hdo
        · rw [ih hmem]; rfl
  have c1 := m.core.marker_emits (g != .g1)
  have c2 : Emits m.core.saveBounds (m.core.bbox.enc ++ m.core.obb.enc) := (Emits.aabb m.core.bbox).comp (Obb.emits m.core.obb)
  unfold WholeMesh.save
  dsimp only
  rw [Emits.chunk c1 w hw, Emits.chunk c2 _ (Ws.write_le _ _ hw), Ws.write_write _ _ _ hw,
    writeChunkE_ok hmb _ (Ws.write_le _ _ hw)]
  simp only [bind, Except.bind]
  rw [writeChunkE_error (e := .ub) (fun w => by unfold WholeMesh.saveShared; rw [hd]; rfl)]

/-- **C88** fails for an object that has light maps: those of the file are added to them, while the polygons of the file mean the first
ones. -/
theorem c88_reload_violation (g : Game) (e e' : Ar.Env) (he : Obj.ClockOk e e') (m old : WholeMesh) (ord : List (Option Nat)) (ho : m.Order ord)
    (hm : ∀ x ∈ m.materials, x.Plain) (hmn : m.materials.length < 10 ^ 9) (h10 : m.materials.length % 256 ≠ 10)
    (hln : m.lightmaps.length < 2 ^ 32) (hl : ∀ l ∈ m.lightmaps, ∃ t, m.picture l = some t ∧ t.Storable)
    (h : MeshFits (g != .g1) m.core m.core.vertexIndices m.core.featureIndices)
    (h2 : g = .g2 → m.core.polygons.vertices = m.core.vertexIndices ∧ m.core.polygons.features = m.core.featureIndices)
    (w : Ws) (hw : w.pos ≤ w.data.length) (post : Bytes) :
    ∃ w', m.save g e e' ord w = .ok w' ∧ (w'.pos < w.pos + 2 ^ 32 →
      ∃ m' s, WholeMesh.load false old ⟨w'.data ++ post, w.pos⟩ = .ok (m', s) ∧
        m'.lightmaps.length = old.lightmaps.length + m.lightmaps.length ∧ m'.lightmaps.take old.lightmaps.length = old.lightmaps ∧
        m'.core.geometry.map (·.lightmap) = m.core.geometry.map (·.lightmap)) := by
  have hv : ∃ t, (if (g != .g1) = true then m.core.polygons.vertices else m.core.vertexIndices) = m.core.vertexIndices ++ t := by
    cases g
    · exact ⟨[], (List.append_nil _).symm⟩
    · exact ⟨[], (if_pos (by decide)).trans (by rw [(h2 rfl).1, List.append_nil])⟩
  have hf : ∃ t, (if (g != .g1) = true then m.core.polygons.features else m.core.featureIndices) = m.core.featureIndices ++ t := by
    cases g
    · exact ⟨[], (List.append_nil _).symm⟩
    · exact ⟨[], (if_pos (by decide)).trans (by rw [(h2 rfl).2, List.append_nil])⟩
  obtain ⟨ts, ht, htl, bs, hs, hr, -⟩ := WholeMesh.round_trip g e e' he m old ord ho hm hmn h10 hln hl _ _ hv hf h
  refine ⟨_, hs w hw, fun hp => ⟨_, _, Reads.of_write (hr ?_) w hw post, ?_, ?_, ?_⟩⟩
  · simp only [Ws.write] at hp
    omega
  · simp
  · simp
  · simp [Function.comp_def, Poly.kept]

/-! ## Files of the games -/

/-- A light map in a file: its place and the number of its image. -/
structure FileMap where
  origin : Vec3
  normalA : Vec3
  normalB : Vec3
  image : BitVec 32

def FileMap.enc (x : FileMap) : Bytes := x.origin.mem ++ (x.normalA.mem ++ (x.normalB.mem ++ encW 4 x.image))

/-- C88, chunk of shared light maps as any program may write it: every light map gets the picture with its number, and two of them share
an image exactly if they have the same number. -/
theorem c88_shared (m : WholeMesh) (ts : List Texture) (xs : List FileMap) (ht : ∀ t ∈ ts, t.Storable) (hx : ∀ x ∈ xs, x.image.toNat < ts.length)
    (hn : ts.length < 2 ^ 32) (hn' : xs.length < 2 ^ 32) :
    ∃ m', Reads m.loadShared (encW 4 (BitVec.ofNat 32 ts.length) ++ ((ts.map Texture.enc).flatten ++
        (encW 4 (BitVec.ofNat 32 xs.length) ++ (xs.map FileMap.enc).flatten))) m' ∧
      m'.core = m.core ∧ m'.materials = m.materials ∧
      ∃ ls, m'.lightmaps = m.lightmaps ++ ls ∧ ls.length = xs.length ∧
        (∀ (k : Nat) x l, xs[k]? = some x → ls[k]? = some l → l.origin = x.origin ∧ l.normalA = x.normalA ∧ l.normalB = x.normalB ∧
          m'.picture l = ts[x.image.toNat]?) ∧
        (∀ (j k : Nat) x y a b, xs[j]? = some x → xs[k]? = some y → ls[j]? = some a → ls[k]? = some b → (a.image = b.image ↔ x.image = y.image)) := by
  have n1 : (BitVec.ofNat 32 ts.length).toNat = ts.length := by rw [BitVec.toNat_ofNat, Nat.mod_eq_of_lt hn]
  have n2 : (BitVec.ofNat 32 xs.length).toNat = xs.length := by rw [BitVec.toNat_ofNat, Nat.mod_eq_of_lt hn']
  let f : FileMap → LightMap := fun x => ⟨some (m.images.length + x.image.toNat), x.normalA, x.normalB, x.origin⟩
  have hf : ∀ x ∈ xs, Reads (LightMap.loadShared m.images.length ts.length) x.enc (f x) := by
    intro x hxm
    have hp : LightMap.pick m.images.length ts.length x.origin x.normalA x.normalB x.image = pure (f x) := by
      unfold LightMap.pick
      rw [if_pos (hx x hxm)]
    have h2 : Reads (do let i ← Rd.u32; LightMap.pick m.images.length ts.length x.origin x.normalA x.normalB i)
        (encW 4 x.image ++ []) (f x) := by
      refine (Reads.u32 _).bind ?_
      rw [hp]
      exact Reads.pure _
    rw [List.append_nil] at h2
    exact (Reads.vec3 _).bind ((Reads.vec3 _).bind ((Reads.vec3 _).bind h2))
  refine ⟨{ m with images := m.images ++ ts, lightmaps := m.lightmaps ++ xs.map f }, ?_, rfl, rfl, xs.map f, rfl, List.length_map _, ?_, ?_⟩
  · unfold WholeMesh.loadShared
    refine (Reads.u32 _).bind ?_
    rw [n1]
    refine (Reads.times (p := Texture.load {}) (enc := Texture.enc) ts fun t h => (ht t h).reads).bind ((Reads.u32 _).bind ?_)
    rw [n2]
    exact (Reads.timesMap (f := f) xs hf).bind_pure
  · intro k x l h h'
    rw [List.getElem?_map, h] at h'
    obtain rfl := Option.some.inj h'
    refine ⟨rfl, rfl, rfl, ?_⟩
    show (m.images ++ ts)[m.images.length + x.image.toNat]? = _
    rw [List.getElem?_append_right (by omega), Nat.add_sub_cancel_left]
  · intro j k x y a b h1 h2 h1' h2'
    rw [List.getElem?_map, h1] at h1'
    rw [List.getElem?_map, h2] at h2'
    obtain rfl := Option.some.inj h1'
    obtain rfl := Option.some.inj h2'
    show some _ = some _ ↔ _
    constructor
    · intro h
      have := Option.some.inj h
      exact BitVec.eq_of_toNat_eq (by omega)
    · intro h
      rw [h]

/-- C88 fails: a number that is too large is not rejected, the vector of the images is accessed out of bounds. -/
theorem c88_index_violation (m : WholeMesh) (ts : List Texture) (x : FileMap) (ht : ∀ t ∈ ts, t.Storable) (hx : ts.length ≤ x.image.toNat) :
    Fails m.loadShared (encW 4 (BitVec.ofNat 32 ts.length) ++ ((ts.map Texture.enc).flatten ++ (encW 4 (1 : BitVec 32) ++ x.enc))) .ub := by
  have hn : ts.length < 2 ^ 32 := Nat.lt_of_le_of_lt hx x.image.isLt
  have n1 : (BitVec.ofNat 32 ts.length).toNat = ts.length := by rw [BitVec.toNat_ofNat, Nat.mod_eq_of_lt hn]
  have hp : Fails (LightMap.loadShared m.images.length ts.length) x.enc .ub := by
    have h2 : Fails (do let i ← Rd.u32; LightMap.pick m.images.length ts.length x.origin x.normalA x.normalB i) (encW 4 x.image ++ []) .ub := by
      refine (Reads.u32 _).then_fails ?_
      intro pre post
      unfold LightMap.pick
      rw [if_neg (by omega)]
      rfl
    rw [List.append_nil] at h2
    exact (Reads.vec3 _).then_fails ((Reads.vec3 _).then_fails ((Reads.vec3 _).then_fails h2))
  unfold WholeMesh.loadShared
  refine (Reads.u32 _).then_fails ?_
  rw [n1]
  refine (Reads.times (p := Texture.load {}) (enc := Texture.enc) ts fun t h => (ht t h).reads).then_fails ((Reads.u32 _).then_fails ?_)
  exact Fails.bind (Fails.bind hp)

/-- A light map with its own image in a file. -/
structure FileOwn where
  origin : Vec3
  normalA : Vec3
  normalB : Vec3
  image : Texture

def FileOwn.enc (x : FileOwn) : Bytes := x.origin.mem ++ (x.normalA.mem ++ (x.normalB.mem ++ x.image.enc))

/-- C88, chunk of light maps with their own images: every light map gets its picture and none share theirs. -/
theorem c88_own (m : WholeMesh) (xs : List FileOwn) (ht : ∀ x ∈ xs, x.image.Storable) (hn : xs.length < 2 ^ 32) :
    ∃ m', Reads m.loadOwn (encW 4 (BitVec.ofNat 32 xs.length) ++ (xs.map FileOwn.enc).flatten) m' ∧
      m'.core = m.core ∧ m'.materials = m.materials ∧
      ∃ ls, m'.lightmaps = m.lightmaps ++ ls ∧ ls.length = xs.length ∧
        (∀ (k : Nat) x l, xs[k]? = some x → ls[k]? = some l → l.origin = x.origin ∧ l.normalA = x.normalA ∧ l.normalB = x.normalB ∧
          m'.picture l = some x.image) ∧
        (∀ (j k : Nat) a b, ls[j]? = some a → ls[k]? = some b → (a.image = b.image ↔ j = k)) := by
  have n2 : (BitVec.ofNat 32 xs.length).toNat = xs.length := by rw [BitVec.toNat_ofNat, Nat.mod_eq_of_lt hn]
  let f : FileOwn → (Vec3 × Vec3 × Vec3) × Texture := fun x => ((x.origin, x.normalA, x.normalB), x.image)
  have hf : ∀ x ∈ xs, Reads LightMap.loadOwn x.enc (f x) := fun x hx =>
    (Reads.vec3 _).bind ((Reads.vec3 _).bind ((Reads.vec3 _).bind (ht x hx).reads.bind_pure))
  have hnum : ∀ (xs : List FileOwn) (base : Nat), (LightMap.number base (xs.map f)).length = xs.length ∧
      ∀ k : Nat, (LightMap.number base (xs.map f))[k]? = (xs[k]?).map fun x => ⟨some (base + k), x.normalA, x.normalB, x.origin⟩ := by
    intro xs
    induction xs with
    | nil => intro base; exact ⟨rfl, fun k => by simp [LightMap.number]⟩
    | cons x xs ih =>
      intro base
      obtain ⟨i1, i2⟩ := ih (base + 1)
      refine ⟨by simp [LightMap.number, f, i1], fun k => ?_⟩
      cases k with
      | zero => simp [LightMap.number, f]
      | succ k =>
        simp only [List.map_cons, f, LightMap.number, List.getElem?_cons_succ]
        rw [i2 k]
        rw [show base + (k + 1) = base + 1 + k by omega]
  obtain ⟨l1, l2⟩ := hnum xs m.images.length
  refine ⟨{ m with images := m.images ++ (xs.map f).map (·.2), lightmaps := m.lightmaps ++ LightMap.number m.images.length (xs.map f) },
    ?_, rfl, rfl, _, rfl, l1, ?_, ?_⟩
  · unfold WholeMesh.loadOwn
    refine (Reads.u32 _).bind ?_
    rw [n2]
    exact (Reads.timesMap (f := f) xs hf).bind_pure
  · intro k x l h h'
    rw [l2 k, h] at h'
    obtain rfl := Option.some.inj h'
    refine ⟨rfl, rfl, rfl, ?_⟩
    show (m.images ++ (xs.map f).map (·.2))[m.images.length + k]? = _
    rw [List.getElem?_append_right (by omega), Nat.add_sub_cancel_left, List.map_map, List.getElem?_map, h]
    rfl
  · intro j k a b h1 h2
    rw [l2 j] at h1
    rw [l2 k] at h2
    obtain ⟨x, -, rfl⟩ := Option.map_eq_some_iff.1 h1
    obtain ⟨y, -, rfl⟩ := Option.map_eq_some_iff.1 h2
    simp

/-! ## A mesh with two light maps that share an image and a third with another one -/

def lampImage (r : Byte) : Texture :=
  { format := Tex.r8g8b8a8, width := 1, height := 1, refWidth := 1, refHeight := 1, mipmaps := 1, textures := [[r, 0, 0, 255]] }

theorem lampImage_storable (r : Byte) : (lampImage r).Storable where
  levels := by show (1 : BitVec 32) ≠ 0; decide
  sized := ⟨rfl, fun i m h => by
    match i, h with
    | 0, h => cases h; exact ⟨.pixel 4, rfl, by show 4 = Tex.Layout.bytes (Tex.levelSide 1 0) (Tex.levelSide 1 0) (.pixel 4); decide, by show 4 < 2 ^ 32; decide⟩⟩
  whole := fun level _ lay h => by cases h; trivial
  palette := List.length_replicate
  noPalette := fun _ => rfl

def litMesh : WholeMesh where
  core := demoTriangles
  materials := [wood, stone]
  images := [lampImage 1, lampImage 2, lampImage 3]
  lightmaps := [⟨some 2, ⟨0, 0, 0⟩, ⟨0, 0, 0⟩, ⟨0, 0, 0⟩⟩, ⟨some 0, ⟨0, 0, 0⟩, ⟨0, 0, 0⟩, ⟨1, 0, 0⟩⟩, ⟨some 2, ⟨0, 0, 0⟩, ⟨0, 0, 0⟩, ⟨2, 0, 0⟩⟩]

theorem litMesh_order : litMesh.Order [some 0, some 2] where
  nodup := by decide
  mem := by
    intro i
    simp only [litMesh, List.mem_cons, List.not_mem_nil, or_false, exists_eq_or_imp, exists_eq_left]
    constructor
    · rintro (rfl | rfl) <;> simp
    · rintro (h | h | h) <;> simp [← h]

theorem litMesh_pictures : ∀ l ∈ litMesh.lightmaps, ∃ t, litMesh.picture l = some t ∧ t.Storable := by
  simp only [litMesh, List.forall_mem_cons]
  exact ⟨⟨_, rfl, lampImage_storable 3⟩, ⟨_, rfl, lampImage_storable 1⟩, ⟨_, rfl, lampImage_storable 3⟩, by simp⟩

theorem litMesh_fits : MeshFits (Game.g2 != .g1) litMesh.core litMesh.core.vertexIndices litMesh.core.featureIndices :=
  ⟨by decide, by simp [litMesh, demoTriangles, demoMesh, Obb.Small, Obb.SmallMany], by decide, ⟨rfl, rfl, trivial⟩, by decide, by decide,
   by decide, by decide, by decide, by decide, by decide +kernel⟩

end Verif.Props
