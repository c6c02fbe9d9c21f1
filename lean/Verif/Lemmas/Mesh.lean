import Verif.Spec.Mesh
import Verif.Lemmas.Line
import Verif.Lemmas.Chunked
import Verif.Lemmas.Boxes
import Verif.Lemmas.Bsp
import Verif.Lemmas.Font
import Verif.Lemmas.Times

/-! # Lemmas about meshes -/

namespace Verif

/-! ## Binary search -/

theorem lowerBound_spec (l : List (BitVec 32)) (x : BitVec 32) (hs : l.Pairwise fun a b => a.toNat ≤ b.toNat) :
    ∀ fuel first len, len ≤ fuel → first + len ≤ l.length →
      (∀ j (h : j < l.length), j < first → l[j].toNat < x.toNat) →
      (∀ j (h : j < l.length), first + len ≤ j → x.toNat ≤ l[j].toNat) →
      (∀ j (h : j < l.length), j < lowerBound l x fuel first len → l[j].toNat < x.toNat) ∧
      (∀ j (h : j < l.length), lowerBound l x fuel first len ≤ j → x.toNat ≤ l[j].toNat) := by
  intro fuel
  induction fuel with
  | zero =>
    intro first len hf hl h1 h2
    have : len = 0 := by omega
    subst this
    exact ⟨h1, by simpa [lowerBound] using h2⟩
  | succ fuel ih =>
    intro first len hf hl h1 h2
    unfold lowerBound
    by_cases h0 : len = 0
    · subst h0
      rw [if_pos rfl]
      exact ⟨h1, by simpa using h2⟩
    · rw [if_neg h0]
      have hlt : first + len / 2 < l.length := by omega
      dsimp only
      rw [List.getElem?_eq_getElem hlt]
      dsimp only
      by_cases hy : l[first + len / 2] < x
      · rw [if_pos hy]
        refine ih _ _ (by omega) (by omega) ?_ ?_
        · intro j h hj
          rcases Nat.lt_or_ge j (first + len / 2) with h' | h'
          · have := (List.pairwise_iff_getElem.1 hs) j (first + len / 2) h hlt h'
            have := BitVec.lt_def.1 hy
            omega
          · have : j = first + len / 2 := by omega
            subst this
            exact BitVec.lt_def.1 hy
        · intro j h hj
          exact h2 j h (by omega)
      · rw [if_neg hy]
        refine ih _ _ (by omega) (by omega) h1 ?_
        intro j h hj
        have hy' : x.toNat ≤ (l[first + len / 2]).toNat := by
          rw [BitVec.lt_def] at hy; omega
        rcases Nat.lt_or_ge (first + len / 2) j with h' | h'
        · have := (List.pairwise_iff_getElem.1 hs) (first + len / 2) j hlt h h'
          omega
        · have : j = first + len / 2 := by omega
          subst this
          exact hy'

/-- In a sorted list the search finds exactly the members. -/
theorem binarySearch_iff (l : List (BitVec 32)) (x : BitVec 32) (hs : l.Pairwise fun a b => a.toNat ≤ b.toNat) :
    binarySearch l x = true ↔ x ∈ l := by
  obtain ⟨h1, h2⟩ := lowerBound_spec l x hs l.length 0 l.length (Nat.le_refl _) (by omega) (by intro j _ h; omega)
    (by intro j h hj; omega)
  unfold binarySearch
  generalize lowerBound l x l.length 0 l.length = r at *
  by_cases hr : r < l.length
  · rw [List.getElem?_eq_getElem hr]
    have hle := h2 r hr (Nat.le_refl _)
    simp only [Bool.not_eq_true', decide_eq_false_iff_not]
    constructor
    · intro h
      rw [BitVec.lt_def] at h
      have : x = l[r] := BitVec.eq_of_toNat_eq (by omega)
      rw [this]; exact List.getElem_mem hr
    · intro hm
      obtain ⟨j, hj, e⟩ := List.mem_iff_getElem.1 hm
      rw [BitVec.lt_def]
      have hge : r ≤ j := by
        rcases Nat.lt_or_ge j r with h | h
        · have := h1 j hj h; rw [e] at this; omega
        · exact h
      rcases Nat.lt_or_ge r j with h | h
      · have := (List.pairwise_iff_getElem.1 hs) r j hr hj h
        rw [e] at this; omega
      · have : r = j := by omega
        subst this
        rw [e]; omega
  · rw [List.getElem?_eq_none (by omega)]
    constructor
    · intro h; cases h
    · intro hm
      obtain ⟨j, hj, e⟩ := List.mem_iff_getElem.1 hm
      have := h1 j hj (by omega)
      rw [e] at this; omega

/-! ## Fans -/

theorem fanFrom_cons (r x y : BitVec 32) (t : List (BitVec 32)) : fanFrom r (x :: y :: t) = [r, x, y] ++ fanFrom r (y :: t) := rfl

theorem slice_length (p : Poly) (l : List (BitVec 32)) (h : p.indexOffset + p.indexCount ≤ l.length) :
    (p.slice l).length = p.indexCount := by simp [Poly.slice]; omega

theorem at?_slice (p : Poly) (l : List (BitVec 32)) (h : p.indexOffset + p.indexCount ≤ l.length) (i : Nat) (hi : i < p.indexCount) :
    at? l (p.indexOffset + i) = .ok ((p.slice l)[i]'(by rw [slice_length p l h]; exact hi)) := by
  unfold at?
  rw [List.getElem?_eq_getElem (by omega)]
  simp [Poly.slice]

theorem drop_two {α} (l : List α) (a : Nat) (h : a + 1 < l.length) :
    l.drop a = l[a] :: l[a + 1] :: l.drop (a + 2) := by
  rw [List.drop_eq_getElem_cons (by omega), List.drop_eq_getElem_cons h]

theorem fan_eq (m : Mesh) (p : Poly) (hv : p.indexOffset + p.indexCount ≤ m.vertexIndices.length)
    (hf : p.indexOffset + p.indexCount ≤ m.featureIndices.length) (h0 : 0 < p.indexCount) : ∀ fuel a out,
    p.indexCount ≤ fuel + a + 1 →
    m.fan p fuel a (a + 1) out = .ok
      { materials := out.materials ++ List.replicate (p.indexCount - (a + 1)) p.material
        lightmaps := out.lightmaps ++ List.replicate (p.indexCount - (a + 1)) p.lightmap
        features := out.features ++ fanFrom ((p.slice m.featureIndices)[0]'(by rw [slice_length p _ hf]; exact h0))
          ((p.slice m.featureIndices).drop a)
        vertices := out.vertices ++ fanFrom ((p.slice m.vertexIndices)[0]'(by rw [slice_length p _ hv]; exact h0))
          ((p.slice m.vertexIndices).drop a)
        flags := out.flags ++ List.replicate (p.indexCount - (a + 1)) p.flags } := by
  intro fuel
  have hend : ∀ a out, p.indexCount ≤ a + 1 → out =
      { materials := out.materials ++ List.replicate (p.indexCount - (a + 1)) p.material
        lightmaps := out.lightmaps ++ List.replicate (p.indexCount - (a + 1)) p.lightmap
        features := out.features ++ fanFrom ((p.slice m.featureIndices)[0]'(by rw [slice_length p _ hf]; exact h0))
          ((p.slice m.featureIndices).drop a)
        vertices := out.vertices ++ fanFrom ((p.slice m.vertexIndices)[0]'(by rw [slice_length p _ hv]; exact h0))
          ((p.slice m.vertexIndices).drop a)
        flags := out.flags ++ List.replicate (p.indexCount - (a + 1)) p.flags : PolyList } := by
    intro a out h
    have hz (r : BitVec 32) (l : List (BitVec 32)) (hl : l.length ≤ 1) : fanFrom r l = [] := by
      match l, hl with
      | [], _ => rfl
      | [x], _ => rfl
    rw [show p.indexCount - (a + 1) = 0 by omega,
      hz _ _ (by rw [List.length_drop, slice_length p _ hf]; omega),
      hz _ _ (by rw [List.length_drop, slice_length p _ hv]; omega)]
    simp
  induction fuel with
  | zero =>
    intro a out h
    unfold Mesh.fan
    rw [← hend a out (by omega)]
  | succ fuel ih =>
    intro a out h
    unfold Mesh.fan
    by_cases hb : a + 1 < p.indexCount
    · rw [if_pos hb]
      have e0 := at?_slice p m.vertexIndices hv 0 h0
      have g0 := at?_slice p m.featureIndices hf 0 h0
      rw [Nat.add_zero] at e0 g0
      dsimp only
      rw [e0, at?_slice p m.vertexIndices hv a (by omega), at?_slice p m.vertexIndices hv (a + 1) hb, g0,
        at?_slice p m.featureIndices hf a (by omega), at?_slice p m.featureIndices hf (a + 1) hb]
      refine (ih (a + 1) _ (by omega)).trans ?_
      have d1 := drop_two (p.slice m.vertexIndices) a (by rw [slice_length p _ hv]; exact hb)
      have d2 := drop_two (p.slice m.featureIndices) a (by rw [slice_length p _ hf]; exact hb)
      have d1' := List.drop_eq_getElem_cons (i := a + 1) (l := p.slice m.vertexIndices) (by rw [slice_length p _ hv]; exact hb)
      have d2' := List.drop_eq_getElem_cons (i := a + 1) (l := p.slice m.featureIndices) (by rw [slice_length p _ hf]; exact hb)
      rw [d1, d2, fanFrom_cons, fanFrom_cons, ← d1', ← d2']
      have hr : p.indexCount - (a + 1) = (p.indexCount - (a + 1 + 1)) + 1 := by omega
      rw [hr, List.replicate_succ, List.replicate_succ, List.replicate_succ]
      simp only [List.append_assoc, List.singleton_append, List.cons_append, List.nil_append]
    · rw [if_neg hb, ← hend a out (by omega)]

/-- The list of triangles with those of the polygon `p` added. -/
def PolyList.addFan (out : PolyList) (m : Mesh) (p : Poly) : PolyList where
  materials := out.materials ++ List.replicate (p.indexCount - 2) p.material
  lightmaps := out.lightmaps ++ List.replicate (p.indexCount - 2) p.lightmap
  features := out.features ++ fanOf (p.slice m.featureIndices)
  vertices := out.vertices ++ fanOf (p.slice m.vertexIndices)
  flags := out.flags ++ List.replicate (p.indexCount - 2) p.flags

theorem fanOf_eq (l : List (BitVec 32)) (h : 0 < l.length) : fanOf l = fanFrom l[0] (l.drop 1) := by
  cases l with
  | nil => simp at h
  | cons a t => rfl

theorem triangulateFrom_eq (m : Mesh) (leaf : List (BitVec 32)) (hs : leaf.Pairwise fun a b => a.toNat ≤ b.toNat) :
    ∀ (ps : List Poly) (i : Nat) (out : PolyList),
    (∀ p ∈ chosen leaf ps i, p.indexOffset + p.indexCount ≤ m.vertexIndices.length ∧
      p.indexOffset + p.indexCount ≤ m.featureIndices.length) →
    m.triangulateFrom leaf ps i out = .ok ((chosen leaf ps i).foldl (fun out p => out.addFan m p) out) := by
  intro ps
  induction ps with
  | nil => intro i out _; rfl
  | cons p ps ih =>
    intro i out h
    unfold Mesh.triangulateFrom
    by_cases hb : BitVec.ofNat 32 i ∈ leaf
    · rw [(binarySearch_iff leaf _ hs).2 hb]
      by_cases hc : 3 ≤ p.indexCount ∧ p.flags.portal = 0 ∧ p.flags.ghost = 0 ∧ p.flags.outdoor = 0
      · have e : chosen leaf (p :: ps) i = p :: chosen leaf ps (i + 1) := by
          rw [chosen, if_pos ⟨hb, hc⟩]
        rw [e] at h ⊢
        obtain ⟨hp, hps⟩ := List.forall_mem_cons.1 h
        have hcond : (decide (p.indexCount < 3) || p.flags.portal != 0 || p.flags.ghost != 0 || p.flags.outdoor != 0) = false := by
          obtain ⟨h1, h2, h3, h4⟩ := hc
          simp [h2, h3, h4]; omega
        rw [if_neg (by decide), hcond, if_neg (by decide), fan_eq m p hp.1 hp.2 (by omega) _ 1 out (by omega)]
        refine (ih (i + 1) _ hps).trans ?_
        rw [List.foldl_cons]
        have e1 := fanOf_eq (p.slice m.vertexIndices) (by rw [slice_length p _ hp.1]; omega)
        have e2 := fanOf_eq (p.slice m.featureIndices) (by rw [slice_length p _ hp.2]; omega)
        rw [PolyList.addFan, e1, e2]
      · have e : chosen leaf (p :: ps) i = chosen leaf ps (i + 1) := by
          rw [chosen, if_neg (fun h => hc h.2)]
        rw [e] at h ⊢
        have hcond : (decide (p.indexCount < 3) || p.flags.portal != 0 || p.flags.ghost != 0 || p.flags.outdoor != 0) = true := by
          by_cases h1 : p.indexCount < 3
          · simp only [h1, decide_true, Bool.true_or]
          rw [Bool.eq_iff_iff]
          simp only [h1, decide_false, Bool.false_or, Bool.or_eq_true, bne_iff_ne, ne_eq, iff_true]
          by_cases h2 : p.flags.portal = 0
          · by_cases h3 : p.flags.ghost = 0
            · exact .inr fun h4 => hc ⟨by omega, h2, h3, h4⟩
            · exact .inl (.inr h3)
          · exact .inl (.inl h2)
        rw [if_neg (by decide), hcond, if_pos rfl]
        exact ih _ _ h
    · have hb' : binarySearch leaf (BitVec.ofNat 32 i) = false := by
        cases hx : binarySearch leaf (BitVec.ofNat 32 i) with
        | false => rfl
        | true => exact absurd ((binarySearch_iff leaf _ hs).1 hx) hb
      have e : chosen leaf (p :: ps) i = chosen leaf ps (i + 1) := by
        rw [chosen, if_neg (fun h => hb h.1)]
      rw [e] at h ⊢
      rw [hb', if_pos (by decide)]
      exact ih _ _ h

theorem foldl_addFan (m : Mesh) : ∀ (ps : List Poly) (out : PolyList), ps.foldl (fun out p => out.addFan m p) out =
    { materials := out.materials ++ ps.flatMap fun p => List.replicate (p.indexCount - 2) p.material
      lightmaps := out.lightmaps ++ ps.flatMap fun p => List.replicate (p.indexCount - 2) p.lightmap
      features := out.features ++ ps.flatMap fun p => fanOf (p.slice m.featureIndices)
      vertices := out.vertices ++ ps.flatMap fun p => fanOf (p.slice m.vertexIndices)
      flags := out.flags ++ ps.flatMap fun p => List.replicate (p.indexCount - 2) p.flags } := by
  intro ps
  induction ps with
  | nil => intro out; simp
  | cons p ps ih => intro out; rw [List.foldl_cons, ih]; simp [PolyList.addFan]

/-! ## Flags -/

/-- The bytes of the flags in a file. -/
def PolyFlags.enc (g2 : Bool) (f : PolyFlags) : Bytes :=
  if g2 then encW 1 f.byteG2 ++ encW 2 f.sectorIndex
  else encW 1 f.byteG1 ++ encW 1 (f.normalAxis.setWidth 8 &&& 2) ++ encW 2 f.sectorIndex

theorem PolyFlags.emits (g2 : Bool) (f : PolyFlags) : Emits (f.save g2) (f.enc g2) := by
  cases g2
  · exact ((Emits.u8 _).comp (Emits.u8 _)).comp (Emits.u16 _)
  · exact (Emits.u8 _).comp (Emits.u16 _)

theorem byteG2_bits : ∀ (a : BitVec 2) (b c d e f g : BitVec 1),
    let x : BitVec 8 := (a.setWidth 8 &&& 3) ||| ((b.setWidth 8 &&& 1) <<< 2) ||| ((c.setWidth 8 &&& 1) <<< 3) |||
      ((d.setWidth 8 &&& 1) <<< 4) ||| ((e.setWidth 8 &&& 1) <<< 5) ||| ((f.setWidth 8 &&& 1) <<< 6) ||| ((g.setWidth 8 &&& 1) <<< 7)
    ((x &&& 0b00000011) >>> 0).setWidth 2 = a ∧ ((x &&& 0b00000100) >>> 2).setWidth 1 = b ∧ ((x &&& 0b00001000) >>> 3).setWidth 1 = c ∧
    ((x &&& 0b00010000) >>> 4).setWidth 1 = d ∧ ((x &&& 0b00100000) >>> 5).setWidth 1 = e ∧ ((x &&& 0b01000000) >>> 6).setWidth 1 = f ∧
    ((x &&& 0b10000000) >>> 7).setWidth 1 = g := by decide +kernel

theorem byteG1_bits : ∀ (a : BitVec 2) (b c d e f : BitVec 1) (g : BitVec 2),
    let x : BitVec 8 := (a.setWidth 8 &&& 3) ||| ((b.setWidth 8 &&& 1) <<< 2) ||| ((c.setWidth 8 &&& 1) <<< 3) |||
      ((d.setWidth 8 &&& 1) <<< 4) ||| ((e.setWidth 8 &&& 1) <<< 5) ||| ((f.setWidth 8 &&& 1) <<< 6) ||| ((g.setWidth 8 &&& 1) <<< 7)
    ((x &&& 0b00000011) >>> 0).setWidth 2 = a ∧ ((x &&& 0b00000100) >>> 2).setWidth 1 = b ∧ ((x &&& 0b00001000) >>> 3).setWidth 1 = c ∧
    ((x &&& 0b00010000) >>> 4).setWidth 1 = d ∧ ((x &&& 0b00100000) >>> 5).setWidth 1 = e ∧ ((x &&& 0b01000000) >>> 6).setWidth 1 = f ∧
    (((x &&& 0b10000000) >>> 7) ||| ((g.setWidth 8 &&& 2) &&& 0b00000001)).setWidth 2 = g &&& 1 := by decide +kernel

theorem PolyFlags.reads (g2 : Bool) (f : PolyFlags) : Reads (PolyFlags.load g2) (f.enc g2) (f.kept g2) := by
  cases g2
  · obtain ⟨h1, h2, h3, h4, h5, h6, h7⟩ := byteG1_bits f.portal f.occluder f.sector f.lod f.outdoor f.ghost f.normalAxis
    have h : Reads PolyFlags.loadG1 _ _ := (Reads.u8 f.byteG1).bind ((Reads.u8 (f.normalAxis.setWidth 8 &&& 2)).bind
      (Reads.u16 f.sectorIndex).bind_pure)
    refine h.congr (List.append_assoc _ _ _).symm ?_
    unfold PolyFlags.ofByte PolyFlags.byteG1 PolyFlags.kept
    rw [h1, h2, h3, h4, h5, h6, h7, if_neg (by decide)]
  · obtain ⟨h1, h2, h3, h4, h5, h6, h7⟩ := byteG2_bits f.portal f.occluder f.sector f.relight f.outdoor f.ghost f.dynLit
    have h : Reads PolyFlags.loadG2 _ _ := (Reads.u8 f.byteG2).bind (Reads.u16 f.sectorIndex).bind_pure
    refine h.congr rfl ?_
    unfold PolyFlags.ofByte PolyFlags.byteG2 PolyFlags.kept
    rw [h1, h2, h3, h4, h5, h6, h7, if_pos rfl]

/-! ## Polygons in files -/

/-- The bytes of a corner. -/
def encCorner (g2 : Bool) (c : BitVec 32 × BitVec 32) : Bytes :=
  (if g2 then encW 4 c.1 else encW 2 (c.1.setWidth 16)) ++ encW 4 c.2

/-- The bytes of a polygon. -/
def Poly.enc (g2 : Bool) (p : Poly) (cs : List (BitVec 32 × BitVec 32)) : Bytes :=
  encW 2 (p.material.setWidth 16) ++ encW 2 (p.lightmap.setWidth 16) ++ encW 4 p.planeDistance ++ p.planeNormal.mem ++
    p.flags.enc g2 ++ encW 1 (BitVec.ofNat 8 p.indexCount) ++ (cs.map (encCorner g2)).flatten

theorem corner_emits (g2 : Bool) (c : BitVec 32 × BitVec 32) : Emits (Mesh.saveCorner g2 c) (encCorner g2 c) := by
  cases g2
  · exact (Emits.u16 _).comp (Emits.u32 _)
  · exact (Emits.u32 _).comp (Emits.u32 _)

theorem Poly.emits (g2 : Bool) (p : Poly) (cs : List (BitVec 32 × BitVec 32)) : Emits (p.save g2 cs) (p.enc g2 cs) := by
  have h := (Emits.u16 (p.material.setWidth 16)).comp ((Emits.u16 (p.lightmap.setWidth 16)).comp ((Emits.f32 p.planeDistance).comp
    ((Emits.vec3 p.planeNormal).comp ((PolyFlags.emits g2 p.flags).comp ((Emits.u8 (BitVec.ofNat 8 p.indexCount)).comp
    (Emits.foldl (fun (c : BitVec 32 × BitVec 32) w => Mesh.saveCorner g2 c w) (encCorner g2) (fun c => corner_emits g2 c) cs))))))
  exact h.congr (by simp only [Poly.enc, List.append_assoc])

/-- A polygon that fits into a file. -/
structure Poly.Fits (g2 : Bool) (p : Poly) (cs : List (BitVec 32 × BitVec 32)) : Prop where
  material : p.material.toNat < 2 ^ 16
  lightmap : (p.lightmap.setWidth 16).signExtend 32 = p.lightmap
  count : p.indexCount < 256
  corners : cs.length = p.indexCount

theorem corner_reads (g2 : Bool) (c : BitVec 32 × BitVec 32) :
    Reads (Mesh.loadCorner g2) (encCorner g2 c) (keptIndex g2 c.1, c.2) := by
  cases g2
  · have h' : Reads (Mesh.loadIndex false) _ _ := (Reads.u16 (c.1.setWidth 16)).bind_pure
    have h2 : Reads (Mesh.loadCorner false) _ _ := h'.bind (Reads.u32 c.2).bind_pure
    exact h2
  · have h' : Reads (Mesh.loadIndex true) _ _ := Reads.u32 c.1
    exact h'.bind (Reads.u32 c.2).bind_pure

theorem Poly.reads (g2 : Bool) (p : Poly) (cs : List (BitVec 32 × BitVec 32)) (h : p.Fits g2 cs) (offset : BitVec 32)
    (ho : p.indexOffset = offset.toNat) : Reads (Poly.load g2 false offset) (p.enc g2 cs) (p.kept g2, cs.map fun c => (keptIndex g2 c.1, c.2)) := by
  have hn : (BitVec.ofNat 8 p.indexCount).toNat = cs.length := by
    have := h.count; rw [h.corners]; simp; omega
  have ht := Reads.timesMap (p := Mesh.loadCorner g2) (enc := encCorner g2) (f := fun c => (keptIndex g2 c.1, c.2)) cs
    fun c _ => corner_reads g2 c
  have hm : (p.material.setWidth 16).setWidth 32 = p.material := by
    apply BitVec.eq_of_toNat_eq
    have := h.material
    simp only [BitVec.toNat_setWidth]
    omega
  have hl := h.lightmap
  have hc : cs.length = p.indexCount := h.corners
  have h : Reads (Poly.load g2 false offset) (encW 2 (p.material.setWidth 16) ++ (encW 2 (p.lightmap.setWidth 16) ++
      (encW 4 p.planeDistance ++ (p.planeNormal.mem ++ (p.flags.enc g2 ++ (encW 1 (BitVec.ofNat 8 p.indexCount) ++
      (cs.map (encCorner g2)).flatten)))))) (p.kept g2, cs.map fun c => (keptIndex g2 c.1, c.2)) := by
    unfold Poly.load
    refine (Reads.u16 _).bind ((Reads.u16 _).bind ((Reads.f32 _).bind ((Reads.vec3 _).bind ((PolyFlags.reads g2 _).bind
      ((Reads.u8 _).bind ?_)))))
    rw [hn, Bool.or_false, hm, hl]
    refine ht.bind_pure.congr rfl ?_
    rw [hc, ← ho]
    rfl
  exact h.congr (by simp only [Poly.enc, List.append_assoc]) rfl

theorem loadMany_reads (g2 : Bool) : ∀ (ps : List (Poly × List (BitVec 32 × BitVec 32))) (offset : BitVec 32),
    (∀ p ∈ ps, p.1.Fits g2 p.2) → Contiguous offset.toNat (ps.map (·.1)) →
    offset.toNat + (ps.map (·.1.indexCount)).sum < 2 ^ 32 →
    Reads (Poly.loadMany g2 false ps.length offset) (ps.map fun p => p.1.enc g2 p.2).flatten
      (ps.map fun p => p.1.kept g2, ((ps.map (·.2)).flatten).map fun c => (keptIndex g2 c.1, c.2)) := by
  intro ps
  induction ps with
  | nil => intro o _ _ _; exact Reads.pure _
  | cons p ps ih =>
    intro offset hf hc hs
    obtain ⟨hp, hps⟩ := List.forall_mem_cons.1 hf
    obtain ⟨ho, hc⟩ := hc
    simp only [List.map_cons, List.sum_cons] at hs
    have hadd : (offset + BitVec.ofNat 32 p.1.indexCount).toNat = offset.toNat + p.1.indexCount := by
      simp only [BitVec.toNat_add, BitVec.toNat_ofNat]
      omega
    have := ih (offset + BitVec.ofNat 32 p.1.indexCount) hps (by rw [hadd]; exact hc) (by rw [hadd]; omega)
    show Reads (Poly.loadMany g2 false (ps.length + 1) offset) (p.1.enc g2 p.2 ++ _) _
    unfold Poly.loadMany
    refine ((Poly.reads g2 p.1 p.2 hp offset ho).bind this.bind_pure).congr rfl ?_
    simp only [List.map_cons, List.flatten_cons, List.map_append]

theorem slice_append (p : Poly) (l t : List (BitVec 32)) (h : p.indexOffset + p.indexCount ≤ l.length) :
    p.slice (l ++ t) = p.slice l := by
  unfold Poly.slice
  rw [List.drop_append_of_le_length (by omega), List.take_append_of_le_length (by simp; omega)]

/-- Reading the corners of contiguous polygons one after the other gives the whole lists. -/
theorem corners_ok (m : Mesh) (g2 : Bool) (p : Poly) (vs fs : List (BitVec 32))
    (hv : ∃ t, (if g2 then m.polygons.vertices else m.vertexIndices) = vs ++ t)
    (hf : ∃ t, (if g2 then m.polygons.features else m.featureIndices) = fs ++ t)
    (h1 : p.indexOffset + p.indexCount ≤ vs.length) (h2 : p.indexOffset + p.indexCount ≤ fs.length) :
    m.corners g2 p = .ok ((p.slice vs).zip (p.slice fs)) := by
  unfold Mesh.corners
  obtain ⟨tv, hv⟩ := hv
  obtain ⟨tf, hf⟩ := hf
  rw [hv, hf, ← slice_append p vs tv h1, ← slice_append p fs tf h2]
  replace h1 : p.indexOffset + p.indexCount ≤ (vs ++ tv).length := by rw [List.length_append]; omega
  replace h2 : p.indexOffset + p.indexCount ≤ (fs ++ tf).length := by rw [List.length_append]; omega
  generalize vs ++ tv = vs at *
  generalize fs ++ tf = fs at *
  have key : ∀ n, n ≤ p.indexCount → (List.range n).mapM (fun i => do
      let v ← at? vs (p.indexOffset + i)
      let f ← at? fs (p.indexOffset + i)
      return (v, f)) = (.ok (((p.slice vs).take n).zip ((p.slice fs).take n)) : Except Fail _) := by
    intro n hn
    induction n with
    | zero => rfl
    | succ n ih =>
      rw [List.range_succ]
      have e := Bsp.except_mapM_append _ _ [n] _ [((p.slice vs)[n]'(by rw [slice_length p vs h1]; omega),
        (p.slice fs)[n]'(by rw [slice_length p fs h2]; omega))] (ih (by omega))
        (Bsp.except_mapM_cons _ _ _ _ [] (by rw [at?_slice p vs h1 n (by omega), at?_slice p fs h2 n (by omega)]; rfl) rfl)
      rw [e, List.take_add_one, List.take_add_one, List.getElem?_eq_getElem (by rw [slice_length p vs h1]; omega),
        List.getElem?_eq_getElem (by rw [slice_length p fs h2]; omega)]
      rw [List.zip_append (by simp [slice_length p vs h1, slice_length p fs h2])]
      rfl
  have := key p.indexCount (Nat.le_refl _)
  rw [List.take_of_length_le (by rw [slice_length p vs h1]; exact Nat.le_refl _),
    List.take_of_length_le (by rw [slice_length p fs h2]; exact Nat.le_refl _)] at this
  exact this

theorem contiguous_corners (vs fs : List (BitVec 32)) (hl : vs.length = fs.length) : ∀ (ps : List Poly) (off : Nat),
    Contiguous off ps → off + (ps.map (·.indexCount)).sum = vs.length →
    (∀ p ∈ ps, p.indexOffset + p.indexCount ≤ vs.length) ∧
    (ps.map fun p => (p.slice vs).zip (p.slice fs)).flatten = (vs.drop off).zip (fs.drop off) := by
  intro ps
  induction ps with
  | nil =>
    intro off _ h
    simp at h
    subst h
    simp
  | cons p ps ih =>
    intro off ⟨ho, hc⟩ hs
    simp only [List.map_cons, List.sum_cons] at hs
    obtain ⟨h1, h2⟩ := ih (off + p.indexCount) hc (by omega)
    refine ⟨?_, ?_⟩
    · intro q hq
      rcases List.mem_cons.1 hq with rfl | hq
      · omega
      · exact h1 q hq
    · rw [List.map_cons, List.flatten_cons, h2]
      unfold Poly.slice
      rw [ho, ← List.drop_drop, ← List.drop_drop, ← List.zip_append (by simp; omega), List.take_append_drop, List.take_append_drop]

theorem mapM_map_ok {α β} (f : α → Except Fail β) (g : α → β) : ∀ (l : List α), (∀ x ∈ l, f x = .ok (g x)) → l.mapM f = .ok (l.map g) := by
  intro l
  induction l with
  | nil => intro _; rfl
  | cons a l ih =>
    intro h
    obtain ⟨h1, h2⟩ := List.forall_mem_cons.1 h
    exact Bsp.except_mapM_cons f a l _ _ h1 (ih h2)

/-- The bytes of a feature. -/
def Feature.enc (f : Feature) : Bytes := f.texture.mem ++ encW 4 f.light ++ f.normal.mem

/-- The chunks of a mesh. -/
def Mesh.chunks (g2 : Bool) (m : Mesh) (cs : List (List (BitVec 32 × BitVec 32))) : List Spec.Chunk :=
  [⟨0xB000, encW 2 (if g2 then 265 else 9 : BitVec 16) ++ (m.date.enc ++ (m.name ++ [10]))⟩,
   ⟨0xB010, m.bbox.enc ++ m.obb.enc⟩,
   ⟨0xB030, encW 4 (BitVec.ofNat 32 m.vertices.length) ++ (m.vertices.map Vec3.mem).flatten⟩,
   ⟨0xB040, encW 4 (BitVec.ofNat 32 m.features.length) ++ (m.features.map Feature.enc).flatten⟩,
   ⟨0xB050, encW 4 (BitVec.ofNat 32 m.geometry.length) ++ ((m.geometry.zip cs).map fun p => p.1.enc g2 p.2).flatten⟩,
   ⟨0xB060, []⟩]

theorem Mesh.save_emits (m : Mesh) (g2 : Bool) (cs : List (List (BitVec 32 × BitVec 32)))
    (hc : m.geometry.mapM (m.corners g2) = .ok cs) (w : Ws) (hw : w.pos ≤ w.data.length) :
    m.save g2 w = .ok (w.write (chunksBytes (m.chunks g2 cs))) := by
  have c1 := ((Emits.u16 (if g2 then 265 else 9)).comp (Emits.date m.date)).comp (Emits.line m.name)
  have c2 := (Emits.aabb m.bbox).comp (Obb.emits m.obb)
  have c3 := (Emits.u32 (BitVec.ofNat 32 m.vertices.length)).comp
    (Emits.foldl (fun (p : Vec3) w => w.vec3 p) Vec3.mem (fun p => Emits.vec3 p) m.vertices)
  have c4 := (Emits.u32 (BitVec.ofNat 32 m.features.length)).comp
    (Emits.foldl (fun (f : Feature) w => ((w.vec2 f.texture).u32 f.light).vec3 f.normal) Feature.enc
      (fun f => ((Emits.vec2 f.texture).comp (Emits.u32 f.light)).comp (Emits.vec3 f.normal)) m.features)
  have c5 := (Emits.u32 (BitVec.ofNat 32 m.geometry.length)).comp
    (Emits.foldl (fun (p : Poly × List (BitVec 32 × BitVec 32)) w => p.1.save g2 p.2 w) (fun p => p.1.enc g2 p.2)
      (fun p => Poly.emits g2 p.1 p.2) (m.geometry.zip cs))
  have all := (((((Emits.chunk (type := 0xB000) c1).comp (Emits.chunk (type := 0xB010) c2)).comp (Emits.chunk (type := 0xB030) c3)).comp
    (Emits.chunk (type := 0xB040) c4)).comp (Emits.chunk (type := 0xB050) c5)).comp (Emits.chunk (type := 0xB060) Emits.id)
  have e := all w hw
  unfold Mesh.save
  rw [hc]
  refine (congrArg Except.ok e).trans ?_
  simp only [chunks, chunksBytes, List.map_cons, List.map_nil, List.flatten_cons, List.flatten_nil, List.append_nil, List.append_assoc]

theorem feature_reads (f : Feature) : Reads Feature.load f.enc f := by
  have h : Reads Feature.load (f.texture.mem ++ (encW 4 f.light ++ f.normal.mem)) f :=
    (Reads.vec2 _).bind ((Reads.u32 _).bind (Reads.vec3 _).bind_pure)
  exact h.congr (by simp only [Feature.enc, List.append_assoc]) rfl

theorem obb_reads (b : Obb) (hs : b.Small) : Reads Obb.load b.enc b := by
  intro pre post
  exact Obb.reads b hs _ (by simp; omega) pre post

end Verif
