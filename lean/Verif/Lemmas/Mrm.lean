import Verif.Spec.Meshes
import Verif.Lemmas.Chunked

/-! # Lemmas about multi resolution meshes -/

namespace Verif

open Spec

/-- One step of a loader, in terms of what is left of the stream. -/
theorem Reads.step {α} {p : Rd α} {bs rest data : Bytes} {a : α} {pos : Nat} (h : Reads p bs a) (hp : pos ≤ data.length)
    (hd : data.drop pos = bs ++ rest) :
    p ⟨data, pos⟩ = .ok (a, ⟨data, pos + bs.length⟩) ∧ pos + bs.length ≤ data.length ∧ data.drop (pos + bs.length) = rest := by
  have e : data = data.take pos ++ bs ++ rest := by
    rw [List.append_assoc, ← hd, List.take_append_drop]
  have hl : (data.take pos).length = pos := by simp; omega
  have := h (data.take pos) rest
  rw [← e, hl] at this
  refine ⟨this, ?_, ?_⟩
  · have := congrArg List.length hd
    simp at this
    omega
  · rw [← List.drop_drop, hd, List.drop_left]

theorem Obb.reads_load (b : Obb) (hs : b.Small) : Reads Obb.load b.enc b := by
  intro pre post
  unfold Obb.load
  exact Obb.reads b hs _ (by simp only [List.length_append]; omega) pre post

namespace Mrm

theorem reads_triple (t : MrmTriple) : Reads loadTriple (encTriple t) t := by
  refine Reads.congr ((Reads.u16 t.a).bind ((Reads.u16 t.b).bind ((Reads.u16 t.c).bind_pure (f := fun c => (⟨t.a, t.b, c⟩ : MrmTriple))))) ?_ rfl
  simp [encTriple]

theorem reads_edge (t : MrmEdge) : Reads loadEdge (encEdge t) t :=
  (Reads.u16 t.a).bind ((Reads.u16 t.b).bind_pure (f := fun c => (⟨t.a, c⟩ : MrmEdge)))

theorem reads_wedge (t : MrmWedge × BitVec 16) : Reads loadWedge (encWedge t) t.1 := by
  refine Reads.congr ((Reads.vec3 t.1.normal).bind ((Reads.vec2 t.1.texture).bind ((Reads.u16 t.1.index).bind
    ((Reads.u16 t.2).bind_pure (f := fun _ => (⟨t.1.normal, t.1.texture, t.1.index⟩ : MrmWedge)))))) ?_ rfl
  simp [encWedge]

theorem reads_plane (t : MrmPlane) : Reads loadPlane (encPlane t) t :=
  (Reads.f32 t.distance).bind ((Reads.vec3 t.normal).bind_pure (f := fun c => (⟨t.distance, c⟩ : MrmPlane)))

theorem reads_section {α} (base : Nat) (s : Sec α) :
    Reads (loadSection base) s.head ⟨s.off.toNat + base, BitVec.ofNat 32 s.elems.length⟩ :=
  (Reads.u32 s.off).bind ((Reads.u32 (BitVec.ofNat 32 s.elems.length)).bind_pure
    (f := fun n => (⟨s.off.toNat + base, n⟩ : MrmSection)))

/-- The entry of a section. -/
def entry {α} (base : Nat) (s : Sec α) : MrmSection := ⟨s.off.toNat + base, BitVec.ofNat 32 s.elems.length⟩

/-- The entries of a sub mesh. -/
def entries {μ} (base : Nat) (p : MrmPartFile μ) : MrmSections where
  triangles := entry base p.triangles
  wedges := entry base p.wedges
  colors := entry base p.colors
  planeIndices := entry base p.planeIndices
  planes := entry base p.planes
  wedgeMap := entry base p.wedgeMap
  vertexUpdates := ⟨p.updates.1.toNat + base, p.updates.2⟩
  triangleEdges := entry base p.triangleEdges
  edges := entry base p.edges
  edgeScores := entry base p.edgeScores

theorem reads_sections {μ} (base : Nat) (p : MrmPartFile μ) :
    Reads (loadSections base) p.heads (entries base p) := by
  exact (reads_section base p.triangles).bind ((reads_section base p.wedges).bind ((reads_section base p.colors).bind
    ((reads_section base p.planeIndices).bind ((reads_section base p.planes).bind ((reads_section base p.wedgeMap).bind
    (((Reads.u32 p.updates.1).bind ((Reads.u32 p.updates.2).bind_pure
      (f := fun n => (⟨p.updates.1.toNat + base, n⟩ : MrmSection)))).bind
    ((reads_section base p.triangleEdges).bind ((reads_section base p.edges).bind
    ((reads_section base p.edgeScores).bind_pure (f := fun n =>
      { entries base p with edgeScores := n }))))))))))

theorem reads_sections_all {μ} (base : Nat) (ps : List (MrmPartFile μ)) :
    Reads (Rd.times (loadSections base) ps.length) (ps.map MrmPartFile.heads).flatten (ps.map (entries base)) := by
  induction ps with
  | nil => exact Reads.pure _
  | cons p ps ih =>
    exact (reads_sections base p).bind (ih.bind_pure (f := fun es => entries base p :: es))

/-- The content lies at `base` in the stream. -/
def At (data : Bytes) (base : Nat) (content : Bytes) : Prop :=
  base ≤ data.length ∧ ∃ rest, data.drop base = content ++ rest

theorem readAt_ok {α β} {p : Rd β} {enc : α → Bytes} {f : α → β} (hr : ∀ a, Reads p (enc a) (f a)) {data content : Bytes} {base : Nat}
    (hc : At data base content) (s : Sec α) (hs : s.In enc content) (pos : Nat) :
    ∃ pos', readAt p (entry base s) ⟨data, pos⟩ = .ok (s.elems.map f, ⟨data, pos'⟩) ∧ pos' ≤ data.length := by
  obtain ⟨hb, rest, hd⟩ := hc
  obtain ⟨hn, a, b, hcon, ha⟩ := hs
  have hd2 : data.drop (s.off.toNat + base) = (s.elems.map enc).flatten ++ (b ++ rest) := by
    rw [Nat.add_comm, ← List.drop_drop, hd, hcon, ← ha]
    simp
  have hl : s.off.toNat + base ≤ data.length := by
    have h1 := congrArg List.length hd
    rw [hcon] at h1
    simp only [List.length_drop, List.length_append] at h1
    omega
  have ht : Reads (Rd.times p s.elems.length) (s.elems.map enc).flatten (s.elems.map f) := by
    generalize s.elems = es
    induction es with
    | nil => exact Reads.pure _
    | cons e es ih => exact (hr e).bind (ih.bind_pure (f := fun bs => f e :: bs))
  obtain ⟨e1, e2, e3⟩ := ht.step hl hd2
  refine ⟨_, ?_, e2⟩
  unfold readAt entry
  simp only
  rw [Rd.bind_ok (Rd.seek_beg hl)]
  have : (BitVec.ofNat 32 s.elems.length).toNat = s.elems.length := by simp; omega
  rw [this]
  exact e1

theorem loadPart_ok {μ} {data content : Bytes} {base : Nat} (hc : At data base content) (p : MrmPartFile μ) (hp : p.In content) (pos : Nat) :
    ∃ pos', loadPart (entries base p) p.mat ⟨data, pos⟩ = .ok (p.part, ⟨data, pos'⟩) ∧ pos' ≤ data.length := by
  obtain ⟨h1, h2, h3, h4, h5, h6, h7, h8, h9⟩ := hp
  obtain ⟨p1, e1, _⟩ := readAt_ok (f := id) reads_triple hc _ h1 pos
  obtain ⟨p2, e2, _⟩ := readAt_ok reads_wedge hc _ h2 p1
  obtain ⟨p3, e3, _⟩ := readAt_ok (f := id) (fun v => Reads.f32 v) hc _ h3 p2
  obtain ⟨p4, e4, _⟩ := readAt_ok (f := id) (fun v => Reads.u16 v) hc _ h4 p3
  obtain ⟨p5, e5, _⟩ := readAt_ok (f := id) reads_plane hc _ h5 p4
  obtain ⟨p7, e7, _⟩ := readAt_ok (f := id) reads_triple hc _ h7 p5
  obtain ⟨p8, e8, _⟩ := readAt_ok (f := id) reads_edge hc _ h8 p7
  obtain ⟨p9, e9, _⟩ := readAt_ok (f := id) (fun v => Reads.f32 v) hc _ h9 p8
  obtain ⟨p6, e6, l6⟩ := readAt_ok (f := id) (fun v => Reads.u16 v) hc _ h6 p9
  refine ⟨p6, ?_, l6⟩
  unfold loadPart
  simp only [List.map_id] at e1 e3 e4 e5 e6 e7 e8 e9
  rw [show (entries base p).triangles = entry base p.triangles from rfl, Rd.bind_ok e1,
    show (entries base p).wedges = entry base p.wedges from rfl, Rd.bind_ok e2,
    show (entries base p).colors = entry base p.colors from rfl, Rd.bind_ok e3,
    show (entries base p).planeIndices = entry base p.planeIndices from rfl, Rd.bind_ok e4,
    show (entries base p).planes = entry base p.planes from rfl, Rd.bind_ok e5,
    show (entries base p).triangleEdges = entry base p.triangleEdges from rfl, Rd.bind_ok e7,
    show (entries base p).edges = entry base p.edges from rfl, Rd.bind_ok e8,
    show (entries base p).edgeScores = entry base p.edgeScores from rfl, Rd.bind_ok e9,
    show (entries base p).wedgeMap = entry base p.wedgeMap from rfl, Rd.bind_ok e6]
  rfl

theorem loadParts_ok {μ} {data content : Bytes} {base : Nat} (hc : At data base content) (ps : List (MrmPartFile μ))
    (hp : ∀ p ∈ ps, p.In content) (pos : Nat) (hpos : pos ≤ data.length) :
    ∃ pos', loadParts ((ps.map (entries base)).zip (ps.map MrmPartFile.mat)) ⟨data, pos⟩ =
      .ok (ps.map MrmPartFile.part, ⟨data, pos'⟩) ∧ pos' ≤ data.length := by
  induction ps generalizing pos with
  | nil => exact ⟨pos, rfl, hpos⟩
  | cons p ps ih =>
    obtain ⟨p1, e1, l1⟩ := loadPart_ok hc p (hp p (by simp)) pos
    obtain ⟨p2, e2, l2⟩ := ih (fun q hq => hp q (List.mem_cons_of_mem _ hq)) p1 l1
    refine ⟨p2, ?_, l2⟩
    simp only [List.map_cons, List.zip_cons_cons, loadParts]
    rw [Rd.bind_ok e1, Rd.bind_ok e2]
    rfl

theorem reads_alpha {μ} (f : MrmFile μ) (old : BitVec 8) :
    Reads (loadAlpha f.version old) (if f.hasAlpha then encW 1 f.alpha else [])
      (if f.hasAlpha then (if f.alpha = 0 then 0 else 1) else old) := by
  unfold loadAlpha
  by_cases h : f.hasAlpha
  · rw [if_pos h, if_pos h, if_pos (show f.version = 0x905 ∨ f.version = 0x805 from h)]
    refine Reads.congr ((Reads.u8 f.alpha).bind_pure (f := fun b => if b ≠ 0 then 1 else 0)) rfl ?_
    by_cases h0 : f.alpha = 0 <;> simp [h0]
  · rw [if_neg h, if_neg h, if_neg (show ¬(f.version = 0x905 ∨ f.version = 0x805) from h)]
    exact Reads.pure _

/-- Loading a mesh from a well-formed file; where the stream is left depends on whether it is larger than 4 GiB. -/
theorem loadFrom_ok {μ} (mats : Nat → Rd (List μ)) (f : MrmFile μ) (hf : f.Ok mats) (m : Mrm μ) (pre post : Bytes) :
    ∃ pos', loadFrom mats m ⟨pre ++ f.bytes ++ post, pre.length⟩ = .ok (f.mesh m.alphaTest, ⟨pre ++ f.bytes ++ post, pos'⟩) ∧
      pos' ≤ (pre ++ f.bytes ++ post).length ∧
      ((pre ++ f.bytes).length < 2 ^ 32 → pos' = pre.length + f.bytes.length) := by
  generalize hdata : pre ++ f.bytes ++ post = data
  have hd0 : data.drop pre.length = f.bytes ++ post := by rw [← hdata]; simp
  have hp0 : pre.length ≤ data.length := by rw [← hdata]; simp
  rw [MrmFile.bytes] at hd0
  simp only [List.append_assoc] at hd0
  obtain ⟨e1, l1, d1⟩ := (Reads.u16 f.version).step hp0 hd0
  obtain ⟨e2, l2, d2⟩ := (Reads.u32 (BitVec.ofNat 32 f.content.length)).step l1 d1
  have hcl : (BitVec.ofNat 32 f.content.length).toNat = f.content.length := by simp; exact hf.content
  generalize hb : pre.length + (encW 2 f.version).length + (encW 4 (BitVec.ofNat 32 f.content.length)).length = base at e2 l2 d2
  have hAt : At data base f.content := ⟨l2, _, d2⟩
  have l3 : base + f.content.length ≤ data.length := by
    have := congrArg List.length d2
    simp only [List.length_drop, List.length_append] at this
    omega
  have d3 := d2
  replace d3 := congrArg (List.drop f.content.length) d3
  rw [List.drop_drop, List.drop_left] at d3
  have e3 : Rd.seek ((BitVec.ofNat 32 f.content.length).toNat : Int) .cur ⟨data, base⟩ = .ok ((), ⟨data, base + f.content.length⟩) := by
    rw [hcl]
    exact Rd.seek_ok (by simp [Rd.seekTarget]) l3
  obtain ⟨e4, l4, d4⟩ := (Reads.u8 (BitVec.ofNat 8 f.parts.length)).step l3 d3
  have hcnt : (BitVec.ofNat 8 f.parts.length).toNat = f.parts.length := by simp; exact hf.count
  obtain ⟨e5, l5, d5⟩ := (reads_section base f.positions).step l4 d4
  obtain ⟨e6, l6, d6⟩ := (reads_section base f.normals).step l5 d5
  obtain ⟨e7, l7, d7⟩ := (reads_sections_all base f.parts).step l6 d6
  obtain ⟨e8, l8, d8⟩ := hf.mats.step l7 d7
  obtain ⟨e9, l9, d9⟩ := (reads_alpha f m.alphaTest).step l8 d8
  obtain ⟨e10, l10, d10⟩ := (Reads.aabb f.bbox).step l9 d9
  obtain ⟨e11, l11, d11⟩ := (Obb.reads_load f.obbox hf.obbox).step l10 d10
  generalize hq : pre.length + (encW 2 f.version).length + (encW 4 (BitVec.ofNat 32 f.content.length)).length + f.content.length +
    (encW 1 (BitVec.ofNat 8 f.parts.length)).length + f.positions.head.length + f.normals.head.length +
    ((f.parts.map MrmPartFile.heads).flatten).length + f.matBytes.length + (if f.hasAlpha then encW 1 f.alpha else []).length +
    f.bbox.enc.length + f.obbox.enc.length = q
  rw [hb] at hq
  rw [hq] at e11 l11 d11
  have l12 : q + 16 ≤ data.length := by
    have := congrArg List.length d11
    simp only [List.length_drop, List.length_append, hf.pad] at this
    omega
  have e12 : Rd.seek 0x10 .cur ⟨data, q⟩ = .ok ((), ⟨data, q + 16⟩) := Rd.seek_ok (by simp [Rd.seekTarget]) l12
  have hfin : q + 16 = pre.length + f.bytes.length := by
    rw [← hq, ← hb, MrmFile.bytes]
    simp only [List.length_append, hf.pad]
    omega
  obtain ⟨p13, e13, l13⟩ := readAt_ok (f := id) Reads.vec3 hAt _ hf.positions (q + 16)
  obtain ⟨p14, e14, l14⟩ := readAt_ok (f := id) Reads.vec3 hAt _ hf.normals p13
  obtain ⟨p15, e15, l15⟩ := loadParts_ok hAt f.parts hf.parts p14 l14
  simp only [List.map_id] at e13 e14
  have l16 : (q + 16) % 2 ^ 32 ≤ data.length := Nat.le_trans (Nat.mod_le _ _) l12
  refine ⟨(q + 16) % 2 ^ 32, ?_, l16, ?_⟩
  · unfold loadFrom
    rw [Rd.bind_ok e1, Rd.bind_ok e2, Rd.bind_ok (show Rd.tell ⟨data, base⟩ = .ok (base, ⟨data, base⟩) from rfl), Rd.bind_ok e3,
      Rd.bind_ok e4, Rd.bind_ok e5, Rd.bind_ok e6, hcnt, Rd.bind_ok e7, Rd.bind_ok e8, Rd.bind_ok e9, Rd.bind_ok e10, Rd.bind_ok e11,
      Rd.bind_ok e12, Rd.bind_ok (show Rd.tell ⟨data, q + 16⟩ = .ok (q + 16, ⟨data, q + 16⟩) from rfl)]
    rw [show (⟨f.positions.off.toNat + base, BitVec.ofNat 32 f.positions.elems.length⟩ : MrmSection) = entry base f.positions from rfl,
      show (⟨f.normals.off.toNat + base, BitVec.ofNat 32 f.normals.elems.length⟩ : MrmSection) = entry base f.normals from rfl,
      Rd.bind_ok e13, Rd.bind_ok e14, Rd.bind_ok e15, Rd.bind_ok (Rd.seek_beg l16)]
    rfl
  · intro hlt
    rw [List.length_append, ← hfin] at hlt
    rw [Nat.mod_eq_of_lt hlt, hfin]

end Mrm

end Verif
