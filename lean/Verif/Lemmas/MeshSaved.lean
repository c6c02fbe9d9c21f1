import Verif.Lemmas.MeshSave

/-! # What exactly is in a saved mesh -/

namespace Verif

open Spec

namespace Mrm

/-- A part of the content is written somewhere behind `base`: its bytes, and an entry of the table that says where it is. -/
theorem saveSection_saved {α} (f : α → Ws → Ws) (enc : α → Bytes) (h : ∀ a, Emits (f a) (enc a)) (xs : List α) (w : Ws)
    (hw : w.pos ≤ w.data.length) (base off : Nat) (hp : w.pos = base + off) :
    ∃ s, saveSection f xs w = (w.write (xs.map enc).flatten, s) ∧ Emits (putSection base s) (Sec.savedHead enc ⟨BitVec.ofNat 32 off, xs⟩) := by
  have e := Emits.foldl f enc h xs w hw
  dsimp only at e
  refine ⟨⟨w.pos, BitVec.ofInt 32 (((w.write (xs.map enc).flatten).pos : Int) - w.pos)⟩, ?_, ?_⟩
  · unfold saveSection
    dsimp only
    rw [e]
  · have h1 : BitVec.ofInt 32 ((w.pos : Int) - base) = BitVec.ofNat 32 off := by
      rw [hp, show ((base + off : Nat) : Int) - base = (off : Int) by omega]
      exact BitVec.ofInt_natCast ..
    have h2 : BitVec.ofInt 32 (((w.write (xs.map enc).flatten).pos : Int) - w.pos) = BitVec.ofNat 32 ((xs.map enc).flatten).length := by
      rw [show (((w.write (xs.map enc).flatten).pos : Nat) : Int) - w.pos = (((xs.map enc).flatten).length : Int) by
        simp only [Ws.write]; omega]
      exact BitVec.ofInt_natCast ..
    intro w' hw'
    have := (Emits.u32 (BitVec.ofInt 32 ((w.pos : Int) - base))).comp (Emits.u32 (BitVec.ofInt 32
      (((w.write (xs.map enc).flatten).pos : Int) - w.pos))) w' hw'
    unfold putSection Sec.savedHead
    rw [h1, h2] at this
    dsimp only at this ⊢
    rw [h1, h2]
    exact this

theorem flat_length {α} {enc : α → Bytes} (h : ∀ a, 0 < (enc a).length) (xs : List α) : xs.length ≤ ((xs.map enc).flatten).length := by
  induction xs with
  | nil => simp
  | cons x xs ih =>
    have := h x
    simp only [List.map_cons, List.flatten_cons, List.length_append, List.length_cons]
    omega

theorem sec_in {α} {enc : α → Bytes} (h : ∀ a, 0 < (enc a).length) (xs : List α) (off : Nat) {content a b : Bytes}
    (e : content = a ++ (xs.map enc).flatten ++ b) (ha : a.length = off) (hl : content.length < 2 ^ 32) :
    Sec.In enc content ⟨BitVec.ofNat 32 off, xs⟩ := by
  have := flat_length h xs
  have hle : content.length = a.length + ((xs.map enc).flatten).length + b.length := by rw [e, List.length_append, List.length_append]
  refine ⟨by simp only; omega, a, b, e, ?_⟩
  simp only [BitVec.toNat_ofNat]
  rw [Nat.mod_eq_of_lt (by omega), ha]

/-- The bytes of the parts of a sub mesh in the order in which they are written. -/
def partBytes {μ} (p : MrmPart μ) : Bytes :=
  (p.triangles.map encTriple).flatten ++ (p.wedges.map fun t => encWedge (t, 0)).flatten ++ (p.colors.map encU32).flatten ++
    (p.planeIndices.map encU16).flatten ++ (p.planes.map encPlane).flatten ++ (p.triangleEdges.map encTriple).flatten ++
    (p.edges.map encEdge).flatten ++ (p.edgeScores.map encU32).flatten ++ (p.wedgeMap.map encU16).flatten

theorem savePart_saved {μ} (p : MrmPart μ) (w : Ws) (hw : w.pos ≤ w.data.length) (base off : Nat) (hp : w.pos = base + off) :
    ∃ s, ∃ pf : MrmPartFile μ, savePart p w = (w.write (partBytes p), s) ∧ Emits (putSections base s) pf.savedHeads ∧ pf.part = p ∧
      pf.mat = p.mat ∧ ∀ content a b, content = a ++ partBytes p ++ b → a.length = off → content.length < 2 ^ 32 → pf.In content := by
  have k (bs : Bytes) : (w.write bs).pos = base + (off + bs.length) := by simp only [Ws.write, hp]; omega
  have kl (bs : Bytes) := write_le w bs hw
  obtain ⟨s1, e1, t1⟩ := saveSection_saved saveTriple encTriple (fun t => ((Emits.u16 t.a).comp (Emits.u16 t.b)).comp (Emits.u16 t.c))
    p.triangles w hw base off hp
  generalize hb1 : (p.triangles.map encTriple).flatten = b1 at e1
  obtain ⟨s2, e2, t2⟩ := saveSection_saved saveWedge (fun t => encWedge (t, 0)) (fun t => (((Emits.vec3 t.normal).comp
    (Emits.vec2 t.texture)).comp (Emits.u16 t.index)).comp (Emits.u16 0)) p.wedges _ (kl b1) base _ (k b1)
  rw [Ws.write_write w _ _ hw] at e2
  generalize hb2 : (p.wedges.map fun t => encWedge (t, 0)).flatten = b2 at e2
  obtain ⟨s3, e3, t3⟩ := saveSection_saved Ws.f32 encU32 Emits.f32 p.colors _ (kl (b1 ++ b2)) base _ (k _)
  rw [Ws.write_write w _ _ hw] at e3
  generalize hb3 : (p.colors.map encU32).flatten = b3 at e3
  obtain ⟨s4, e4, t4⟩ := saveSection_saved Ws.u16 encU16 Emits.u16 p.planeIndices _ (kl (b1 ++ b2 ++ b3)) base _ (k _)
  rw [Ws.write_write w _ _ hw] at e4
  generalize hb4 : (p.planeIndices.map encU16).flatten = b4 at e4
  obtain ⟨s5, e5, t5⟩ := saveSection_saved savePlane encPlane (fun t => (Emits.f32 t.distance).comp (Emits.vec3 t.normal)) p.planes _
    (kl (b1 ++ b2 ++ b3 ++ b4)) base _ (k _)
  rw [Ws.write_write w _ _ hw] at e5
  generalize hb5 : (p.planes.map encPlane).flatten = b5 at e5
  obtain ⟨s6, e6, t6⟩ := saveSection_saved saveTriple encTriple (fun t => ((Emits.u16 t.a).comp (Emits.u16 t.b)).comp (Emits.u16 t.c))
    p.triangleEdges _ (kl (b1 ++ b2 ++ b3 ++ b4 ++ b5)) base _ (k _)
  rw [Ws.write_write w _ _ hw] at e6
  generalize hb6 : (p.triangleEdges.map encTriple).flatten = b6 at e6
  obtain ⟨s7, e7, t7⟩ := saveSection_saved saveEdge encEdge (fun t => (Emits.u16 t.a).comp (Emits.u16 t.b)) p.edges _
    (kl (b1 ++ b2 ++ b3 ++ b4 ++ b5 ++ b6)) base _ (k _)
  rw [Ws.write_write w _ _ hw] at e7
  generalize hb7 : (p.edges.map encEdge).flatten = b7 at e7
  obtain ⟨s8, e8, t8⟩ := saveSection_saved Ws.f32 encU32 Emits.f32 p.edgeScores _ (kl (b1 ++ b2 ++ b3 ++ b4 ++ b5 ++ b6 ++ b7)) base _ (k _)
  rw [Ws.write_write w _ _ hw] at e8
  generalize hb8 : (p.edgeScores.map encU32).flatten = b8 at e8
  obtain ⟨s9, e9, t9⟩ := saveSection_saved Ws.u16 encU16 Emits.u16 p.wedgeMap _ (kl (b1 ++ b2 ++ b3 ++ b4 ++ b5 ++ b6 ++ b7 ++ b8)) base _ (k _)
  rw [Ws.write_write w _ _ hw] at e9
  generalize hb9 : (p.wedgeMap.map encU16).flatten = b9 at e9
  have hbytes : partBytes p = b1 ++ b2 ++ b3 ++ b4 ++ b5 ++ b6 ++ b7 ++ b8 ++ b9 := by
    unfold partBytes
    rw [hb1, hb2, hb3, hb4, hb5, hb6, hb7, hb8, hb9]
  refine ⟨⟨s1, s2, s3, s4, s5, s9, ⟨0, 0⟩, s6, s7, s8⟩,
    { mat := p.mat, triangles := ⟨BitVec.ofNat 32 off, p.triangles⟩, wedges := ⟨BitVec.ofNat 32 (off + b1.length), p.wedges.map fun t => (t, 0)⟩
      colors := ⟨BitVec.ofNat 32 (off + (b1 ++ b2).length), p.colors⟩
      planeIndices := ⟨BitVec.ofNat 32 (off + (b1 ++ b2 ++ b3).length), p.planeIndices⟩
      planes := ⟨BitVec.ofNat 32 (off + (b1 ++ b2 ++ b3 ++ b4).length), p.planes⟩
      wedgeMap := ⟨BitVec.ofNat 32 (off + (b1 ++ b2 ++ b3 ++ b4 ++ b5 ++ b6 ++ b7 ++ b8).length), p.wedgeMap⟩
      updates := (BitVec.ofInt 32 ((0 : Nat) - base), 0)
      triangleEdges := ⟨BitVec.ofNat 32 (off + (b1 ++ b2 ++ b3 ++ b4 ++ b5).length), p.triangleEdges⟩
      edges := ⟨BitVec.ofNat 32 (off + (b1 ++ b2 ++ b3 ++ b4 ++ b5 ++ b6).length), p.edges⟩
      edgeScores := ⟨BitVec.ofNat 32 (off + (b1 ++ b2 ++ b3 ++ b4 ++ b5 ++ b6 ++ b7).length), p.edgeScores⟩ }, ?_, ?_, ?_, rfl, ?_⟩
  rotate_left 1
  · have t10 : Emits (putSection base ⟨0, 0⟩) (encW 4 (BitVec.ofInt 32 ((0 : Nat) - base)) ++ encW 4 (0 : BitVec 32)) :=
      (Emits.u32 _).comp (Emits.u32 _)
    have H := ((((((((t1.comp t2).comp t3).comp t4).comp t5).comp t9).comp t10).comp t6).comp t7).comp t8
    intro w' hw'
    have H := H w' hw'
    unfold putSections
    dsimp only at H ⊢
    rw [H]
    congr 1
    simp only [MrmPartFile.savedHeads, List.append_assoc, Sec.savedHead, List.map_map, Function.comp_def]
  · simp only [MrmPartFile.part, List.map_map, Function.comp_def, List.map_id']
  · intro content a b hc ha hl
    rw [hbytes] at hc
    refine ⟨sec_in (a := a) (b := b2 ++ b3 ++ b4 ++ b5 ++ b6 ++ b7 ++ b8 ++ b9 ++ b) ?_ _ _ ?_ ha hl,
      sec_in (a := a ++ b1) (b := b3 ++ b4 ++ b5 ++ b6 ++ b7 ++ b8 ++ b9 ++ b) ?_ _ _ ?_ ?_ hl,
      sec_in (a := a ++ (b1 ++ b2)) (b := b4 ++ b5 ++ b6 ++ b7 ++ b8 ++ b9 ++ b) ?_ _ _ ?_ ?_ hl,
      sec_in (a := a ++ (b1 ++ b2 ++ b3)) (b := b5 ++ b6 ++ b7 ++ b8 ++ b9 ++ b) ?_ _ _ ?_ ?_ hl,
      sec_in (a := a ++ (b1 ++ b2 ++ b3 ++ b4)) (b := b6 ++ b7 ++ b8 ++ b9 ++ b) ?_ _ _ ?_ ?_ hl,
      sec_in (a := a ++ (b1 ++ b2 ++ b3 ++ b4 ++ b5 ++ b6 ++ b7 ++ b8)) (b := b) ?_ _ _ ?_ ?_ hl,
      sec_in (a := a ++ (b1 ++ b2 ++ b3 ++ b4 ++ b5)) (b := b7 ++ b8 ++ b9 ++ b) ?_ _ _ ?_ ?_ hl,
      sec_in (a := a ++ (b1 ++ b2 ++ b3 ++ b4 ++ b5 ++ b6)) (b := b8 ++ b9 ++ b) ?_ _ _ ?_ ?_ hl,
      sec_in (a := a ++ (b1 ++ b2 ++ b3 ++ b4 ++ b5 ++ b6 ++ b7)) (b := b9 ++ b) ?_ _ _ ?_ ?_ hl⟩
    all_goals first
      | (rw [List.length_append, ha]; done)
      | (intro t; simp [encTriple, encWedge, encU32, encU16, encPlane, encEdge, Vec3.mem_length, Vec2.mem_length]; done)
      | (rw [hc]; simp only [List.map_map, Function.comp_def, hb1, hb2, hb3, hb4, hb5, hb6, hb7, hb8, hb9, List.append_assoc])
  · unfold savePart
    rw [hbytes, e1]
    dsimp only
    rw [e2]
    dsimp only
    rw [e3]
    dsimp only
    rw [e4]
    dsimp only
    rw [e5]
    dsimp only
    rw [e6]
    dsimp only
    rw [e7]
    dsimp only
    rw [e8]
    dsimp only
    rw [e9]

theorem saveParts_saved {μ} (ps : List (MrmPart μ)) (w : Ws) (hw : w.pos ≤ w.data.length) (base off : Nat) (hp : w.pos = base + off) :
    ∃ ss, ∃ pfs : List (MrmPartFile μ), saveParts ps w = (w.write (ps.map partBytes).flatten, ss) ∧
      Emits (fun w => ss.foldl (fun w s => putSections base s w) w) (pfs.map MrmPartFile.savedHeads).flatten ∧ pfs.map MrmPartFile.part = ps ∧
      pfs.map MrmPartFile.mat = ps.map MrmPart.mat ∧
      ∀ content a b, content = a ++ (ps.map partBytes).flatten ++ b → a.length = off → content.length < 2 ^ 32 → ∀ pf ∈ pfs, pf.In content := by
  induction ps generalizing w off with
  | nil => exact ⟨[], [], by rw [List.map_nil, List.flatten_nil, Ws.write_nil w hw]; rfl, Emits.id, rfl, rfl, by simp⟩
  | cons p ps ih =>
    obtain ⟨s1, pf, e1, t1, p1, m1, c1⟩ := savePart_saved p w hw base off hp
    obtain ⟨ss, pfs, e2, t2, p2, m2, c2⟩ := ih (w.write (partBytes p)) (write_le w _ hw) (off + (partBytes p).length) (by
      simp only [Ws.write, hp]; omega)
    refine ⟨s1 :: ss, pf :: pfs, ?_, ?_, by rw [List.map_cons, p1, p2], by rw [List.map_cons, m1, m2, List.map_cons], ?_⟩
    · unfold saveParts
      rw [e1]
      dsimp only
      rw [e2, Ws.write_write w _ _ hw]
      rfl
    · intro w' hw'
      dsimp only
      rw [List.foldl_cons]
      exact (t1.comp t2) w' hw'
    · intro content a b hc ha hl q hq
      rw [List.map_cons, List.flatten_cons] at hc
      rcases List.mem_cons.1 hq with rfl | hq
      · exact c1 content a ((ps.map partBytes).flatten ++ b) (by rw [hc]; simp only [List.append_assoc]) ha hl
      · exact c2 content (a ++ partBytes p) b (by rw [hc]; simp only [List.append_assoc]) (by rw [List.length_append, ha]) hl q hq

theorem named {f : Ws → Ws} {bs : Bytes} (h : Emits f bs) : ∃ T, T = bs ∧ Emits f T := ⟨bs, rfl, h⟩

/-- What is written is a well formed file with other sizes. -/
theorem saveTo_saved {μ} (matBytes : List μ → Bytes) (g1 : Bool) (m : Mrm μ) (w : Ws) (hw : w.pos ≤ w.data.length) (mats : Nat → Rd (List μ))
    (hn : m.subMeshes.length < 256) (hmat : Reads (mats m.subMeshes.length) (matBytes (m.subMeshes.map MrmPart.mat)) (m.subMeshes.map MrmPart.mat))
    (ho : m.obbox.Small) : ∃ f : MrmFile μ, saveTo matBytes g1 m w = w.write f.saved ∧ (f.saved.length < 2 ^ 32 → f.Ok mats) ∧
      ∀ old, f.mesh old = { m with alphaTest := if g1 then old else if m.alphaTest = 0 then 0 else 1, materials := m.subMeshes.map MrmPart.mat } := by
  generalize hv : (if g1 then 0x305 else 0x905 : BitVec 16) = v
  let A := (m.positions.map Vec3.mem).flatten
  let N := (m.normals.map Vec3.mem).flatten
  have hA : Emits (fun w => m.positions.foldl (fun w v => w.vec3 v) w) A := Emits.foldl _ _ Emits.vec3 m.positions
  have hN : Emits (fun w => m.normals.foldl (fun w v => w.vec3 v) w) N := Emits.foldl _ _ Emits.vec3 m.normals
  have e1 := ((Emits.u16 v).comp (Emits.u32 0)) w hw
  have e2 := (((Emits.u16 v).comp (Emits.u32 0)).comp hA) w hw
  have e3 := ((((Emits.u16 v).comp (Emits.u32 0)).comp hA).comp hN) w hw
  dsimp only at e1 e2 e3
  generalize hbase : (w.write (encW 2 v ++ encW 4 (0 : BitVec 32))).pos = base
  have hbase' : base = w.pos + 6 := by rw [← hbase]; simp [Ws.write]
  obtain ⟨ss, pfs, e4, t4, p4, m4, c4⟩ := saveParts_saved m.subMeshes _ (write_le w (encW 2 v ++ encW 4 (0 : BitVec 32) ++ A ++ N) hw) base
    (A.length + N.length) (by rw [hbase']; simp [Ws.write]; omega)
  rw [Ws.write_write w _ _ hw] at e4
  generalize hB : (m.subMeshes.map partBytes).flatten = B at e4 c4
  have hpl : pfs.length = m.subMeshes.length := by rw [← p4, List.length_map]
  have hpos : (w.u16 v).pos = w.pos + (encW 2 v).length := rfl
  have hal : Emits (fun w : Ws => if g1 then w else w.u8 (if m.alphaTest ≠ 0 then 1 else 0)) (if v = 0x905 ∨ v = 0x805 then
      encW 1 (if m.alphaTest ≠ 0 then 1 else 0 : BitVec 8) else []) := by
    cases g1
    · have : v = 0x905 ∨ v = 0x805 := .inl hv.symm
      simp only [this, if_true]
      exact Emits.u8 _
    · have : ¬(v = 0x905 ∨ v = 0x805) := by rw [← hv]; decide
      simp only [this, if_false]
      exact Emits.id
  have z1 : BitVec.ofInt 32 ((base : Int) - base) = BitVec.ofNat 32 0 := by rw [Int.sub_self]; rfl
  have z2 : BitVec.ofInt 32 (((w.write (encW 2 v ++ encW 4 (0 : BitVec 32) ++ A)).pos : Int) - base) = BitVec.ofNat 32 A.length := by
    rw [show (((w.write (encW 2 v ++ encW 4 (0 : BitVec 32) ++ A)).pos : Nat) : Int) - base = (A.length : Int) by
      rw [hbase']; simp only [Ws.write, List.length_append, encW_length]; omega]
    exact BitVec.ofInt_natCast ..
  have hT := (((((((((Emits.u8 (BitVec.ofNat 8 m.subMeshes.length)).comp (Emits.u32 (BitVec.ofInt 32 ((base : Int) - base)))).comp
    (Emits.u32 (BitVec.ofNat 32 m.positions.length))).comp (Emits.u32 (BitVec.ofInt 32
      (((w.write (encW 2 v ++ encW 4 (0 : BitVec 32) ++ A)).pos : Int) - base)))).comp
    (Emits.u32 (BitVec.ofNat 32 m.normals.length))).comp t4).comp (Emits.write (matBytes (m.subMeshes.map MrmPart.mat)))).comp hal).comp
    (Emits.aabb m.bbox)).comp ((Obb.emits m.obbox).comp (Emits.write (List.replicate 10 0)))
  obtain ⟨T, hTb, hT⟩ := named hT
  let f : MrmFile μ :=
    { version := v, content := A ++ N ++ B, positions := ⟨BitVec.ofNat 32 0, m.positions⟩, normals := ⟨BitVec.ofNat 32 A.length, m.normals⟩
      parts := pfs, matBytes := matBytes (m.subMeshes.map MrmPart.mat), alpha := if m.alphaTest ≠ 0 then 1 else 0, bbox := m.bbox
      obbox := m.obbox, pad := List.replicate 16 0 }
  have hf : f.saved = encW 2 v ++ encW 4 (BitVec.ofNat 32 ((A ++ N ++ B).length + 4)) ++ (A ++ N ++ B) ++ T := by
    rw [hTb, z1, z2, ← hpl]
    simp only [MrmFile.saved, MrmFile.hasAlpha, Sec.head, f, List.append_assoc, List.take_replicate]
    rfl
  refine ⟨f, ?_, ?_, ?_⟩
  · have e0 : saveTo matBytes g1 m w = saveTail matBytes g1 m base base (w.write (encW 2 v ++ encW 4 (0 : BitVec 32) ++ A)).pos ss
        ((((w.write (encW 2 v ++ encW 4 (0 : BitVec 32) ++ (A ++ N ++ B))).seek ((w.pos + (encW 2 v).length : Nat) : Int) .beg).u32
          (BitVec.ofNat 32 ((A ++ N ++ B).length + 4))).seek
          (((w.write (encW 2 v ++ encW 4 (0 : BitVec 32) ++ (A ++ N ++ B))).pos : Nat) : Int) .beg) := by
      unfold saveTo
      rw [hv]
      dsimp only
      rw [← hbase]
      rw [e1] at *
      rw [e2] at *
      rw [e3, e4, hpos]
      dsimp only
      rw [show encW 2 v ++ encW 4 (0 : BitVec 32) ++ A ++ N ++ B = encW 2 v ++ encW 4 (0 : BitVec 32) ++ (A ++ N ++ B) by simp]
      have hl : (((w.write (encW 2 v ++ encW 4 (0 : BitVec 32) ++ (A ++ N ++ B))).pos : Nat) : Int) - ((w.pos + (encW 2 v).length : Nat) : Int) =
          (((A ++ N ++ B).length + 4 : Nat) : Int) := by
        simp only [Ws.write, List.length_append, encW_length]
        omega
      rw [hl]
      have hc : BitVec.ofInt 32 (((A ++ N ++ B).length + 4 : Nat) : Int) = BitVec.ofNat 32 ((A ++ N ++ B).length + 4) :=
        BitVec.ofInt_natCast ..
      rw [hc]
      rfl
    have hT' : saveTail matBytes g1 m base base (w.write (encW 2 v ++ encW 4 (0 : BitVec 32) ++ A)).pos ss
        (w.write (encW 2 v ++ encW 4 (BitVec.ofNat 32 ((A ++ N ++ B).length + 4)) ++ (A ++ N ++ B))) =
        (w.write (encW 2 v ++ encW 4 (BitVec.ofNat 32 ((A ++ N ++ B).length + 4)) ++ (A ++ N ++ B))).write T := by
      have := hT _ (write_le w (encW 2 v ++ encW 4 (BitVec.ofNat 32 ((A ++ N ++ B).length + 4)) ++ (A ++ N ++ B)) hw)
      unfold saveTail
      exact this
    rw [e0, patch w hw, hT', Ws.write_write w _ _ hw, hf]
  · intro hl
    have hcl : (A ++ N ++ B).length < 2 ^ 32 := by
      rw [hf] at hl
      simp only [List.length_append] at hl ⊢
      omega
    have hv3 (v : Vec3) : 0 < v.mem.length := by rw [Vec3.mem_length]; decide
    exact
      { content := hcl
        count := by show pfs.length < 256; omega
        positions := sec_in (a := []) (b := N ++ B) hv3 _ _ (by simp only [f, A, List.nil_append, List.append_assoc]) rfl hcl
        normals := sec_in (a := A) (b := B) hv3 _ _ rfl rfl hcl
        parts := fun p hp => c4 _ (A ++ N) [] (by simp only [f, List.append_nil]) (List.length_append ..) hcl p hp
        mats := by
          show Reads (mats pfs.length) _ (pfs.map MrmPartFile.mat)
          rw [hpl, m4]
          exact hmat
        obbox := ho
        pad := rfl }
  · intro old
    simp only [MrmFile.mesh, f, p4, m4, MrmFile.hasAlpha]
    congr 1
    cases g1
    · have : v = 0x905 ∨ v = 0x805 := .inl hv.symm
      simp only [this, if_true, Bool.false_eq_true, if_false]
      by_cases h0 : m.alphaTest = 0 <;> simp [h0]
    · have : ¬(v = 0x905 ∨ v = 0x805) := by rw [← hv]; decide
      simp only [this, if_false, if_true]

theorem save_saved {μ} (matBytes : List μ → Bytes) (g1 : Bool) (m : Mrm μ) (w : Ws) (hw : w.pos ≤ w.data.length) (mats : Nat → Rd (List μ))
    (hn : m.subMeshes.length < 256) (hmat : Reads (mats m.subMeshes.length) (matBytes (m.subMeshes.map MrmPart.mat)) (m.subMeshes.map MrmPart.mat))
    (ho : m.obbox.Small) : ∃ f : MrmFile μ, save matBytes g1 m w = w.write (chunkBytes 0xB100 f.saved ++ chunkBytes 0xB1FF []) ∧
      (f.saved.length < 2 ^ 32 → f.Ok mats) ∧
      ∀ old, f.mesh old = { m with alphaTest := if g1 then old else if m.alphaTest = 0 then 0 else 1, materials := m.subMeshes.map MrmPart.mat } := by
  obtain ⟨f, e, h⟩ := saveTo_saved matBytes g1 m _ (chunkHead_le 0xB100 w hw) mats hn hmat ho
  refine ⟨f, ?_, h⟩
  unfold save
  dsimp only
  rw [writeChunk_puts hw e, Emits.chunk Emits.id _ (write_le w _ hw), Ws.write_write w _ _ hw]

theorem heads_length {μ} (p : MrmPartFile μ) : p.savedHeads.length = p.heads.length := by
  simp only [MrmPartFile.savedHeads, MrmPartFile.heads, Sec.savedHead, Sec.head, List.length_append, encW_length]

theorem saved_length {μ} (f : MrmFile μ) (h : f.pad.length = 16) : f.saved.length + 6 = f.bytes.length := by
  have : ((f.parts.map MrmPartFile.savedHeads).flatten).length = ((f.parts.map MrmPartFile.heads).flatten).length := by
    induction f.parts with
    | nil => rfl
    | cons p ps ih => simp only [List.map_cons, List.flatten_cons, List.length_append, ih, heads_length]
  simp only [MrmFile.saved, MrmFile.bytes, List.length_append, encW_length, this, List.length_take, h]
  omega

end Mrm

namespace SoftSkin

theorem encMany_eq (bs : List Obb) : (bs.map Obb.enc).flatten = Obb.encMany bs := by
  induction bs with
  | nil => rfl
  | cons b bs ih => rw [List.map_cons, List.flatten_cons, ih]; rfl

theorem saveNodes_saved {μ} (m : SoftSkin μ) (f : SkinFile μ) (h1 : f.weights = m.weights) (h2 : f.gap = []) (h3 : f.wedgeNormals = m.wedgeNormals)
    (h4 : f.nodes = m.nodes) (h5 : f.bboxes = m.bboxes) (h6 : f.extra = []) (w : Ws) (hw : w.pos ≤ w.data.length) :
    saveNodes m w = w.write f.savedNodes := by
  have e1 := (Emits.u32 0).comp (Emits.foldl saveWeights encWeights emits_weights m.weights) w hw
  dsimp only at e1
  generalize hW : (m.weights.map encWeights).flatten = W at e1
  have e2 := ((((Emits.u32 (BitVec.ofNat 32 m.wedgeNormals.length)).comp (Emits.foldl saveNormal encNormal
    (fun n => (Emits.vec3 n.normal).comp (Emits.u32 n.index)) m.wedgeNormals)).comp (Emits.u16 (BitVec.ofNat 16 m.nodes.length))).comp
    (Emits.foldl Ws.u32 encU32 Emits.u32 m.nodes)).comp (Emits.foldl Obb.save Obb.enc Obb.emits m.bboxes)
  unfold saveNodes
  dsimp only
  rw [e1]
  have hp := Mrm.patch w hw [] W 0 (BitVec.ofInt 32 (((w.write (encW 4 (0 : BitVec 32) ++ W)).pos : Int) - w.pos))
  simp only [List.nil_append, List.length_nil, Nat.add_zero] at hp
  rw [hp]
  have hz : BitVec.ofInt 32 (((w.write (encW 4 (0 : BitVec 32) ++ W)).pos : Int) - w.pos) = BitVec.ofNat 32 (W.length + 4) := by
    rw [show (((w.write (encW 4 (0 : BitVec 32) ++ W)).pos : Nat) : Int) - w.pos = ((W.length + 4 : Nat) : Int) by
      simp only [Ws.write, List.length_append, encW_length]; omega]
    exact BitVec.ofInt_natCast ..
  have e3 := e2 _ (Mrm.write_le w (encW 4 (BitVec.ofInt 32 (((w.write (encW 4 (0 : BitVec 32) ++ W)).pos : Int) - w.pos)) ++ W) hw)
  rw [Ws.write_write w _ _ hw] at e3
  refine Eq.trans e3 ?_
  rw [hz]
  simp only [SkinFile.savedNodes, SkinFile.weightBytes, h1, h2, h3, h4, h5, h6, hW, encMany_eq, List.append_assoc, List.nil_append, List.append_nil,
    List.length_nil, Nat.add_zero]

theorem save_saved {μ} (matBytes : List μ → Bytes) (g1 : Bool) (m : SoftSkin μ) (w : Ws) (hw : w.pos ≤ w.data.length) (mats : Nat → Rd (List μ))
    (hn : m.mesh.subMeshes.length < 256)
    (hmat : Reads (mats m.mesh.subMeshes.length) (matBytes (m.mesh.subMeshes.map MrmPart.mat)) (m.mesh.subMeshes.map MrmPart.mat))
    (ho : m.mesh.obbox.Small) : ∃ f : SkinFile μ, save matBytes g1 m w = w.write f.saved ∧ (f.mesh.saved.length < 2 ^ 32 → f.mesh.Ok mats) ∧
      f.gap = [] ∧ f.extra = [] ∧
      ∀ old, f.skin old = { m with mesh := { m.mesh with alphaTest := if g1 then old else if m.mesh.alphaTest = 0 then 0 else 1,
                                                         materials := m.mesh.subMeshes.map MrmPart.mat } } := by
  unfold save
  dsimp only
  rw [Emits.chunk (Emits.u32 4) w hw]
  have h1 := Mrm.write_le w (chunkBytes 0xE100 (encW 4 (4 : BitVec 32))) hw
  obtain ⟨f, e, hok, hm⟩ := Mrm.saveTo_saved matBytes g1 m.mesh _ (chunkHead_le 0xB100 _ h1) mats hn hmat ho
  let g : SkinFile μ := { version := 4, mesh := f, weights := m.weights, gap := [], wedgeNormals := m.wedgeNormals, nodes := m.nodes
                          bboxes := m.bboxes, extra := [] }
  rw [writeChunk_puts h1 e, Ws.write_write w _ _ hw]
  have e2 := saveNodes_saved m g rfl rfl rfl rfl rfl rfl _ (chunkHead_le 0xE100 _ (Mrm.write_le w (chunkBytes 0xE100 (encW 4 (4 : BitVec 32)) ++
      chunkBytes 0xB100 f.saved) hw))
  rw [writeChunk_puts (Mrm.write_le w _ hw) e2, Ws.write_write w _ _ hw, Emits.chunk Emits.id _ (Mrm.write_le w _ hw),
    Ws.write_write w _ _ hw]
  refine ⟨g, ?_, hok, rfl, rfl, fun old => ?_⟩
  · simp only [SkinFile.saved, g, List.append_assoc]
  · simp only [SkinFile.skin, g, hm]

end SoftSkin

end Verif
