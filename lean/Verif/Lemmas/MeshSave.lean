import Verif.Lemmas.Meshes

/-! # Lemmas about saved meshes -/

namespace Verif

/-! ## Readers keep the content of the stream -/

namespace KeepsData

theorem pure {α} (a : α) : KeepsData (Pure.pure a : Rd α) := by
  intro st b st' hp h
  cases h
  exact ⟨rfl, hp⟩

theorem bind {α β} {p : Rd α} {f : α → Rd β} (hp : KeepsData p) (hf : ∀ a, KeepsData (f a)) : KeepsData (p >>= f) := by
  intro st b st' hpos h
  rw [Rd.bind_def] at h
  cases he : p st with
  | error e => rw [he] at h; cases h
  | ok r =>
    obtain ⟨a, st1⟩ := r
    rw [he] at h
    obtain ⟨e1, l1⟩ := hp st a st1 hpos he
    obtain ⟨e2, l2⟩ := hf a st1 b st' (by rw [e1]; exact l1) h
    exact ⟨by rw [e2, e1], by rw [← e1]; exact l2⟩

theorem word (w k : Nat) : KeepsData (Rd.word w k) := by
  intro st b st' hpos h
  obtain ⟨data, pos⟩ := st
  obtain ⟨v, e⟩ := Rd.word_ok w k data pos hpos
  rw [e] at h
  cases h
  exact ⟨rfl, by simp only; omega⟩

theorem u8 : KeepsData Rd.u8 := word _ _
theorem u16 : KeepsData Rd.u16 := word _ _
theorem u32 : KeepsData Rd.u32 := word _ _
theorem f32 : KeepsData Rd.f32 := word _ _

theorem padded (k : Nat) : KeepsData (Rd.readPadded k) := by
  intro st b st' hpos h
  obtain ⟨data, pos⟩ := st
  obtain ⟨v, e⟩ := Obb.padded_ok k data pos hpos
  rw [e] at h
  cases h
  exact ⟨rfl, by simp only; omega⟩

theorem vec3 : KeepsData Rd.vec3 := bind (padded _) fun _ => pure _
theorem vec2 : KeepsData Rd.vec2 := bind (padded _) fun _ => pure _

theorem tell : KeepsData Rd.tell := by
  intro st b st' hpos h
  cases h
  exact ⟨rfl, hpos⟩

theorem seek (off : Int) (wh : Whence) : KeepsData (Rd.seek off wh) := by
  intro st b st' hpos h
  unfold Rd.seek at h
  simp only at h
  split at h
  · cases h
    exact ⟨rfl, hpos⟩
  · cases h
    refine ⟨rfl, ?_⟩
    simp only
    omega

theorem times {α} {p : Rd α} (hp : KeepsData p) (n : Nat) : KeepsData (Rd.times p n) := by
  induction n with
  | zero => exact pure _
  | succ n ih => exact bind hp fun _ => bind ih fun _ => pure _

theorem aabb : KeepsData Aabb.load := bind vec3 fun _ => bind vec3 fun _ => pure _

theorem obb : KeepsData Obb.load := by
  intro st b st' hpos h
  obtain ⟨data, pos⟩ := st
  obtain ⟨v, pos', e, _, l⟩ := Obb.load_ok data _ pos hpos (by simp only at hpos; exact Nat.lt_succ_self _)
  unfold Obb.load at h
  simp only at h
  rw [e] at h
  cases h
  exact ⟨rfl, l⟩

end KeepsData

theorem Rd.bind_inv {α β} {p : Rd α} {f : α → Rd β} {s : Rs} {r : β × Rs} (h : (p >>= f) s = .ok r) :
    ∃ a s', p s = .ok (a, s') ∧ f a s' = .ok r := by
  rw [Rd.bind_def] at h
  cases he : p s with
  | error e => rw [he] at h; cases h
  | ok r' => exact ⟨r'.1, r'.2, rfl, by rw [he] at h; exact h⟩

namespace Mrm

theorem keeps_section (base : Nat) : KeepsData (loadSection base) :=
  KeepsData.u32.bind fun _ => KeepsData.u32.bind fun _ => .pure _

theorem keeps_sections (base : Nat) : KeepsData (loadSections base) :=
  (keeps_section _).bind fun _ => (keeps_section _).bind fun _ => (keeps_section _).bind fun _ => (keeps_section _).bind fun _ =>
    (keeps_section _).bind fun _ => (keeps_section _).bind fun _ => (keeps_section _).bind fun _ => (keeps_section _).bind fun _ =>
      (keeps_section _).bind fun _ => (keeps_section _).bind fun _ => .pure _

theorem keeps_readAt {α} {p : Rd α} (hp : KeepsData p) (s : MrmSection) : KeepsData (readAt p s) :=
  (KeepsData.seek _ _).bind fun _ => hp.times _

theorem keeps_triple : KeepsData loadTriple :=
  KeepsData.u16.bind fun _ => KeepsData.u16.bind fun _ => KeepsData.u16.bind fun _ => .pure _

theorem keeps_part {μ} (map : MrmSections) (mat : μ) : KeepsData (loadPart map mat) :=
  (keeps_readAt keeps_triple _).bind fun _ =>
  (keeps_readAt (KeepsData.vec3.bind fun _ => KeepsData.vec2.bind fun _ => KeepsData.u16.bind fun _ => KeepsData.u16.bind fun _ =>
    .pure _) _).bind fun _ =>
  (keeps_readAt KeepsData.f32 _).bind fun _ => (keeps_readAt KeepsData.u16 _).bind fun _ =>
  (keeps_readAt (KeepsData.f32.bind fun _ => KeepsData.vec3.bind fun _ => .pure _) _).bind fun _ =>
  (keeps_readAt keeps_triple _).bind fun _ =>
  (keeps_readAt (KeepsData.u16.bind fun _ => KeepsData.u16.bind fun _ => .pure _) _).bind fun _ =>
  (keeps_readAt KeepsData.f32 _).bind fun _ => (keeps_readAt KeepsData.u16 _).bind fun _ => .pure _

theorem keeps_parts {μ} (l : List (MrmSections × μ)) : KeepsData (loadParts l) := by
  induction l with
  | nil => exact .pure _
  | cons p l ih => exact (keeps_part p.1 p.2).bind fun _ => ih.bind fun _ => .pure _

theorem keeps_alpha (v : BitVec 16) (old : BitVec 8) : KeepsData (loadAlpha v old) := by
  unfold loadAlpha
  split
  · exact KeepsData.u8.bind fun _ => .pure _
  · exact .pure _

theorem keeps_from {μ} {mats : Nat → Rd (List μ)} (hm : ∀ n, KeepsData (mats n)) (m : Mrm μ) : KeepsData (loadFrom mats m) :=
  KeepsData.u16.bind fun _ => KeepsData.u32.bind fun _ => KeepsData.tell.bind fun _ => (KeepsData.seek _ _).bind fun _ =>
  KeepsData.u8.bind fun _ => (keeps_section _).bind fun _ => (keeps_section _).bind fun _ => ((keeps_sections _).times _).bind fun _ =>
  (hm _).bind fun _ => (keeps_alpha _ _).bind fun _ => KeepsData.aabb.bind fun _ => KeepsData.obb.bind fun _ =>
  (KeepsData.seek _ _).bind fun _ => KeepsData.tell.bind fun _ => (keeps_readAt .vec3 _).bind fun _ => (keeps_readAt .vec3 _).bind fun _ =>
  (keeps_parts _).bind fun _ => (KeepsData.seek _ _).bind fun _ => .pure _

theorem keeps_onChunk {μ} {mats : Nat → Rd (List μ)} (hm : ∀ n, KeepsData (mats n)) (m : Mrm μ) (t : BitVec 16) :
    KeepsData (onChunk mats m t) := by
  unfold onChunk
  split
  · exact (keeps_from hm m).bind fun _ => .pure _
  · split <;> exact .pure _

/-! ## What is written -/

/-- Some bytes are written here. -/
def Puts (f : Ws → Ws) (w : Ws) : Prop := ∃ bs, f w = w.write bs

theorem saveSection_puts {α} (f : α → Ws → Ws) (enc : α → Bytes) (h : ∀ a, Emits (f a) (enc a)) (xs : List α) (w : Ws)
    (hw : w.pos ≤ w.data.length) : ∃ bs s, saveSection f xs w = (w.write bs, s) :=
  ⟨(xs.map enc).flatten, ⟨w.pos, BitVec.ofInt 32 (((w.write (xs.map enc).flatten).pos : Int) - w.pos)⟩, by
    have e := Emits.foldl f enc h xs w hw
    dsimp only at e
    unfold saveSection
    dsimp only
    rw [e]⟩

theorem write_le (w : Ws) (bs : Bytes) (hw : w.pos ≤ w.data.length) : (w.write bs).pos ≤ (w.write bs).data.length := by
  simp only [Ws.write, splice_le _ _ _ hw, List.length_append, List.length_take, List.length_drop]
  omega

theorem savePart_puts {μ} (p : MrmPart μ) (w : Ws) (hw : w.pos ≤ w.data.length) : ∃ bs s, savePart p w = (w.write bs, s) := by
  unfold savePart
  obtain ⟨b1, s1, e1⟩ := saveSection_puts saveTriple _ (fun t => ((Emits.u16 t.a).comp (Emits.u16 t.b)).comp (Emits.u16 t.c)) p.triangles w hw
  have h1 := write_le w b1 hw
  obtain ⟨b2, s2, e2⟩ := saveSection_puts saveWedge _ (fun t => (((Emits.vec3 t.normal).comp (Emits.vec2 t.texture)).comp
    (Emits.u16 t.index)).comp (Emits.u16 0)) p.wedges _ h1
  rw [Ws.write_write w _ _ hw] at e2
  obtain ⟨b3, s3, e3⟩ := saveSection_puts Ws.f32 _ Emits.f32 p.colors _ (write_le w (b1 ++ b2) hw)
  rw [Ws.write_write w _ _ hw] at e3
  obtain ⟨b4, s4, e4⟩ := saveSection_puts Ws.u16 _ Emits.u16 p.planeIndices _ (write_le w (b1 ++ b2 ++ b3) hw)
  rw [Ws.write_write w _ _ hw] at e4
  obtain ⟨b5, s5, e5⟩ := saveSection_puts savePlane _ (fun t => (Emits.f32 t.distance).comp (Emits.vec3 t.normal)) p.planes _
    (write_le w (b1 ++ b2 ++ b3 ++ b4) hw)
  rw [Ws.write_write w _ _ hw] at e5
  obtain ⟨b6, s6, e6⟩ := saveSection_puts saveTriple _ (fun t => ((Emits.u16 t.a).comp (Emits.u16 t.b)).comp (Emits.u16 t.c))
    p.triangleEdges _ (write_le w (b1 ++ b2 ++ b3 ++ b4 ++ b5) hw)
  rw [Ws.write_write w _ _ hw] at e6
  obtain ⟨b7, s7, e7⟩ := saveSection_puts saveEdge _ (fun t => (Emits.u16 t.a).comp (Emits.u16 t.b)) p.edges _
    (write_le w (b1 ++ b2 ++ b3 ++ b4 ++ b5 ++ b6) hw)
  rw [Ws.write_write w _ _ hw] at e7
  obtain ⟨b8, s8, e8⟩ := saveSection_puts Ws.f32 _ Emits.f32 p.edgeScores _ (write_le w (b1 ++ b2 ++ b3 ++ b4 ++ b5 ++ b6 ++ b7) hw)
  rw [Ws.write_write w _ _ hw] at e8
  obtain ⟨b9, s9, e9⟩ := saveSection_puts Ws.u16 _ Emits.u16 p.wedgeMap _ (write_le w (b1 ++ b2 ++ b3 ++ b4 ++ b5 ++ b6 ++ b7 ++ b8) hw)
  rw [Ws.write_write w _ _ hw] at e9
  rw [e1]
  dsimp only
  rw [e2]
  dsimp only
  rw [e3]
  dsimp only
  rw [e4]
  dsimp only
  rw [e5]
  dsimp only
  rw [e6]
  dsimp only
  rw [e7]
  dsimp only
  rw [e8]
  dsimp only
  rw [e9]
  exact ⟨_, _, rfl⟩

theorem saveParts_puts {μ} (ps : List (MrmPart μ)) (w : Ws) (hw : w.pos ≤ w.data.length) : ∃ bs ss, saveParts ps w = (w.write bs, ss) := by
  induction ps generalizing w with
  | nil => exact ⟨[], [], by rw [Ws.write_nil w hw]; rfl⟩
  | cons p ps ih =>
    obtain ⟨b1, s1, e1⟩ := savePart_puts p w hw
    obtain ⟨b2, s2, e2⟩ := ih (w.write b1) (write_le w b1 hw)
    refine ⟨b1 ++ b2, s1 :: s2, ?_⟩
    unfold saveParts
    rw [e1]
    dsimp only
    rw [e2, Ws.write_write w _ _ hw]

/-- A word that is filled in later. -/
theorem patch (w : Ws) (hw : w.pos ≤ w.data.length) (a b : Bytes) (x y : BitVec 32) :
    (((w.write (a ++ encW 4 x ++ b)).seek ((w.pos + a.length : Nat) : Int) .beg).u32 y).seek
      (((w.write (a ++ encW 4 x ++ b)).pos : Nat) : Int) .beg = w.write (a ++ encW 4 y ++ b) := by
  have := splice_patch w.data a (encW 4 x) (encW 4 y) b w.pos hw (by simp)
  simp only [Ws.seek, Rd.seekTarget, Ws.u32, Ws.word, Ws.write, Int.toNat_natCast, this, List.length_append, encW_length]

theorem emits_section (base : Nat) (s : MrmSection) : ∃ bs, Emits (putSection base s) bs :=
  ⟨_, (Emits.u32 _).comp (Emits.u32 _)⟩

theorem emits_sections (base : Nat) (s : MrmSections) : ∃ bs, Emits (putSections base s) bs := by
  obtain ⟨b1, h1⟩ := emits_section base s.triangles
  obtain ⟨b2, h2⟩ := emits_section base s.wedges
  obtain ⟨b3, h3⟩ := emits_section base s.colors
  obtain ⟨b4, h4⟩ := emits_section base s.planeIndices
  obtain ⟨b5, h5⟩ := emits_section base s.planes
  obtain ⟨b6, h6⟩ := emits_section base s.wedgeMap
  obtain ⟨b7, h7⟩ := emits_section base s.vertexUpdates
  obtain ⟨b8, h8⟩ := emits_section base s.triangleEdges
  obtain ⟨b9, h9⟩ := emits_section base s.edges
  obtain ⟨b10, h10⟩ := emits_section base s.edgeScores
  have H := ((((((((h1.comp h2).comp h3).comp h4).comp h5).comp h6).comp h7).comp h8).comp h9).comp h10
  refine ⟨b1 ++ b2 ++ b3 ++ b4 ++ b5 ++ b6 ++ b7 ++ b8 ++ b9 ++ b10, fun w hw => ?_⟩
  unfold putSections
  exact H w hw

theorem emits_all (base : Nat) (ss : List MrmSections) : ∃ bs, Emits (fun w => ss.foldl (fun w s => putSections base s w) w) bs := by
  induction ss with
  | nil => exact ⟨[], Emits.id⟩
  | cons s ss ih =>
    obtain ⟨b1, h1⟩ := emits_sections base s
    obtain ⟨b2, h2⟩ := ih
    refine ⟨b1 ++ b2, fun w hw => ?_⟩
    dsimp only
    rw [List.foldl_cons]
    exact (h1.comp h2) w hw

/-- The part of `saveTo` behind the content. -/
def saveTail {μ} (matBytes : List μ → Bytes) (g1 : Bool) (m : Mrm μ) (offContent offPositions offNormals : Nat) (sections : List MrmSections)
    (w : Ws) : Ws :=
  let w := w.u8 (BitVec.ofNat 8 m.subMeshes.length)
  let w := w.u32 (BitVec.ofInt 32 ((offPositions : Int) - offContent))
  let w := w.u32 (BitVec.ofNat 32 m.positions.length)
  let w := w.u32 (BitVec.ofInt 32 ((offNormals : Int) - offContent))
  let w := w.u32 (BitVec.ofNat 32 m.normals.length)
  let w := sections.foldl (fun w s => putSections offContent s w) w
  let w := w.write (matBytes (m.subMeshes.map MrmPart.mat))
  let w := if g1 then w else w.u8 (if m.alphaTest ≠ 0 then 1 else 0)
  let w := m.bbox.save w
  let w := m.obbox.save w
  w.write (List.replicate 10 0)

theorem emits_tail {μ} (matBytes : List μ → Bytes) (g1 : Bool) (m : Mrm μ) (offContent offNormals : Nat) (sections : List MrmSections) :
    ∃ rest, Emits (saveTail matBytes g1 m offContent offContent offNormals sections)
      (encW 1 (BitVec.ofNat 8 m.subMeshes.length) ++ (encW 4 (0 : BitVec 32) ++ rest)) := by
  obtain ⟨b1, h1⟩ := emits_all offContent sections
  have h2 : ∃ b, Emits (fun w : Ws => if g1 then w else w.u8 (if m.alphaTest ≠ 0 then 1 else 0)) b := by
    cases g1
    · exact ⟨_, Emits.u8 _⟩
    · exact ⟨[], Emits.id⟩
  obtain ⟨b2, h2⟩ := h2
  have e0 : BitVec.ofInt 32 ((offContent : Int) - offContent) = 0 := by rw [Int.sub_self]; rfl
  have := (((((((((Emits.u8 (BitVec.ofNat 8 m.subMeshes.length)).comp (Emits.u32 (BitVec.ofInt 32 ((offContent : Int) - offContent)))).comp
    (Emits.u32 (BitVec.ofNat 32 m.positions.length))).comp (Emits.u32 (BitVec.ofInt 32 ((offNormals : Int) - offContent)))).comp
    (Emits.u32 (BitVec.ofNat 32 m.normals.length))).comp h1).comp (Emits.write (matBytes (m.subMeshes.map MrmPart.mat)))).comp h2).comp
    (Emits.aabb m.bbox)).comp ((Obb.emits m.obbox).comp (Emits.write (List.replicate 10 0)))
  rw [e0] at this
  simp only [List.append_assoc] at this
  apply Exists.intro
  unfold saveTail
  rw [e0]
  exact this

/-- What is written begins with a size that is four more than the size of the content. -/
theorem saveTo_puts {μ} (matBytes : List μ → Bytes) (g1 : Bool) (m : Mrm μ) (w : Ws) (hw : w.pos ≤ w.data.length) :
    ∃ (v : BitVec 16) (content rest : Bytes), saveTo matBytes g1 m w = w.write (encW 2 v ++ (encW 4 (BitVec.ofNat 32 (content.length + 4)) ++
      (content ++ (encW 1 (BitVec.ofNat 8 m.subMeshes.length) ++ (encW 4 (0 : BitVec 32) ++ rest))))) := by
  generalize hv : (if g1 then 0x305 else 0x905 : BitVec 16) = v
  let A := (m.positions.map Vec3.mem).flatten
  let N := (m.normals.map Vec3.mem).flatten
  have hA : Emits (fun w => m.positions.foldl (fun w v => w.vec3 v) w) A := Emits.foldl _ _ Emits.vec3 m.positions
  have hN : Emits (fun w => m.normals.foldl (fun w v => w.vec3 v) w) N := Emits.foldl _ _ Emits.vec3 m.normals
  have e1 := ((Emits.u16 v).comp (Emits.u32 0)) w hw
  have e2 := (((Emits.u16 v).comp (Emits.u32 0)).comp hA) w hw
  have e3 := ((((Emits.u16 v).comp (Emits.u32 0)).comp hA).comp hN) w hw
  dsimp only at e1 e2 e3
  obtain ⟨B, ss, e4⟩ := saveParts_puts m.subMeshes _ (write_le w (encW 2 v ++ encW 4 (0 : BitVec 32) ++ A ++ N) hw)
  rw [Ws.write_write w _ _ hw] at e4
  have hpos : (w.u16 v).pos = w.pos + (encW 2 v).length := rfl
  obtain ⟨rest, hT⟩ := emits_tail matBytes g1 m (w.write (encW 2 v ++ encW 4 (0 : BitVec 32))).pos
    (w.write (encW 2 v ++ encW 4 (0 : BitVec 32) ++ A)).pos ss
  refine ⟨v, A ++ N ++ B, rest, ?_⟩
  have e0 : saveTo matBytes g1 m w = saveTail matBytes g1 m (w.write (encW 2 v ++ encW 4 (0 : BitVec 32))).pos
      (w.write (encW 2 v ++ encW 4 (0 : BitVec 32))).pos (w.write (encW 2 v ++ encW 4 (0 : BitVec 32) ++ A)).pos ss
      ((((w.write (encW 2 v ++ encW 4 (0 : BitVec 32) ++ (A ++ N ++ B))).seek ((w.pos + (encW 2 v).length : Nat) : Int) .beg).u32
        (BitVec.ofNat 32 ((A ++ N ++ B).length + 4))).seek
        (((w.write (encW 2 v ++ encW 4 (0 : BitVec 32) ++ (A ++ N ++ B))).pos : Nat) : Int) .beg) := by
    unfold saveTo
    rw [hv]
    dsimp only
    rw [e1] at *
    rw [e2] at *
    rw [e3, e4, hpos]
    dsimp only
    rw [show encW 2 v ++ encW 4 (0 : BitVec 32) ++ A ++ N ++ B = encW 2 v ++ encW 4 (0 : BitVec 32) ++ (A ++ N ++ B) by simp]
    have hl : (((w.write (encW 2 v ++ encW 4 (0 : BitVec 32) ++ (A ++ N ++ B))).pos : Nat) : Int) - ((w.pos + (encW 2 v).length : Nat) : Int) =
        (((A ++ N ++ B).length + 4 : Nat) : Int) := by
      simp only [Ws.write, List.length_append, encW_length]
      omega
    rw [hl]
    have hc : BitVec.ofInt 32 (((A ++ N ++ B).length + 4 : Nat) : Int) = BitVec.ofNat 32 ((A ++ N ++ B).length + 4) :=
      BitVec.ofInt_natCast ..
    rw [hc]
    rfl
  rw [e0, patch w hw, hT _ (write_le w _ hw), Ws.write_write w _ _ hw]
  simp only [List.append_assoc]

end Mrm

/-- A chunk whose payload depends on where it is written. -/
theorem writeChunk_puts {type : BitVec 16} {cb : Ws → Ws} {w : Ws} {payload : Bytes} (hw : w.pos ≤ w.data.length)
    (h : cb ((w.u16 type).u32 0) = ((w.u16 type).u32 0).write payload) : writeChunk type cb w = w.write (chunkBytes type payload) := by
  rw [← Emits.chunk (Emits.write payload) w hw]
  unfold writeChunk
  simp only [h]

theorem chunkHead_le (type : BitVec 16) (w : Ws) (hw : w.pos ≤ w.data.length) :
    ((w.u16 type).u32 0).pos ≤ ((w.u16 type).u32 0).data.length :=
  Mrm.write_le _ _ (Mrm.write_le _ _ hw)

/-! ## What is read back -/

/-- One turn of the loop over the chunks that has ended well. -/
theorem readChunkedFuel_inv {σ} {cb : σ → BitVec 16 → Rd (σ × Bool)} {s r : σ} {t : BitVec 16} {payload pre rest : Bytes} {fuel : Nat}
    {st : Rs} (hk : KeepsData (cb s t)) (hl : payload.length < 2 ^ 32)
    (h : readChunkedFuel (simpleCb cb) fuel s ⟨pre ++ chunkBytes t payload ++ rest, pre.length⟩ = .ok (r, st)) :
    ∃ s' done st', cb s t ⟨pre ++ chunkBytes t payload ++ rest, pre.length + 6⟩ = .ok ((s', done), st') ∧
      (done = true ∧ r = s' ∨ rest = [] ∧ r = s' ∨ done = false ∧ ∃ fuel', readChunkedFuel (simpleCb cb) fuel' s'
        ⟨(pre ++ chunkBytes t payload) ++ rest, (pre ++ chunkBytes t payload).length⟩ = .ok (r, st)) := by
  cases fuel with
  | zero => cases h
  | succ fuel =>
    have hr := Reads.header t (BitVec.ofNat 32 payload.length) pre (payload ++ rest)
    have e : pre ++ (encW 2 t ++ encW 4 (BitVec.ofNat 32 payload.length)) ++ (payload ++ rest) = pre ++ chunkBytes t payload ++ rest := by
      simp [chunkBytes]
    rw [e] at hr
    have hsz : (BitVec.ofNat 32 payload.length).toNat = payload.length := by simp; exact hl
    simp only [readChunkedFuel] at h
    rw [Rd.bind_ok hr.1, Rd.bind_ok hr.2, Rd.bind_ok (show Rd.tell _ = .ok (pre.length + 6, _) from rfl), hsz] at h
    obtain ⟨⟨s', done, tgt⟩, st1, h1, h2⟩ := Rd.bind_inv h
    unfold simpleCb at h1
    obtain ⟨⟨s'', done'⟩, st', h3, h4⟩ := Rd.bind_inv h1
    cases h4
    obtain ⟨hd, hp⟩ := hk _ _ _ (by simp only [List.length_append, chunkBytes_length]; omega) h3
    obtain ⟨d1, p1⟩ := st1
    simp only at hd
    subst hd
    refine ⟨s', done, _, h3, ?_⟩
    dsimp only at h2
    rw [Rd.bind_ok (Rd.seek_beg (by simp only [List.length_append, chunkBytes_length]; omega))] at h2
    cases done with
    | true =>
      simp only [if_true] at h2
      cases h2
      exact .inl ⟨rfl, rfl⟩
    | false =>
      simp only [Bool.false_eq_true, if_false] at h2
      obtain ⟨b, st2, h5, h6⟩ := Rd.bind_inv h2
      cases h5
      by_cases hrest : rest = []
      · subst hrest
        rw [if_pos (by simp [chunkBytes_length]; omega)] at h6
        cases h6
        exact .inr (.inl ⟨rfl, rfl⟩)
      · rw [if_neg (by
          have : 0 < rest.length := List.length_pos_iff.2 hrest
          simp [chunkBytes_length]; omega)] at h6
        refine .inr (.inr ⟨rfl, fuel, ?_⟩)
        rw [show (pre ++ chunkBytes t payload).length = pre.length + 6 + payload.length by simp [chunkBytes_length]; omega]
        exact h6

namespace Mrm

/-- Bytes as `saveTo_puts` describes them never give any sub mesh. -/
theorem loadFrom_shifted {μ} (mats : Nat → Rd (List μ)) (m : Mrm μ) (data : Bytes) (pos : Nat) (hp : pos ≤ data.length) (v : BitVec 16)
    (content rest : Bytes) (c : BitVec 8) (hc : content.length + 4 < 2 ^ 32)
    (hd : data.drop pos = encW 2 v ++ (encW 4 (BitVec.ofNat 32 (content.length + 4)) ++ (content ++ (encW 1 c ++
      (encW 4 (0 : BitVec 32) ++ rest))))) {m' : Mrm μ} {st : Rs} (h : loadFrom mats m ⟨data, pos⟩ = .ok (m', st)) :
    m'.subMeshes = [] := by
  obtain ⟨e1, l1, d1⟩ := (Reads.u16 v).step hp hd
  obtain ⟨e2, l2, d2⟩ := (Reads.u32 (BitVec.ofNat 32 (content.length + 4))).step l1 d1
  have hz : (BitVec.ofNat 32 (content.length + 4)).toNat = content.length + 4 := by simp; exact hc
  generalize pos + (encW 2 v).length + (encW 4 (BitVec.ofNat 32 (content.length + 4))).length = base at e2 l2 d2
  have d3 : data.drop (base + (content.length + 4)) = encW 1 (0 : BitVec 8) ++ rest := by
    rw [← List.drop_drop, d2, ← List.drop_drop, List.drop_left]
    have : encW 1 c ++ (encW 4 (0 : BitVec 32) ++ rest) = (encW 1 c ++ encW 3 (0 : BitVec 24)) ++ (encW 1 (0 : BitVec 8) ++ rest) := by
      have : encW 4 (0 : BitVec 32) = encW 3 (0 : BitVec 24) ++ encW 1 (0 : BitVec 8) := by decide
      rw [this]; simp
    rw [this, show (4 : Nat) = (encW 1 c ++ encW 3 (0 : BitVec 24)).length by simp, List.drop_left]
  have l3 : base + (content.length + 4) ≤ data.length := by
    have := congrArg List.length d2
    simp only [List.length_drop, List.length_append, encW_length] at this
    omega
  have e3 : Rd.seek ((BitVec.ofNat 32 (content.length + 4)).toNat : Int) .cur ⟨data, base⟩ =
      .ok ((), ⟨data, base + (content.length + 4)⟩) := by
    rw [hz]
    exact Rd.seek_ok (by simp [Rd.seekTarget]) l3
  obtain ⟨e4, l4, d4⟩ := (Reads.u8 0).step l3 d3
  unfold loadFrom at h
  rw [Rd.bind_ok e1, Rd.bind_ok e2, Rd.bind_ok (show Rd.tell ⟨data, base⟩ = .ok (base, _) from rfl), Rd.bind_ok e3, Rd.bind_ok e4] at h
  obtain ⟨_, _, _, h⟩ := Rd.bind_inv h
  obtain ⟨_, _, _, h⟩ := Rd.bind_inv h
  obtain ⟨ss, _, hs, h⟩ := Rd.bind_inv h
  obtain ⟨_, _, _, h⟩ := Rd.bind_inv h
  obtain ⟨_, _, _, h⟩ := Rd.bind_inv h
  obtain ⟨_, _, _, h⟩ := Rd.bind_inv h
  obtain ⟨_, _, _, h⟩ := Rd.bind_inv h
  obtain ⟨_, _, _, h⟩ := Rd.bind_inv h
  obtain ⟨_, _, _, h⟩ := Rd.bind_inv h
  obtain ⟨_, _, _, h⟩ := Rd.bind_inv h
  obtain ⟨_, _, _, h⟩ := Rd.bind_inv h
  obtain ⟨ps, _, hps, h⟩ := Rd.bind_inv h
  obtain ⟨_, _, _, hz⟩ := Rd.bind_inv h
  cases hz
  cases hs
  cases hps
  rfl

/-- The bytes of a saved mesh. -/
theorem save_puts {μ} (matBytes : List μ → Bytes) (g1 : Bool) (m : Mrm μ) (w : Ws) (hw : w.pos ≤ w.data.length) :
    ∃ (v : BitVec 16) (content rest : Bytes), save matBytes g1 m w = w.write (chunkBytes 0xB100 (encW 2 v ++
      (encW 4 (BitVec.ofNat 32 (content.length + 4)) ++ (content ++ (encW 1 (BitVec.ofNat 8 m.subMeshes.length) ++
        (encW 4 (0 : BitVec 32) ++ rest))))) ++ chunkBytes 0xB1FF []) := by
  obtain ⟨v, content, rest, e⟩ := saveTo_puts matBytes g1 m _ (chunkHead_le 0xB100 w hw)
  refine ⟨v, content, rest, ?_⟩
  unfold save
  dsimp only
  rw [writeChunk_puts hw e, Emits.chunk Emits.id _ (write_le w _ hw), Ws.write_write w _ _ hw]

theorem no_parts {μ} (matBytes : List μ → Bytes) (g1 : Bool) (m m0 : Mrm μ) {mats : Nat → Rd (List μ)} (hm : ∀ n, KeepsData (mats n))
    (hl : (save matBytes g1 m ⟨[], 0⟩).data.length < 2 ^ 32) {m' : Mrm μ} {st : Rs}
    (h : load mats m0 ⟨(save matBytes g1 m ⟨[], 0⟩).data, 0⟩ = .ok (m', st)) : m'.subMeshes = [] := by
  obtain ⟨v, content, rest, e⟩ := save_puts matBytes g1 m ⟨[], 0⟩ (Nat.le_refl _)
  generalize hP : encW 2 v ++ (encW 4 (BitVec.ofNat 32 (content.length + 4)) ++ (content ++
    (encW 1 (BitVec.ofNat 8 m.subMeshes.length) ++ (encW 4 (0 : BitVec 32) ++ rest)))) = P at e
  have hdata : (save matBytes g1 m ⟨[], 0⟩).data = [] ++ chunkBytes 0xB100 P ++ chunkBytes 0xB1FF [] := by
    rw [e]
    simp [Ws.write, splice]
  have hPl : P.length < 2 ^ 32 := by
    rw [hdata] at hl
    simp only [List.length_append, chunkBytes_length] at hl
    omega
  have hcl : content.length + 4 < 2 ^ 32 := by
    rw [← hP] at hPl
    simp only [List.length_append, encW_length] at hPl
    omega
  rw [hdata] at h
  unfold load readChunked at h
  obtain ⟨m1, done, st1, h1, h2⟩ := readChunkedFuel_inv (pre := []) (keeps_onChunk hm m0 0xB100) hPl h
  unfold onChunk at h1
  rw [if_pos rfl] at h1
  obtain ⟨m2, st2, h3, h4⟩ := Rd.bind_inv h1
  cases h4
  have hz := loadFrom_shifted mats m0 ([] ++ chunkBytes 0xB100 P ++ chunkBytes 0xB1FF []) 6 (by simp [chunkBytes_length]) v content
    (rest ++ chunkBytes 0xB1FF []) _ hcl (by
      rw [← hP]
      simp [chunkBytes]
      rfl) h3
  rcases h2 with ⟨hd, _⟩ | ⟨hr, _⟩ | ⟨_, fuel', h5⟩
  · cases hd
  · cases hr
  · rw [show chunkBytes 0xB1FF [] = chunkBytes 0xB1FF [] ++ [] by simp, ← List.append_assoc] at h5
    obtain ⟨m3, done3, st3, h6, h7⟩ := readChunkedFuel_inv (keeps_onChunk hm _ 0xB1FF) (by simp) h5
    unfold onChunk at h6
    rw [if_neg (by decide), if_pos rfl] at h6
    cases h6
    rcases h7 with ⟨_, rfl⟩ | ⟨_, rfl⟩ | ⟨hd, _⟩
    · exact hz
    · exact hz
    · cases hd

end Mrm

namespace SoftSkin

theorem emits_weights (es : List SkinWeight) : Emits (saveWeights es) (encW 4 (BitVec.ofNat 32 es.length) ++
    (es.map fun e => encW 4 e.weight ++ e.position.mem ++ encW 1 e.node).flatten) :=
  (Emits.u32 _).comp (Emits.foldl saveWeight _ (fun e => ((Emits.f32 e.weight).comp (Emits.vec3 e.position)).comp (Emits.u8 e.node)) es)

theorem saveNodes_puts {μ} (m : SoftSkin μ) (w : Ws) (hw : w.pos ≤ w.data.length) : ∃ bs, saveNodes m w = w.write bs := by
  have h1 := (Emits.u32 0).comp (Emits.foldl saveWeights _ emits_weights m.weights) w hw
  dsimp only at h1
  generalize ((m.weights.map fun es => encW 4 (BitVec.ofNat 32 es.length) ++
    (es.map fun e => encW 4 e.weight ++ e.position.mem ++ encW 1 e.node).flatten).flatten) = W at h1
  have h2 := ((((Emits.u32 (BitVec.ofNat 32 m.wedgeNormals.length)).comp (Emits.foldl saveNormal _
    (fun n => (Emits.vec3 n.normal).comp (Emits.u32 n.index)) m.wedgeNormals)).comp (Emits.u16 (BitVec.ofNat 16 m.nodes.length))).comp
    (Emits.foldl Ws.u32 _ Emits.u32 m.nodes)).comp (Emits.foldl Obb.save _ Obb.emits m.bboxes)
  unfold saveNodes
  dsimp only
  rw [h1]
  have hp := Mrm.patch w hw [] W 0 (BitVec.ofInt 32 (((w.write (encW 4 (0 : BitVec 32) ++ W)).pos : Int) - w.pos))
  simp only [List.nil_append, List.length_nil, Nat.add_zero] at hp
  rw [hp]
  have h3 := h2 _ (Mrm.write_le w (encW 4 (BitVec.ofInt 32 (((w.write (encW 4 (0 : BitVec 32) ++ W)).pos : Int) - w.pos)) ++ W) hw)
  rw [Ws.write_write w _ _ hw] at h3
  exact ⟨_, h3⟩

theorem save_puts {μ} (matBytes : List μ → Bytes) (g1 : Bool) (m : SoftSkin μ) (w : Ws) (hw : w.pos ≤ w.data.length) :
    ∃ (v : BitVec 16) (content rest nodes : Bytes), save matBytes g1 m w = w.write (chunkBytes 0xE100 (encW 4 (4 : BitVec 32)) ++
      chunkBytes 0xB100 (encW 2 v ++ (encW 4 (BitVec.ofNat 32 (content.length + 4)) ++ (content ++
        (encW 1 (BitVec.ofNat 8 m.mesh.subMeshes.length) ++ (encW 4 (0 : BitVec 32) ++ rest))))) ++
      chunkBytes 0xE100 nodes ++ chunkBytes 0xE110 []) := by
  unfold save
  dsimp only
  rw [Emits.chunk (Emits.u32 4) w hw]
  have h1 := Mrm.write_le w (chunkBytes 0xE100 (encW 4 (4 : BitVec 32))) hw
  obtain ⟨v, content, rest, e⟩ := Mrm.saveTo_puts matBytes g1 m.mesh _ (chunkHead_le 0xB100 _ h1)
  rw [writeChunk_puts h1 e, Ws.write_write w _ _ hw]
  obtain ⟨nodes, e2⟩ := saveNodes_puts m _ (chunkHead_le 0xE100 _ (Mrm.write_le w (chunkBytes 0xE100 (encW 4 (4 : BitVec 32)) ++
      chunkBytes 0xB100 (encW 2 v ++ (encW 4 (BitVec.ofNat 32 (content.length + 4)) ++ (content ++
        (encW 1 (BitVec.ofNat 8 m.mesh.subMeshes.length) ++ (encW 4 (0 : BitVec 32) ++ rest)))))) hw))
  rw [writeChunk_puts (Mrm.write_le w _ hw) e2, Ws.write_write w _ _ hw, Emits.chunk Emits.id _ (Mrm.write_le w _ hw),
    Ws.write_write w _ _ hw]
  exact ⟨v, content, rest, nodes, rfl⟩

theorem keeps_head {μ} (mats : Nat → Rd (List μ)) (m : SoftSkin μ) : KeepsData (onChunk mats m 0xE100) := by
  unfold onChunk
  rw [if_pos rfl]
  exact KeepsData.u32.bind fun _ => .pure _

theorem keeps_mesh {μ} {mats : Nat → Rd (List μ)} (hm : ∀ n, KeepsData (mats n)) (m : SoftSkin μ) : KeepsData (onChunk mats m 0xB100) := by
  unfold onChunk
  rw [if_neg (by decide), if_pos rfl]
  exact (Mrm.keeps_from hm _).bind fun _ => .pure _

theorem keeps_end {μ} (mats : Nat → Rd (List μ)) (m : SoftSkin μ) : KeepsData (onChunk mats m 0xE110) := by
  unfold onChunk
  rw [if_neg (by decide), if_neg (by decide), if_neg (by decide), if_pos rfl]
  exact .pure _

theorem nothing_back {μ} (matBytes : List μ → Bytes) (g1 : Bool) (m m0 : SoftSkin μ) {mats : Nat → Rd (List μ)} (hm : ∀ n, KeepsData (mats n))
    (hl : (save matBytes g1 m ⟨[], 0⟩).data.length < 2 ^ 32) {m' : SoftSkin μ} {st : Rs}
    (h : load mats m0 ⟨(save matBytes g1 m ⟨[], 0⟩).data, 0⟩ = .ok (m', st)) :
    m'.mesh.subMeshes = [] ∧ m'.weights = m0.weights ∧ m'.wedgeNormals = m0.wedgeNormals ∧ m'.nodes = m0.nodes ∧ m'.bboxes = m0.bboxes := by
  obtain ⟨v, content, rest, nodes, e⟩ := save_puts matBytes g1 m ⟨[], 0⟩ (Nat.le_refl _)
  generalize hP : encW 2 v ++ (encW 4 (BitVec.ofNat 32 (content.length + 4)) ++ (content ++
    (encW 1 (BitVec.ofNat 8 m.mesh.subMeshes.length) ++ (encW 4 (0 : BitVec 32) ++ rest)))) = P at e
  generalize hH : chunkBytes 0xE100 (encW 4 (4 : BitVec 32)) = H at e
  have hdata : (save matBytes g1 m ⟨[], 0⟩).data = H ++ (chunkBytes 0xB100 P ++ (chunkBytes 0xE100 nodes ++ chunkBytes 0xE110 [])) := by
    rw [e]
    simp [Ws.write, splice]
  rw [hdata] at hl h
  simp only [List.length_append, chunkBytes_length] at hl
  have hPl : P.length < 2 ^ 32 := by omega
  have hNl : nodes.length < 2 ^ 32 := by omega
  have hcl : content.length + 4 < 2 ^ 32 := by
    rw [← hP] at hPl
    simp only [List.length_append, encW_length] at hPl
    omega
  unfold load readChunked at h
  rw [← hH] at h
  obtain ⟨m1, d1, st1, h1, h1'⟩ := readChunkedFuel_inv (pre := []) (keeps_head mats m0) (by simp) h
  rw [hH] at h1 h1'
  have e1 : m1 = m0 ∧ d1 = false := by
    unfold onChunk at h1
    rw [if_pos rfl] at h1
    obtain ⟨_, _, _, h4⟩ := Rd.bind_inv h1
    cases h4
    exact ⟨rfl, rfl⟩
  obtain ⟨rfl, rfl⟩ := e1
  rcases h1' with ⟨hd, _⟩ | ⟨hr, _⟩ | ⟨_, f1, h⟩
  · cases hd
  · cases hr
  rw [List.nil_append, ← List.append_assoc] at h
  obtain ⟨m2, d2, st2, h2, h2'⟩ := readChunkedFuel_inv (keeps_mesh hm m1) hPl h
  have e2 : d2 = false ∧ m2.mesh.subMeshes = [] ∧ m2.weights = m1.weights ∧ m2.wedgeNormals = m1.wedgeNormals ∧ m2.nodes = m1.nodes ∧
      m2.bboxes = m1.bboxes := by
    unfold onChunk at h2
    rw [if_neg (by decide), if_pos rfl] at h2
    obtain ⟨mesh, st3, h3, h4⟩ := Rd.bind_inv h2
    cases h4
    exact ⟨rfl, Mrm.loadFrom_shifted mats m1.mesh _ (H.length + 6) (by simp only [List.length_append, chunkBytes_length]; omega) v content
      (rest ++ (chunkBytes 0xE100 nodes ++ chunkBytes 0xE110 [])) _ hcl (by
        rw [← hP]
        simp [chunkBytes]
        rfl) h3, rfl, rfl, rfl, rfl⟩
  obtain ⟨rfl, e2⟩ := e2
  rcases h2' with ⟨hd, _⟩ | ⟨hr, _⟩ | ⟨_, f2, h⟩
  · cases hd
  · have := congrArg List.length hr
    simp [chunkBytes_length] at this
  rw [← List.append_assoc] at h
  obtain ⟨m3, d3, st3, h3, h3'⟩ := readChunkedFuel_inv (keeps_head mats m2) hNl h
  have e3 : m3 = m2 ∧ d3 = false := by
    unfold onChunk at h3
    rw [if_pos rfl] at h3
    obtain ⟨_, _, _, h4⟩ := Rd.bind_inv h3
    cases h4
    exact ⟨rfl, rfl⟩
  obtain ⟨rfl, rfl⟩ := e3
  rcases h3' with ⟨hd, _⟩ | ⟨hr, _⟩ | ⟨_, f3, h⟩
  · cases hd
  · cases hr
  rw [show chunkBytes 0xE110 [] = chunkBytes 0xE110 [] ++ [] by simp, ← List.append_assoc] at h
  obtain ⟨m4, d4, st4, h4, h4'⟩ := readChunkedFuel_inv (keeps_end mats m3) (by simp) h
  unfold onChunk at h4
  rw [if_neg (by decide), if_neg (by decide), if_neg (by decide), if_pos rfl] at h4
  cases h4
  rcases h4' with ⟨_, rfl⟩ | ⟨_, rfl⟩ | ⟨hd, _⟩
  · exact e2
  · exact e2
  · cases hd

end SoftSkin

/-- One turn of the loop over the chunks that is followed by another. -/
theorem readChunkedFuel_step {σ} {cb : ChunkCb σ} {s s' : σ} {c : Seg} (h : HandlesSeg cb s c s' false) (pre post : Bytes) (hp : post ≠ [])
    (fuel : Nat) : readChunkedFuel cb (fuel + 1) s ⟨pre ++ c.bytes ++ post, pre.length⟩ =
      readChunkedFuel cb fuel s' ⟨pre ++ c.bytes ++ post, (pre ++ c.bytes).length⟩ := by
  obtain ⟨pos', hcb⟩ := h pre post
  have hr := Reads.header c.type c.size pre (c.payload ++ post)
  have e : pre ++ (encW 2 c.type ++ encW 4 c.size) ++ (c.payload ++ post) = pre ++ c.bytes ++ post := by simp [Seg.bytes]
  rw [e] at hr
  simp only [readChunkedFuel]
  rw [Rd.bind_ok hr.1, Rd.bind_ok hr.2, Rd.bind_ok (show Rd.tell _ = .ok (pre.length + 6, _) from rfl), Rd.bind_ok hcb]
  dsimp only
  rw [Rd.bind_ok (Rd.seek_beg (by simp [Seg.bytes_length]; omega))]
  simp only [Bool.false_eq_true, if_false]
  have hne : 0 < post.length := List.length_pos_iff.2 hp
  rw [Rd.bind_ok (show Rd.eof _ = .ok (false, _) by
    simp only [Rd.eof]
    rw [decide_eq_false]
    simp [Seg.bytes_length]; omega)]
  simp only [Bool.false_eq_true, if_false]
  rw [show (pre ++ c.bytes).length = pre.length + 6 + c.payload.length by simp [Seg.bytes_length]; omega]

/-- A turn of the loop in which the handler fails. -/
theorem readChunkedFuel_fails {σ} {cb : ChunkCb σ} {s : σ} {t : BitVec 16} {e : Fail} (h : ∀ target st, cb s t target st = .error e)
    (pre payload post : Bytes) (fuel : Nat) :
    readChunkedFuel cb (fuel + 1) s ⟨pre ++ chunkBytes t payload ++ post, pre.length⟩ = .error e := by
  have hr := Reads.header t (BitVec.ofNat 32 payload.length) pre (payload ++ post)
  have e : pre ++ (encW 2 t ++ encW 4 (BitVec.ofNat 32 payload.length)) ++ (payload ++ post) = pre ++ chunkBytes t payload ++ post := by
    simp [chunkBytes]
  rw [e] at hr
  simp only [readChunkedFuel]
  rw [Rd.bind_ok hr.1, Rd.bind_ok hr.2, Rd.bind_ok (show Rd.tell _ = .ok (pre.length + 6, _) from rfl), Rd.bind_err (h _ _)]

namespace ModelMesh

theorem foldl_puts {α} (f : α → Ws → Ws) (h : ∀ a w, w.pos ≤ w.data.length → ∃ bs, f a w = w.write bs) (xs : List α) (w : Ws)
    (hw : w.pos ≤ w.data.length) : ∃ bs, xs.foldl (fun w a => f a w) w = w.write bs := by
  induction xs generalizing w with
  | nil => exact ⟨[], (Ws.write_nil w hw).symm⟩
  | cons a xs ih =>
    obtain ⟨b1, e1⟩ := h a w hw
    obtain ⟨b2, e2⟩ := ih (w.write b1) (Mrm.write_le w b1 hw)
    refine ⟨b1 ++ b2, ?_⟩
    rw [List.foldl_cons, e1, e2, Ws.write_write w _ _ hw]

theorem save_puts {μ} (matBytes : List μ → Bytes) (g1 : Bool) (meshes : List (SoftSkin μ)) (c : BitVec 32) (w : Ws)
    (hw : w.pos ≤ w.data.length) : ∃ rest, save matBytes g1 ⟨meshes, [], c⟩ w = w.write ((Seg.of 0xD000 (encW 4 (0x04030506 : BitVec 32))).bytes ++
      (Seg.of 0xD020 (encW 2 (0 : BitVec 16))).bytes ++ chunkBytes 0xB100 [] ++ rest) := by
  have h1 := ((Emits.chunk (type := 0xD000) (Emits.u32 0x04030506)).comp (Emits.chunk (type := 0xD020) (Emits.u16 0))).comp
    (Emits.chunk (type := 0xB100) Emits.id) w hw
  generalize hA : (chunkBytes 0xD000 (encW 4 (0x04030506 : BitVec 32)) ++ chunkBytes 0xD020 (encW 2 (0 : BitVec 16)) ++ chunkBytes 0xB100 []) = A
    at h1
  have hle := Mrm.write_le w A hw
  obtain ⟨bs, e⟩ := foldl_puts (fun (s : SoftSkin μ) w => s.save matBytes g1 w) (fun s w hw => by
    obtain ⟨_, _, _, _, e⟩ := SoftSkin.save_puts matBytes g1 s w hw
    exact ⟨_, e⟩) meshes _ (Mrm.write_le _ (encW 4 c) (chunkHead_le 0xD030 _ hle))
  rw [Ws.write_write _ _ _ (chunkHead_le 0xD030 _ hle)] at e
  have e2 : writeChunk 0xD030 (fun w => meshes.foldl (fun w s => s.save matBytes g1 w) (w.u32 c)) (w.write A) =
      (w.write A).write (chunkBytes 0xD030 (encW 4 c ++ bs)) := writeChunk_puts hle e
  refine ⟨chunkBytes 0xD030 (encW 4 c ++ bs) ++ chunkBytes 0xD040 [], ?_⟩
  unfold save
  dsimp only
  refine Eq.trans (b := writeChunk 0xD040 (fun w => w) (writeChunk 0xD030 (fun w => meshes.foldl (fun w s => s.save matBytes g1 w)
    (w.u32 c)) (w.write A))) (by rw [← h1]; rfl) ?_
  rw [e2, Ws.write_write w _ _ hw, Emits.chunk Emits.id _ (Mrm.write_le w _ hw), Ws.write_write w _ _ hw]
  rw [Seg.of_bytes, Seg.of_bytes, hA, List.append_assoc]

theorem load_saved {μ} (matBytes : List μ → Bytes) (g1 : Bool) (mats : Nat → Rd (List μ)) (meshes : List (SoftSkin μ)) (c : BitVec 32)
    (m0 : ModelMesh μ) : load mats m0 ⟨(save matBytes g1 ⟨meshes, [], c⟩ ⟨[], 0⟩).data, 0⟩ = .error .ub := by
  obtain ⟨rest, e⟩ := save_puts matBytes g1 meshes c ⟨[], 0⟩ (Nat.le_refl _)
  let s0 : St μ := ⟨m0, []⟩
  have h1 : HandlesSeg (onChunk mats) s0 (Seg.of 0xD000 (encW 4 (0x04030506 : BitVec 32))) s0 false := by
    refine .of_target (fun target => ?_) (by simp)
    unfold onChunk
    rw [if_pos rfl]
    exact (Reads.u32 _).loads.bind_pure
  have h2 : HandlesSeg (onChunk mats) s0 (Seg.of 0xD020 (encW 2 (0 : BitVec 16))) s0 false := by
    refine .of_target (fun target => ?_) (by simp)
    unfold onChunk
    rw [if_neg (by decide), if_neg (by decide), if_pos rfl]
    exact ((Reads.u16 0).bind (show Reads (do
      let names ← Rd.times (Rd.line true) (0 : BitVec 16).toNat
      pure (({ s0 with names := s0.names ++ names }, false, target) : St μ × Bool × Nat)) [] (s0, false, target) from Reads.pure _)).loads
  have h3 : ∀ target st, onChunk mats s0 0xB100 target st = .error .ub := by
    intro target st
    unfold onChunk
    rw [if_neg (by decide), if_neg (by decide), if_neg (by decide), if_pos rfl]
    exact Rd.bind_err rfl
  have hdata : (save matBytes g1 ⟨meshes, [], c⟩ ⟨[], 0⟩).data = [] ++ (Seg.of 0xD000 (encW 4 (0x04030506 : BitVec 32))).bytes ++
      ((Seg.of 0xD020 (encW 2 (0 : BitVec 16))).bytes ++ (chunkBytes 0xB100 [] ++ rest)) := by
    rw [e]
    simp [Ws.write, splice]
  rw [hdata]
  unfold load
  apply Rd.bind_err
  unfold readChunked
  have hf : ∀ n : Nat, (n + 22 + 1) = (((n + 20) + 1) + 1) + 1 := by intro n; omega
  have hn : ∃ n, ([] ++ (Seg.of 0xD000 (encW 4 (0x04030506 : BitVec 32))).bytes ++
      ((Seg.of 0xD020 (encW 2 (0 : BitVec 16))).bytes ++ (chunkBytes 0xB100 [] ++ rest))).length - 0 + 1 = n + 22 + 1 := by
    refine ⟨rest.length + 2, ?_⟩
    simp [Seg.bytes_length, chunkBytes_length, Seg.of]
    omega
  obtain ⟨n, hn⟩ := hn
  dsimp only
  rw [hn, hf]
  refine (readChunkedFuel_step h1 [] _ (fun h => by have := congrArg List.length h; simp [Seg.bytes_length] at this) _).trans ?_
  rw [← List.append_assoc]
  refine (readChunkedFuel_step h2 _ _ (fun h => by have := congrArg List.length h; simp [chunkBytes_length] at this) _).trans ?_
  rw [← List.append_assoc]
  exact readChunkedFuel_fails h3 _ _ _ _

end ModelMesh

end Verif
