import Verif.Lemmas.Mrm
import Verif.Lemmas.Segments
import Verif.Lemmas.Times
import Verif.Spec.Chunks

/-! # Lemmas about mesh files -/

namespace Verif

open Spec

theorem Reads.timesId {α} {p : Rd α} {enc : α → Bytes} (as : List α) (h : ∀ a ∈ as, Reads p (enc a) a) :
    Reads (Rd.times p as.length) (as.map enc).flatten as := by
  have := Reads.timesMap (f := id) as h
  simpa using this

namespace Mrm

theorem loads_from {μ} (mats : Nat → Rd (List μ)) (f : MrmFile μ) (hf : f.Ok mats) (m : Mrm μ) :
    Loads (loadFrom mats m) f.bytes (f.mesh m.alphaTest) := by
  intro pre post
  obtain ⟨pos', h, _⟩ := loadFrom_ok mats f hf m pre post
  exact ⟨pos', h⟩

theorem run_load {μ} (mats : Nat → Rd (List μ)) (f : MrmFile μ) (hf : f.Ok mats) (hl : f.bytes.length < 2 ^ 32) (m : Mrm μ) :
    SegRun (simpleCb (onChunk mats)) m f.segs (f.mesh m.alphaTest) true := by
  have h1 : HandlesSeg (simpleCb (onChunk mats)) m (Seg.of 0xB100 f.bytes) (f.mesh m.alphaTest) false := by
    refine .of_loads ?_ hl
    unfold onChunk
    rw [if_pos rfl]
    exact (loads_from mats f hf m).bind_pure
  have h2 : HandlesSeg (simpleCb (onChunk mats)) (f.mesh m.alphaTest) (Seg.of 0xB1FF []) (f.mesh m.alphaTest) true := by
    refine .of_loads ?_ (by simp)
    exact (Reads.pure _).loads
  exact .step h1 (.last h2)

theorem reads_load {μ} (mats : Nat → Rd (List μ)) (f : MrmFile μ) (hf : f.Ok mats) (hl : f.bytes.length < 2 ^ 32) (m : Mrm μ) :
    Reads (load mats m) (mrmBytes f) (f.mesh m.alphaTest) :=
  (Reads.segs (run_load mats f hf hl m)).congr f.segs_bytes rfl

end Mrm

namespace SoftSkin

theorem reads_weight (e : SkinWeight) : Reads loadWeight (encWeight e) e := by
  refine Reads.congr ((Reads.f32 e.weight).bind ((Reads.vec3 e.position).bind ((Reads.u8 e.node).bind_pure
    (f := fun c => (⟨e.weight, e.position, c⟩ : SkinWeight))))) ?_ rfl
  simp [encWeight]

theorem reads_weights (es : List SkinWeight) (h : es.length < 2 ^ 32) : Reads loadWeights (encWeights es) es := by
  have hz : (BitVec.ofNat 32 es.length).toNat = es.length := by simp; exact h
  refine (Reads.u32 (BitVec.ofNat 32 es.length)).bind ?_
  rw [hz]
  exact Reads.timesId es fun e _ => reads_weight e

theorem reads_normal (n : SkinNormal) : Reads loadNormal (encNormal n) n :=
  (Reads.vec3 n.normal).bind ((Reads.u32 n.index).bind_pure (f := fun c => (⟨n.normal, c⟩ : SkinNormal)))

theorem reads_boxes (bs : List Obb) (h : Obb.SmallMany bs) : Reads (Rd.times Obb.load bs.length) (Obb.encMany bs) bs := by
  induction bs with
  | nil => exact Reads.pure _
  | cons b bs ih =>
    exact (Obb.reads_load b h.1).bind ((ih h.2).bind_pure (f := fun cs => b :: cs))

theorem loads_nodes {μ} {mats : Nat → Rd (List μ)} (f : SkinFile μ) (hf : f.Ok mats) (m : SoftSkin μ)
    (hm : m.mesh.positions.length = f.weights.length) :
    Loads (loadNodes m) f.nodeBytes { m with weights := f.weights, wedgeNormals := f.wedgeNormals, nodes := f.nodes, bboxes := f.bboxes } := by
  intro pre post
  generalize hdata : pre ++ f.nodeBytes ++ post = data
  have hd0 : data.drop pre.length = f.nodeBytes ++ post := by rw [← hdata]; simp
  have hp0 : pre.length ≤ data.length := by rw [← hdata]; simp
  have hsz := hf.size
  rw [SkinFile.nodeBytes] at hd0 hsz
  simp only [List.append_assoc] at hd0
  simp only [List.length_append] at hsz
  obtain ⟨e1, l1, d1⟩ := (Reads.u32 (BitVec.ofNat 32 (f.weightBytes.length + f.gap.length))).step hp0 hd0
  have hz : (BitVec.ofNat 32 (f.weightBytes.length + f.gap.length)).toNat = f.weightBytes.length + f.gap.length := by simp; omega
  generalize hb : pre.length + (encW 4 (BitVec.ofNat 32 (f.weightBytes.length + f.gap.length))).length = b at e1 l1 d1
  obtain ⟨e2, l2, d2⟩ := (Reads.timesId f.weights (enc := encWeights) fun es h => reads_weights es (hf.weight es h)).step l1 d1
  rw [show (f.weights.map encWeights).flatten = f.weightBytes from rfl] at e2 l2 d2
  have l3 : b + f.weightBytes.length + f.gap.length ≤ data.length := by
    have := congrArg List.length d2
    simp only [List.length_drop, List.length_append] at this
    omega
  have d3 := congrArg (List.drop f.gap.length) d2
  rw [List.drop_drop, List.drop_left] at d3
  have e3 : skipTo (b + (f.weightBytes.length + f.gap.length)) ⟨data, b + f.weightBytes.length⟩ =
      .ok ((), ⟨data, b + f.weightBytes.length + f.gap.length⟩) := by
    unfold skipTo
    rw [Rd.bind_ok (show Rd.tell ⟨data, b + f.weightBytes.length⟩ = .ok (b + f.weightBytes.length, _) from rfl)]
    by_cases h : f.gap.length = 0
    · rw [if_neg (by omega), h]
      rfl
    · rw [if_pos (by omega), show b + (f.weightBytes.length + f.gap.length) = b + f.weightBytes.length + f.gap.length by omega]
      exact Rd.seek_beg l3
  obtain ⟨e4, l4, d4⟩ := (Reads.u32 (BitVec.ofNat 32 f.wedgeNormals.length)).step l3 d3
  have hn : (BitVec.ofNat 32 f.wedgeNormals.length).toNat = f.wedgeNormals.length := by simp; exact hf.normals
  obtain ⟨e5, l5, d5⟩ := (Reads.timesId f.wedgeNormals (enc := encNormal) fun n _ => reads_normal n).step l4 d4
  obtain ⟨e6, l6, d6⟩ := (Reads.u16 (BitVec.ofNat 16 f.nodes.length)).step l5 d5
  have hk : (BitVec.ofNat 16 f.nodes.length).toNat = f.nodes.length := by simp; exact hf.nodes
  obtain ⟨e7, l7, d7⟩ := (Reads.timesId f.nodes (enc := encU32) fun n _ => Reads.u32 n).step l6 d6
  obtain ⟨e8, l8, d8⟩ := (reads_boxes f.bboxes hf.small).step l7 d7
  rw [hf.bboxes] at e8
  apply Exists.intro
  unfold loadNodes
  rw [Rd.bind_ok e1, Rd.bind_ok (show Rd.tell ⟨data, b⟩ = .ok (b, _) from rfl), hm, Rd.bind_ok e2, hz, Rd.bind_ok e3, Rd.bind_ok e4, hn,
    Rd.bind_ok e5, Rd.bind_ok e6, hk, Rd.bind_ok e7, Rd.bind_ok e8]
  rfl

theorem run_load {μ} (mats : Nat → Rd (List μ)) (f : SkinFile μ) (hf : f.Ok mats) (m : SoftSkin μ) :
    SegRun (simpleCb (onChunk mats)) m f.segs (f.skin m.mesh.alphaTest) true := by
  have h1 : HandlesSeg (simpleCb (onChunk mats)) m (Seg.of 0xE100 (encW 4 f.version)) m false := by
    refine .of_loads ?_ (by simp)
    unfold onChunk
    rw [if_pos rfl]
    exact (Reads.u32 f.version).loads.bind_pure
  have h2 : HandlesSeg (simpleCb (onChunk mats)) m (Seg.of 0xB100 f.mesh.bytes) { m with mesh := f.mesh.mesh m.mesh.alphaTest } false := by
    refine .of_loads ?_ hf.meshSize
    unfold onChunk
    rw [if_neg (by decide), if_pos rfl]
    exact (Mrm.loads_from mats f.mesh hf.mesh m.mesh).bind_pure (f := fun mesh => ({ m with mesh }, false))
  have h3 : HandlesSeg (simpleCb (onChunk mats)) { m with mesh := f.mesh.mesh m.mesh.alphaTest } (Seg.of 0xB1FF f.nodeBytes)
      (f.skin m.mesh.alphaTest) false := by
    refine .of_loads ?_ hf.size
    unfold onChunk
    rw [if_neg (by decide), if_neg (by decide), if_pos rfl]
    exact (loads_nodes f hf { m with mesh := f.mesh.mesh m.mesh.alphaTest } hf.weights.symm).bind_pure (f := fun m => (m, false))
  have h4 : HandlesSeg (simpleCb (onChunk mats)) (f.skin m.mesh.alphaTest) (Seg.of 0xE110 []) (f.skin m.mesh.alphaTest) true := by
    refine .of_loads ?_ (by simp)
    exact (Reads.pure _).loads
  exact .step h1 (.step h2 (.step h3 (.last h4)))

theorem reads_load {μ} (mats : Nat → Rd (List μ)) (f : SkinFile μ) (hf : f.Ok mats) (m : SoftSkin μ) :
    Reads (load mats m) f.bytes (f.skin m.mesh.alphaTest) :=
  (Reads.segs (run_load mats f hf m)).congr f.segs_bytes rfl

end SoftSkin

/-! ## Names -/

theorem noSpace_name {n : Bytes} (h : NameOk n) (post : Bytes) : NoSpace (encLine n ++ post) := by
  obtain ⟨_, c, rest, rfl, hc⟩ := h
  refine ⟨fun c' rest' e => .inr ?_, ?_⟩
  · simp only [encLine, List.cons_append, List.cons.injEq] at e
    rw [← e.1]
    exact hc
  · simp [encLine]

theorem loads_names (ns : List Bytes) (h : ∀ n ∈ ns, NameOk n) :
    Loads (Rd.times (Rd.line true) ns.length) (ns.map encLine).flatten ns := by
  induction ns with
  | nil => exact (Reads.pure _).loads
  | cons n ns ih =>
    have hn := h n (by simp)
    have ih := ih fun m hm => h m (List.mem_cons_of_mem _ hm)
    cases ns with
    | nil =>
      have := (Loads.lineSkip n hn.1).bind_pure (f := fun a => [a])
      exact this.congr (by simp [encLine]) rfl
    | cons m ns =>
      exact Loads.bindIf (ReadsIf.lineSkip n hn.1) (fun post => by
        have := noSpace_name (h m (by simp)) ((ns.map encLine).flatten ++ post)
        simpa using this) (ih.bind_pure (f := fun bs => n :: bs))

/-- The names, followed by something that does not look like white space. -/
theorem readsIf_names (ns : List Bytes) (h : ∀ n ∈ ns, NameOk n) :
    ReadsIf (Rd.times (Rd.line true) ns.length) (ns.map encLine).flatten ns NoSpace := by
  induction ns with
  | nil => exact ReadsIf.pure _ _
  | cons n ns ih =>
    have hn := h n (by simp)
    have ih := ih fun m hm => h m (List.mem_cons_of_mem _ hm)
    refine ReadsIf.bind (ReadsIf.lineSkip n hn.1) (ih.bind_pure (f := fun bs => n :: bs)) fun post hp => ?_
    cases ns with
    | nil => simpa using hp
    | cons m ns =>
      have := noSpace_name (h m (by simp)) ((ns.map encLine).flatten ++ post)
      simpa using this

namespace ModelMesh

theorem setAttachment_new {μ} (as : List (Bytes × Mrm μ)) (name : Bytes) (m : Mrm μ) (h : name ∉ as.map Prod.fst) :
    setAttachment as name m = as ++ [(name, m)] := by
  unfold setAttachment
  rw [List.filter_eq_self.2]
  intro a ha
  have : a.1 ≠ name := fun e => h (e ▸ List.mem_map_of_mem ha)
  simpa using this

theorem attachment_new {μ} (as : List (Bytes × Mrm μ)) (name : Bytes) (h : name ∉ as.map Prod.fst) :
    attachment as name = newMrm := by
  unfold attachment
  rw [List.find?_eq_none.2]
  intro a ha
  have : a.1 ≠ name := fun e => h (e ▸ List.mem_map_of_mem ha)
  simpa using this

/-- The chunks of the attachments. -/
theorem run_protos {μ} (mats : Nat → Rd (List μ)) (names : List Bytes) (o : ModelMesh μ) (before after : List (Bytes × MrmFile μ))
    (hn : names = (before ++ after).map Prod.fst) (ho : o.attachments = before.map fun a => (a.1, a.2.mesh 1))
    (hd : names.Nodup) (ha : ∀ a ∈ after, a.2.Ok mats ∧ a.2.bytes.length < 2 ^ 32) (hne : after ≠ []) :
    SegRun (onChunk mats) ⟨o, names⟩ (after.map fun a => Seg.of 0xB100 a.2.bytes)
      ⟨{ o with attachments := (before ++ after).map fun a => (a.1, a.2.mesh 1) }, names⟩ false := by
  induction after generalizing o before with
  | nil => exact absurd rfl hne
  | cons a after ih =>
    obtain ⟨hok, hl⟩ := ha a (by simp)
    have hnew : a.1 ∉ o.attachments.map Prod.fst := by
      rw [ho]
      rw [hn] at hd
      simp only [List.map_append, List.map_cons, List.map_map] at hd ⊢
      have := (List.nodup_append.1 hd).2.2
      intro hm
      rw [show (Prod.fst ∘ fun a : Bytes × MrmFile μ => (a.1, a.2.mesh 1)) = Prod.fst from rfl] at hm
      exact this _ hm _ (by simp) rfl
    have h1 : HandlesSeg (onChunk mats) ⟨o, names⟩ (Seg.of 0xB100 a.2.bytes)
        ⟨{ o with attachments := (before ++ [a]).map fun a => (a.1, a.2.mesh 1) }, names⟩ false := by
      refine .of_target (fun target => ?_) hl
      unfold onChunk
      rw [if_neg (by decide), if_neg (by decide), if_neg (by decide), if_pos rfl]
      have hp : Loads (onProto mats ⟨o, names⟩) a.2.bytes
          ⟨{ o with attachments := (before ++ [a]).map fun a => (a.1, a.2.mesh 1) }, names⟩ := by
        unfold onProto
        have hname : names[o.attachments.length]? = some a.1 := by
          rw [hn, ho]
          simp
        simp only [hname]
        rw [attachment_new _ _ hnew]
        have := (Mrm.loads_from mats a.2 hok newMrm).bind_pure (f := fun m =>
          ({ obj := { o with attachments := setAttachment o.attachments a.1 m }, names := names } : St μ))
        refine this.congr rfl ?_
        rw [setAttachment_new _ _ _ hnew, ho, List.map_append]
        rfl
      exact hp.bind_pure (f := fun s => (s, false, target))
    cases after with
    | nil => exact .last h1
    | cons b after =>
      have := ih { o with attachments := (before ++ [a]).map fun a => (a.1, a.2.mesh 1) } (before ++ [a]) (by rw [hn]; simp) rfl
        (fun c hc => ha c (List.mem_cons_of_mem _ hc)) (by simp)
      refine .step h1 ?_
      simpa using this

theorem run_load {μ} (mats : Nat → Rd (List μ)) (f : ModelMeshFile μ) (hf : f.Ok mats) (c : BitVec 32) :
    SegRun (onChunk mats) ⟨⟨[], [], c⟩, []⟩ f.segs ⟨f.mesh, f.attachments.map Prod.fst⟩ true := by
  let s0 : St μ := ⟨⟨[], [], c⟩, []⟩
  let names := f.attachments.map Prod.fst
  let s1 : St μ := ⟨⟨[], [], c⟩, names⟩
  let atts := f.attachments.map fun a => (a.1, a.2.mesh 1)
  let s2 : St μ := ⟨⟨[], atts, c⟩, names⟩
  let s3 : St μ := ⟨f.mesh, names⟩
  have h1 : HandlesSeg (onChunk mats) s0 (Seg.of 0xD000 (encW 4 f.version)) s0 false := by
    refine .of_target (fun target => ?_) (by simp)
    unfold onChunk
    rw [if_pos rfl]
    exact (Reads.u32 f.version).loads.bind_pure
  have h2 : HandlesSeg (onChunk mats) s0 (Seg.of 0xD010 (f.date.enc ++ encLine f.source)) s0 false := by
    refine .of_target (fun target => ?_) ?_
    · unfold onChunk
      rw [if_neg (by decide), if_pos rfl]
      exact Loads.bind (Reads.date f.date) ((Reads.lineLf f.source hf.source).loads.bind_pure)
    · have := hf.sourceSize
      simp only [encLine, Date.enc, List.length_append, encW_length, List.length_cons, List.length_nil]
      omega
  have hcnt : (BitVec.ofNat 16 f.attachments.length).toNat = f.attachments.length := by simp; exact hf.attachmentCount
  have h3 : HandlesSeg (onChunk mats) s0 (Seg.of 0xD020 (encW 2 (BitVec.ofNat 16 f.attachments.length) ++
      (f.attachments.map fun a => encLine a.1).flatten)) s1 false := by
    refine .of_target (fun target => ?_) ?_
    · unfold onChunk
      rw [if_neg (by decide), if_neg (by decide), if_pos rfl]
      refine Loads.bind (Reads.u16 _) ?_
      rw [hcnt]
      have := loads_names names (by
        intro n hn
        obtain ⟨a, ha, rfl⟩ := List.mem_map.1 hn
        exact hf.names a ha)
      have := this.bind_pure (f := fun ns => (({ s0 with names := s0.names ++ ns }, false, target) : St μ × Bool × Nat))
      refine Loads.congr (p := (do
        let ns ← Rd.times (Rd.line true) f.attachments.length
        pure ({ s0 with names := s0.names ++ ns }, false, target))) ?_ rfl rfl
      have e : names.length = f.attachments.length := by simp [names]
      rw [e] at this
      refine this.congr ?_ (by simp [s0, s1])
      simp only [names, List.map_map]
      rfl
    · have := hf.nameSize
      simp only [List.length_append, encW_length]
      omega
  have hk : (BitVec.ofNat 16 f.skins.length).toNat = f.skins.length := by simp; exact hf.skinCount
  have h5 : HandlesSeg (onChunk mats) s2 ⟨0xD030, f.skinSize, encW 4 f.checksum ++ (encW 2 (BitVec.ofNat 16 f.skins.length) ++
      (f.skins.map SkinFile.bytes).flatten)⟩ s3 false := by
    intro pre post
    generalize hc : (⟨0xD030, f.skinSize, encW 4 f.checksum ++ (encW 2 (BitVec.ofNat 16 f.skins.length) ++
      (f.skins.map SkinFile.bytes).flatten)⟩ : Seg) = seg
    generalize hdata : pre ++ seg.bytes ++ post = data
    have hlen : pre.length + 6 ≤ data.length := by rw [← hdata]; simp [Seg.bytes_length]; omega
    have hd0 : data.drop (pre.length + 6) = seg.payload ++ post := by
      rw [← hdata, List.append_assoc, ← List.drop_drop, List.drop_left]
      simp only [Seg.bytes, List.append_assoc]
      rw [show (6 : Nat) = (encW 2 seg.type).length + (encW 4 seg.size).length by simp, ← List.drop_drop, List.drop_left, List.drop_left]
    rw [← hc] at hd0 ⊢
    simp only [List.append_assoc] at hd0
    obtain ⟨e1, l1, d1⟩ := (Reads.u32 f.checksum).step hlen hd0
    obtain ⟨e2, l2, d2⟩ := (Reads.u16 (BitVec.ofNat 16 f.skins.length)).step l1 d1
    obtain ⟨e3, l3, d3⟩ := (Reads.timesMap (p := SoftSkin.load mats newSkin) (enc := SkinFile.bytes) (f := fun s => s.skin 1) f.skins
      fun s hs => SoftSkin.reads_load mats s (hf.skins s hs) newSkin).step l2 d2
    apply Exists.intro
    dsimp only
    unfold onChunk
    rw [if_neg (by decide), if_neg (by decide), if_neg (by decide), if_neg (by decide), if_pos rfl]
    unfold onSkins
    rw [Rd.bind_ok e1, Rd.bind_ok e2, hk, Rd.bind_ok e3, Rd.bind_ok (show Rd.tell ⟨data, _⟩ = .ok (_, ⟨data, _⟩) from rfl)]
    simp only [List.length_append]
    rw [show pre.length + 6 + ((encW 4 f.checksum).length + ((encW 2 (BitVec.ofNat 16 f.skins.length)).length +
      (f.skins.map SkinFile.bytes).flatten.length)) = pre.length + 6 + (encW 4 f.checksum).length +
      (encW 2 (BitVec.ofNat 16 f.skins.length)).length + (f.skins.map SkinFile.bytes).flatten.length by omega]
    rfl
  have h6 : HandlesSeg (onChunk mats) s3 (Seg.of 0xD040 []) s3 true := by
    refine .of_target (fun target => ?_) (by simp)
    exact (Reads.pure _).loads
  have h45 : SegRun (onChunk mats) s1 ((f.attachments.map fun a => Seg.of 0xB100 a.2.bytes) ++
      [⟨0xD030, f.skinSize, encW 4 f.checksum ++ (encW 2 (BitVec.ofNat 16 f.skins.length) ++ (f.skins.map SkinFile.bytes).flatten)⟩,
        Seg.of 0xD040 []]) s3 true := by
    by_cases he : f.attachments = []
    · have : s1 = s2 := by simp [s1, s2, atts, he]
      rw [this, he]
      exact .step h5 (.last h6)
    · have hr := run_protos mats names ⟨[], [], c⟩ [] f.attachments rfl rfl hf.distinct hf.attachments he
      exact hr.append (.step h5 (.last h6))
  exact .step h1 (.step h2 (.step h3 h45))

theorem reads_load {μ} (mats : Nat → Rd (List μ)) (f : ModelMeshFile μ) (hf : f.Ok mats) (c : BitVec 32) :
    Reads (load mats ⟨[], [], c⟩) f.bytes f.mesh :=
  Reads.congr ((Reads.segs (run_load mats f hf c)).bind_pure (f := St.obj)) f.segs_bytes rfl

end ModelMesh

namespace MorphMesh

theorem noSpace_source {s : MorphSource} (h : MorphFile.SourceOk s) (post : Bytes) : NoSpace (encSource s ++ post) := by
  obtain ⟨_, c, rest, e, hc⟩ := h
  unfold encSource
  rw [e]
  refine ⟨fun c' rest' e' => .inr ?_, ?_⟩
  · simp only [List.cons_append, List.cons.injEq] at e'
    rw [← e'.1]
    exact hc
  · simp [encLine]

theorem loads_sources (ss : List MorphSource) (h : ∀ s ∈ ss, MorphFile.SourceOk s) :
    Loads (Rd.times loadSource ss.length) (ss.map encSource).flatten ss := by
  induction ss with
  | nil => exact (Reads.pure _).loads
  | cons s ss ih =>
    have hs := h s (by simp)
    have ih := ih fun m hm => h m (List.mem_cons_of_mem _ hm)
    cases ss with
    | nil =>
      have h1 : Loads loadSource (encSource s) s :=
        Loads.bind (Reads.date s.fileDate) ((Loads.lineSkip s.fileName hs.1).bind_pure (f := fun n => (⟨s.fileDate, n⟩ : MorphSource)))
      exact (h1.bind_pure (f := fun a => [a])).congr (by simp) rfl
    | cons t ss =>
      have h1 : ReadsIf loadSource (encSource s) s NoSpace :=
        ReadsIf.bind ((Reads.date s.fileDate).toIf (fun _ => True))
          ((ReadsIf.lineSkip s.fileName hs.1).bind_pure (f := fun n => (⟨s.fileDate, n⟩ : MorphSource))) (fun _ _ => trivial)
      exact Loads.bindIf h1 (fun post => by
        have := noSpace_source (h t (by simp)) ((ss.map encSource).flatten ++ post)
        simpa using this) (ih.bind_pure (f := fun bs => s :: bs))

theorem reads_animation (a : MorphAnimation) (h : MorphFile.AnimOk a) : Reads loadAnimation (encMorph a) a := by
  obtain ⟨h1, h2, h3, h4⟩ := h
  have hv : (BitVec.ofNat 32 a.vertices.length).toNat = a.vertices.length := by simp; exact h2
  have hs : (a.frameCount * BitVec.ofNat 32 a.vertices.length).toNat = a.samples.length := by
    rw [BitVec.toNat_mul, hv, ← h3, Nat.mod_eq_of_lt h4]
  refine (Reads.lineLf a.name h1).bind ((Reads.f32 a.blendIn).bind ((Reads.f32 a.blendOut).bind ((Reads.f32 a.duration).bind
    ((Reads.u32 a.layer).bind ((Reads.f32 a.speed).bind ((Reads.u8 a.flags).bind
    ((Reads.u32 (BitVec.ofNat 32 a.vertices.length)).bind ((Reads.u32 a.frameCount).bind ?_))))))))
  rw [hv, hs]
  exact (Reads.timesId a.vertices fun v _ => Reads.u32 v).bind ((Reads.timesId a.samples fun v _ => Reads.vec3 v).bind_pure
    (f := fun ss => { a with samples := ss }))

theorem resize_length (ps : List Vec3) (n : Nat) : (resize ps n).length = n := by
  simp [resize]
  omega

theorem vec_flatten_length (vs : List Vec3) : ((vs.map Vec3.mem).flatten).length = 12 * vs.length := by
  induction vs with
  | nil => rfl
  | cons v vs ih =>
    simp only [List.map_cons, List.flatten_cons, List.length_append, ih, Vec3.mem_length, List.length_cons]
    omega

theorem run_load {μ} (mats : Nat → Rd (List μ)) (f : MorphFile μ) (hf : f.Ok mats) (m : MorphMesh μ) :
    SegRun (simpleCb (onChunk mats)) m f.segs
      { f.morph m.mesh.alphaTest with animations := m.animations ++ f.animations } false := by
  have h1 : HandlesSeg (simpleCb (onChunk mats)) m (Seg.of 0xE010 (encW 2 (BitVec.ofNat 16 f.sources.length) ++
      (f.sources.map encSource).flatten)) { m with sources := f.sources } false := by
    refine .of_loads ?_ (by
      have := hf.sourceSize
      simp only [List.length_append, encW_length]
      omega)
    unfold onChunk
    rw [if_pos rfl]
    refine Loads.bind (Reads.u16 _) ?_
    have : (BitVec.ofNat 16 f.sources.length).toNat = f.sources.length := by simp; exact hf.sourceCount
    rw [this]
    exact (loads_sources f.sources hf.sources).bind_pure (f := fun sources => ({ m with sources }, false))
  have h2 : HandlesSeg (simpleCb (onChunk mats)) { m with sources := f.sources } (Seg.of 0xE020 (encW 4 f.version ++ encLine f.name))
      { m with sources := f.sources, name := f.name } false := by
    refine .of_loads ?_ (by
      have := hf.nameSize
      simp only [encLine, List.length_append, encW_length, List.length_cons, List.length_nil]
      omega)
    unfold onChunk
    rw [if_neg (by decide), if_pos rfl]
    exact Loads.bind (Reads.u32 _) ((Loads.lineSkip f.name hf.name).bind_pure
      (f := fun name => ({ m with sources := f.sources, name }, false)))
  generalize hps : resize m.morphPositions (f.mesh.mesh m.mesh.alphaTest).positions.length = ps
  have hpl : ps.length = f.morphPositions.length := by rw [← hps, resize_length, hf.morph]; rfl
  have h3 : HandlesSeg (simpleCb (onChunk mats)) { m with sources := f.sources, name := f.name } (Seg.of 0xB100 f.mesh.bytes)
      { m with sources := f.sources, name := f.name, mesh := f.mesh.mesh m.mesh.alphaTest, morphPositions := ps } false := by
    refine .of_loads ?_ hf.meshSize
    unfold onChunk
    rw [if_neg (by decide), if_neg (by decide), if_pos rfl, ← hps]
    exact (Mrm.loads_from mats f.mesh hf.mesh m.mesh).bind_pure (f := fun mesh =>
      ({ m with sources := f.sources, name := f.name, mesh, morphPositions := resize m.morphPositions mesh.positions.length }, false))
  have h4 : HandlesSeg (simpleCb (onChunk mats))
      { m with sources := f.sources, name := f.name, mesh := f.mesh.mesh m.mesh.alphaTest, morphPositions := ps }
      (Seg.of 0xB1FF (f.morphPositions.map Vec3.mem).flatten)
      { m with sources := f.sources, name := f.name, mesh := f.mesh.mesh m.mesh.alphaTest, morphPositions := f.morphPositions } false := by
    refine .of_loads ?_ (by
      have := hf.morphSize
      rw [vec_flatten_length]
      omega)
    unfold onChunk
    rw [if_neg (by decide), if_neg (by decide), if_neg (by decide), if_pos rfl]
    simp only [hpl]
    exact (Reads.timesId f.morphPositions fun v _ => Reads.vec3 v).loads.bind_pure (f := fun morphPositions =>
      ({ m with sources := f.sources, name := f.name, mesh := f.mesh.mesh m.mesh.alphaTest, morphPositions }, false))
  have h5 : HandlesSeg (simpleCb (onChunk mats))
      { m with sources := f.sources, name := f.name, mesh := f.mesh.mesh m.mesh.alphaTest, morphPositions := f.morphPositions }
      (Seg.of 0xE030 (encW 2 (BitVec.ofNat 16 f.animations.length) ++ (f.animations.map encMorph).flatten))
      { f.morph m.mesh.alphaTest with animations := m.animations ++ f.animations } false := by
    refine .of_loads ?_ (by
      have := hf.animationSize
      simp only [List.length_append, encW_length]
      omega)
    unfold onChunk
    rw [if_neg (by decide), if_neg (by decide), if_neg (by decide), if_neg (by decide), if_pos rfl]
    refine Loads.bind (Reads.u16 _) ?_
    have : (BitVec.ofNat 16 f.animations.length).toNat = f.animations.length := by simp; exact hf.animationCount
    rw [this]
    have := (Reads.timesId f.animations fun a h => reads_animation a (hf.animations a h)).loads.bind_pure (f := fun animations =>
      (({ m with sources := f.sources, name := f.name, mesh := f.mesh.mesh m.mesh.alphaTest, morphPositions := f.morphPositions,
                 animations := m.animations ++ animations }, false) : MorphMesh μ × Bool))
    exact this
  exact .step h1 (.step h2 (.step h3 (.step h4 (.last h5))))

end MorphMesh

namespace Animation

theorem reads_sample (o : SampleOps) (scale min : F32) (s : RawSample) :
    Reads (loadSample o scale min) (encSample s) ⟨o.pos s.x s.y s.z scale min, o.rot s.a s.b s.c⟩ :=
  (Reads.u16 s.a).bind ((Reads.u16 s.b).bind ((Reads.u16 s.c).bind ((Reads.u16 s.x).bind ((Reads.u16 s.y).bind
    ((Reads.u16 s.z).bind_pure (f := fun z => (⟨o.pos s.x s.y z scale min, o.rot s.a s.b s.c⟩ : AnimSample)))))))

theorem noSpace_head {bs : Bytes} (h : ∃ c rest, bs = c :: rest ∧ c ∉ Rd.lineSpaces) (hl : 1 < bs.length) (post : Bytes) :
    NoSpace (bs ++ post) := by
  obtain ⟨c, rest, rfl, hc⟩ := h
  refine ⟨fun c' rest' e => .inr ?_, ?_⟩
  · simp only [List.cons_append, List.cons.injEq] at e
    rw [← e.1]
    exact hc
  · intro e
    have := congrArg List.length e
    simp only [List.length_append, List.length_cons, List.length_nil] at this hl
    omega

theorem reads_event (e : AnimEvent) (h : AnimFile.EventOk e) : Reads loadEvent (encEvent e) e := by
  obtain ⟨h1, h2, h3, h4, h5⟩ := h
  have hvl : ((e.values.map encU32).flatten).length = 16 := by
    match hv : e.values, h4 with
    | [a, b, c, d], _ => simp [encU32]
  have hv : Reads (do
      let values ← Rd.times Rd.f32 4
      let probability ← Rd.f32
      return (⟨e.type, e.frame, e.tag, e.content, values, probability⟩ : AnimEvent)) ((e.values.map encU32).flatten ++ encW 4 e.probability) e := by
    have := Reads.timesId e.values (enc := encU32) fun v _ => Reads.f32 v
    rw [h4] at this
    exact this.bind ((Reads.f32 e.probability).bind_pure
      (f := fun p => (⟨e.type, e.frame, e.tag, e.content, e.values, p⟩ : AnimEvent)))
  have hc := readsIf_names e.content h3
  rw [h2] at hc
  have hcv := ReadsIf.bind (f := fun content => (do
      let values ← Rd.times Rd.f32 4
      let probability ← Rd.f32
      return (⟨e.type, e.frame, e.tag, content, values, probability⟩ : AnimEvent))) (R := fun _ => True) hc (hv.toIf _) (fun post _ => by
    have := noSpace_head h5 (by omega) (encW 4 e.probability ++ post)
    simpa using this)
  have ht := ReadsIf.bind (f := fun tag => (do
      let content ← Rd.times (Rd.line true) 4
      let values ← Rd.times Rd.f32 4
      let probability ← Rd.f32
      return (⟨e.type, e.frame, tag, content, values, probability⟩ : AnimEvent))) (R := fun _ => True) (ReadsIf.lineSkip e.tag h1) hcv
    (fun post _ => by
      match hcc : e.content, h2 with
      | c0 :: cs, _ =>
        have := noSpace_name (h3 c0 (by rw [hcc]; simp)) ((cs.map encLine).flatten ++ ((e.values.map encU32).flatten ++
          encW 4 e.probability) ++ post)
        simpa using this)
  intro pre post
  have := ReadsIf.bind (f := fun type => (do
      let frame ← Rd.u32
      let tag ← Rd.line true
      let content ← Rd.times (Rd.line true) 4
      let values ← Rd.times Rd.f32 4
      let probability ← Rd.f32
      return (⟨type, frame, tag, content, values, probability⟩ : AnimEvent))) (R := fun _ => True)
    ((Reads.u32 e.type).toIf (fun _ => True)) (ReadsIf.bind (R := fun _ => True) ((Reads.u32 e.frame).toIf (fun _ => True)) ht
      (fun _ _ => trivial)) (fun _ _ => trivial)
  exact this pre post trivial

theorem run_load (o : SampleOps) (f : AnimFile) (hf : f.Ok) (m : Animation) :
    SegRun (simpleCb (onChunk o)) m f.segs (f.animation o) false := by
  let a := f.anim
  let m2 : Animation := { m with sourceDate := a.sourceDate, sourcePath := a.sourcePath, sourceScript := a.sourceScript }
  let m3 : Animation := { m2 with
    name := a.name, layer := a.layer, frameCount := a.frameCount, nodeCount := a.nodeCount, fps := a.fps, fpsSource := a.fpsSource,
    positionMin := a.positionMin, positionScale := a.positionScale, bbox := a.bbox, next := a.next }
  let m4 : Animation := { m3 with events := a.events }
  have h1 : HandlesSeg (simpleCb (onChunk o)) m (Seg.of 0xA000 []) m false := by
    refine .of_loads ?_ (by simp)
    exact (Reads.pure _).loads
  have h2 : HandlesSeg (simpleCb (onChunk o)) m (Seg.of 0xA010 (a.sourceDate.enc ++ (encLine a.sourcePath ++ encLine a.sourceScript))) m2
      false := by
    refine .of_loads ?_ (by
      have := hf.sourceSize
      simp only [encLine, Date.enc, List.length_append, encW_length, List.length_cons, List.length_nil]
      show _ < _
      simp only [a]
      omega)
    unfold onChunk
    rw [if_pos rfl]
    exact Loads.bind (Reads.date a.sourceDate) (Loads.bind (Reads.lineLf a.sourcePath hf.path)
      ((Reads.lineLf a.sourceScript hf.script).loads.bind_pure
        (f := fun s => ({ m with sourceDate := a.sourceDate, sourcePath := a.sourcePath, sourceScript := s }, false))))
  have h3 : HandlesSeg (simpleCb (onChunk o)) m2 (Seg.of 0xA020 (encW 2 f.version ++ (encLine a.name ++ (encW 4 a.layer ++
      (encW 4 a.frameCount ++ (encW 4 a.nodeCount ++ (encW 4 a.fps ++ (encW 4 a.fpsSource ++ (encW 4 a.positionMin ++
      (encW 4 a.positionScale ++ (a.bbox.enc ++ encLine a.next))))))))))) m3 false := by
    refine .of_loads ?_ (by
      have := hf.nameSize
      simp only [encLine, Aabb.enc, Vec3.mem_length, List.length_append, encW_length, List.length_cons, List.length_nil]
      simp only [a]
      omega)
    unfold onChunk
    rw [if_neg (by decide), if_pos rfl]
    exact Loads.bind (Reads.u16 f.version) (Loads.bind (Reads.lineLf a.name hf.name) (Loads.bind (Reads.u32 a.layer)
      (Loads.bind (Reads.u32 a.frameCount) (Loads.bind (Reads.u32 a.nodeCount) (Loads.bind (Reads.f32 a.fps)
      (Loads.bind (Reads.f32 a.fpsSource) (Loads.bind (Reads.f32 a.positionMin) (Loads.bind (Reads.f32 a.positionScale)
      (Loads.bind (Reads.aabb a.bbox) ((Reads.lineLf a.next hf.next).loads.bind_pure (f := fun s => ({ m3 with next := s }, false))))))))))))
  have h4 : HandlesSeg (simpleCb (onChunk o)) m3 (Seg.of 0xA030 (encW 4 (BitVec.ofNat 32 a.events.length) ++
      (a.events.map encEvent).flatten)) m4 false := by
    refine .of_loads ?_ (by
      have := hf.eventSize
      simp only [List.length_append, encW_length]
      simp only [a]
      omega)
    unfold onChunk
    rw [if_neg (by decide), if_neg (by decide), if_pos rfl]
    refine Loads.bind (Reads.u32 _) ?_
    have : (BitVec.ofNat 32 a.events.length).toNat = a.events.length := by simp; exact hf.eventCount
    rw [this]
    exact (Reads.timesId a.events fun e h => reads_event e (hf.events e h)).loads.bind_pure (f := fun events => ({ m3 with events }, false))
  have hlen : ∀ rs : List RawSample, ((rs.map encSample).flatten).length = 12 * rs.length := by
    intro rs
    induction rs with
    | nil => rfl
    | cons v vs ih =>
      simp only [List.map_cons, List.flatten_cons, List.length_append, ih, encSample, encW_length, List.length_cons]
      omega
  have hss := hf.sampleSize
  rw [List.length_append, hlen] at hss
  have hn : (m4.nodeCount * m4.frameCount).toNat = f.raw.length := by
    show (f.anim.nodeCount * f.anim.frameCount).toNat = _
    rw [BitVec.toNat_mul, ← hf.samples, Nat.mod_eq_of_lt (by omega)]
  have h5 : HandlesSeg (simpleCb (onChunk o)) m4 (Seg.of 0xA090 (encW 4 a.checksum ++ ((a.nodeIndices.map encU32).flatten ++
      (f.raw.map encSample).flatten))) (f.animation o) false := by
    refine .of_loads ?_ (by
      simp only [List.length_append, encW_length, hlen]
      simp only [a]
      omega)
    unfold onChunk
    rw [if_neg (by decide), if_neg (by decide), if_neg (by decide), if_pos rfl, hn,
      show m4.nodeCount.toNat = a.nodeIndices.length from hf.indices.symm]
    exact Loads.bind (Reads.u32 a.checksum) (Loads.bind (Reads.timesId a.nodeIndices fun v _ => Reads.u32 v)
      ((Reads.timesMap f.raw fun s _ => reads_sample o a.positionScale a.positionMin s).loads.bind_pure (f := fun samples =>
        ({ m4 with checksum := a.checksum, nodeIndices := a.nodeIndices, samples }, false))))
  exact .step h1 (.step h2 (.step h3 (.step h4 (.last h5))))

end Animation

end Verif
