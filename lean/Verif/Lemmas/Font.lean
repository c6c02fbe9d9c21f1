import Verif.Model.Font
import Verif.Model.ModelHierarchy
import Verif.Lemmas.Line
import Verif.Lemmas.Chunked

/-! # Lemmas about fonts and model hierarchies -/

namespace Verif

/-- The bytes of a saved font. -/
def Font.enc (f : Font) : Bytes :=
  (b!"1" ++ [10]) ++ ((f.name ++ [10]) ++ (encW 4 f.height ++ (encW 4 (BitVec.ofNat 32 f.glyphs.length) ++
    ((f.glyphs.map fun g => encW 1 g.width).flatten ++ ((f.glyphs.map fun g => g.uv0.mem).flatten ++
      (f.glyphs.map fun g => g.uv1.mem).flatten)))))

theorem Font.emits (f : Font) : Emits f.save f.enc := by
  have h := (((((((Emits.line b!"1").comp (Emits.line f.name)).comp (Emits.u32 f.height)).comp
    (Emits.u32 (BitVec.ofNat 32 f.glyphs.length))).comp
    (Emits.foldl (fun (g : Glyph) w => w.u8 g.width) (fun g => encW 1 g.width) (fun g => Emits.u8 g.width) f.glyphs)).comp
    (Emits.foldl (fun (g : Glyph) w => w.vec2 g.uv0) (fun g => g.uv0.mem) (fun g => Emits.vec2 g.uv0) f.glyphs)).comp
    (Emits.foldl (fun (g : Glyph) w => w.vec2 g.uv1) (fun g => g.uv1.mem) (fun g => Emits.vec2 g.uv1) f.glyphs))
  exact h.congr (by simp only [Font.enc, List.append_assoc])

theorem Reads.mapped {α β} {p : Rd β} {enc : β → Bytes} (as : List α) (g : α → β) (h : ∀ a, Reads p (enc (g a)) (g a)) :
    Reads (Rd.times p as.length) (as.map fun a => enc (g a)).flatten (as.map g) := by
  have := Reads.times (enc := enc) (as.map g) (p := p) (by
    intro b hb
    obtain ⟨a, _, rfl⟩ := List.mem_map.1 hb
    exact h a)
  simpa [List.map_map, Function.comp_def] using this

theorem zip_glyphs (gs : List Glyph) :
    List.zipWith (fun w (u : Vec2 × Vec2) => (⟨w, u.1, u.2⟩ : Glyph)) (gs.map Glyph.width)
      ((gs.map Glyph.uv0).zip (gs.map Glyph.uv1)) = gs := by
  induction gs with
  | nil => rfl
  | cons g gs ih => simp [ih]

/-- `read_line(true)` over a line that is followed by something that is not whitespace. -/
theorem ReadsIf.lineWs (v : Bytes) (h : NoEol v) :
    ReadsIf (Rd.line true) (v ++ [10]) v (fun post => (∀ c rest, post = c :: rest → c ∉ Rd.lineSpaces) ∧ post ≠ [0]) := by
  intro pre post hq
  exact lineThenIgnore_eq Rd.lineSpaces (by decide) pre v [] post 10 h (.inr rfl) (by simp) (fun c r e => .inr (hq.1 c r e)) hq.2

theorem Font.reads (f : Font) (hn : NoEol f.name) (hh : ∀ c ∈ f.name.head?, c ∉ Rd.lineSpaces) (hne : f.name ≠ [])
    (hg : f.glyphs.length < 2 ^ 32) : Reads Font.load f.enc f := by
  have hnum : (BitVec.ofNat 32 f.glyphs.length).toNat = f.glyphs.length := by simp; omega
  intro pre post
  refine (ReadsIf.lineWs b!"1" (by decide)).bind (Q := fun post => (∀ c rest, post = c :: rest → c ∉ Rd.lineSpaces) ∧ post ≠ [0])
    (R := fun _ => True) ?_ ?_ pre post trivial
  · simp only [ne_eq, not_true_eq_false, if_false]
    apply Reads.toIf
    refine (Reads.lineLf _ hn).bind ?_
    refine (Reads.u32 _).bind ?_
    refine (Reads.u32 _).bind ?_
    rw [hnum]
    refine (Reads.mapped f.glyphs Glyph.width (fun g => Reads.u8 g.width)).bind ?_
    refine (Reads.mapped f.glyphs Glyph.uv0 (fun g => Reads.vec2 g.uv0)).bind ?_
    refine (Reads.bind_pure (Reads.mapped f.glyphs Glyph.uv1 (fun g => Reads.vec2 g.uv1))).congr rfl ?_
    rw [zip_glyphs]
  · intro post _
    obtain ⟨a, as, e⟩ := List.exists_cons_of_ne_nil hne
    rw [e] at hh ⊢
    refine ⟨?_, ?_⟩
    · intro c rest h
      simp only [List.cons_append, List.cons.injEq] at h
      exact h.1 ▸ hh a (by simp)
    · simp

/-! ## Hierarchies -/

def HNode.enc (n : HNode) : Bytes := (n.name ++ [10]) ++ (encW 2 n.parent ++ n.transform.transpose.mem)

theorem HNode.emits (n : HNode) : Emits n.save n.enc := by
  refine Emits.congr (((Emits.line n.name).comp (Emits.u16 n.parent)).comp (Emits.mat4 n.transform)) ?_
  simp only [HNode.enc, List.append_assoc]

theorem HNode.reads (n : HNode) (h : NoEol n.name) : Reads HNode.load n.enc n :=
  (Reads.lineLf _ h).bind ((Reads.u16 _).bind (Reads.bind_pure (Reads.mat4 _)))

/-- The payload of the first chunk. -/
def Hierarchy.body (h : Hierarchy) : Bytes :=
  encW 4 (3 : BitVec 32) ++ (encW 2 (BitVec.ofNat 16 h.nodes.length) ++ ((h.nodes.map HNode.enc).flatten ++ (h.bbox.enc ++
    (h.collisionBbox.enc ++ (h.rootTranslation.mem ++ encW 4 h.checksum)))))

/-- The payload of the second chunk. -/
def Hierarchy.source (h : Hierarchy) : Bytes := h.sourceDate.enc ++ (h.sourcePath ++ [10])

/-- The chunks of a saved hierarchy. -/
def Hierarchy.chunks (h : Hierarchy) : List Spec.Chunk := [⟨0xD100, h.body⟩, ⟨0xD110, h.source⟩, ⟨0xD120, []⟩]

def Hierarchy.enc (h : Hierarchy) : Bytes := chunksBytes h.chunks

theorem Hierarchy.emits (h : Hierarchy) : Emits h.save h.enc := by
  have h1 := (((((((Emits.u32 3).comp (Emits.u16 (BitVec.ofNat 16 h.nodes.length))).comp
      (Emits.foldl (fun n w => n.save w) _ HNode.emits h.nodes)).comp (Emits.aabb h.bbox)).comp
      (Emits.aabb h.collisionBbox)).comp (Emits.vec3 h.rootTranslation)).comp (Emits.u32 h.checksum))
  have h1 := h1.congr (b := h.body) (by simp only [Hierarchy.body, List.append_assoc])
  have h2 := (Emits.date h.sourceDate).comp (Emits.line h.sourcePath)
  have h3 := ((Emits.chunk (type := 0xD100) h1).comp (Emits.chunk (type := 0xD110) h2)).comp
    (Emits.chunk (type := 0xD120) Emits.id)
  exact h3.congr (by
    simp only [Hierarchy.enc, Hierarchy.chunks, Hierarchy.source, chunksBytes, List.map_cons, List.map_nil, List.flatten_cons, List.flatten_nil,
      List.append_nil, List.append_assoc])

theorem Hierarchy.run (h old : Hierarchy) (hn : ∀ n ∈ h.nodes, NoEol n.name) (hp : NoEol h.sourcePath)
    (hc : h.nodes.length < 2 ^ 16) (hb : h.body.length < 2 ^ 32) (hs : h.source.length < 2 ^ 32) :
    ChunkRun (simpleCb Hierarchy.onChunk) old h.chunks h := by
  have hnum : (BitVec.ofNat 16 h.nodes.length).toNat = h.nodes.length := by simp; omega
  refine (.step (s' := ⟨h.nodes, h.bbox, h.collisionBbox, h.rootTranslation, h.checksum, old.sourceDate, old.sourcePath⟩)
    (Handles.of_reads' ?_ hb) (.step (s' := h)
    (Handles.of_reads' ?_ hs) (.last (Handles.of_reads' ?_ (by simp)))))
  · unfold Hierarchy.onChunk
    rw [if_pos rfl]
    refine (Reads.u32 _).bind ?_
    refine (Reads.u16 _).bind ?_
    rw [hnum]
    refine (Reads.times h.nodes (fun n hm => HNode.reads n (hn n hm))).bind ?_
    refine (Reads.aabb _).bind ?_
    refine (Reads.aabb _).bind ?_
    refine (Reads.vec3 _).bind ?_
    exact (Reads.u32 _).bind_pure
  · unfold Hierarchy.onChunk
    rw [if_neg (by decide), if_pos rfl]
    refine (Reads.date _).bind ?_
    exact (Reads.lineLf _ hp).bind_pure
  · unfold Hierarchy.onChunk
    rw [if_neg (by decide), if_neg (by decide), if_pos rfl]
    exact Reads.pure _

theorem Hierarchy.reads (h old : Hierarchy) (hn : ∀ n ∈ h.nodes, NoEol n.name) (hp : NoEol h.sourcePath)
    (hc : h.nodes.length < 2 ^ 16) (hb : h.body.length < 2 ^ 32) (hs : h.source.length < 2 ^ 32) :
    Reads (Hierarchy.load old) h.enc h := Reads.chunked (Hierarchy.run h old hn hp hc hb hs)

end Verif
