import Verif.Lemmas.Safe
import Verif.Lemmas.MeshTame
import Verif.Lemmas.DaedalusDamage
import Verif.Model.Bsp
import Verif.Model.ModelMesh
import Verif.Model.MdsBinary
import Verif.Model.DaedalusLoad
import Verif.Spec.Behind

/-!
# Readers that do not care what is in front

`Sh c R p q`: `p` on a stream and `q` on the same stream behind other bytes do the same, with results in relation `R`. `Sk c p` is the case of
equal results. The position never gets below `c.lo`.
-/

namespace Verif

open Spec

structure Shift where
  pre : Bytes
  files : Bytes → Prop
  lo : Nat

variable {c : Shift}

/-- At one position. -/
def ShAt (c : Shift) {α} (R : α → α → Prop) (p q : Rd α) (data : Bytes) (pos : Nat) : Prop :=
  (∃ a b pos', p ⟨data, pos⟩ = .ok (a, ⟨data, pos'⟩) ∧
    q ⟨c.pre ++ data, c.pre.length + pos⟩ = .ok (b, ⟨c.pre ++ data, c.pre.length + pos'⟩) ∧ R a b ∧ c.lo ≤ pos' ∧ pos' ≤ data.length) ∨
  ∃ e, p ⟨data, pos⟩ = .error e ∧ q ⟨c.pre ++ data, c.pre.length + pos⟩ = .error e

def Sh (c : Shift) {α} (R : α → α → Prop) (p q : Rd α) : Prop :=
  ∀ (data : Bytes) (pos : Nat), c.files data → c.lo ≤ pos → pos ≤ data.length → ShAt c R p q data pos

abbrev Sk (c : Shift) {α} (p : Rd α) : Prop := Sh c Eq p p

/-- A position and the same position behind the other bytes. -/
def Shift.At (c : Shift) (a b : Nat) : Prop := c.lo ≤ a ∧ b = c.pre.length + a

theorem ShAt.bind {α β} {R : α → α → Prop} {R' : β → β → Prop} {p q : Rd α} {f g : α → Rd β} {data : Bytes} {pos : Nat}
    (hp : ShAt c R p q data pos)
    (hf : ∀ a b pos', R a b → p ⟨data, pos⟩ = .ok (a, ⟨data, pos'⟩) → c.lo ≤ pos' → pos' ≤ data.length → ShAt c R' (f a) (g b) data pos') :
    ShAt c R' (p >>= f) (q >>= g) data pos := by
  rcases hp with ⟨a, b, pos1, e1, e2, hr, l1, l2⟩ | ⟨e, e1, e2⟩
  · have := hf a b pos1 hr e1 l1 l2
    unfold ShAt at this ⊢
    rw [Rd.bind_ok e1, Rd.bind_ok e2]
    exact this
  · exact .inr ⟨e, Rd.bind_err e1, Rd.bind_err e2⟩

/-- A smaller lower bound. -/
theorem ShAt.lower {α} {R : α → α → Prop} {p q : Rd α} {data : Bytes} {pos lo : Nat} (h : ShAt ⟨c.pre, c.files, lo⟩ R p q data pos)
    (hl : c.lo ≤ lo) : ShAt c R p q data pos := by
  rcases h with ⟨a, b, pos1, e1, e2, hr, l1, l2⟩ | h
  · exact .inl ⟨a, b, pos1, e1, e2, hr, Nat.le_trans hl l1, l2⟩
  · exact .inr h

theorem ShAt.pure {α} {R : α → α → Prop} {a b : α} {data : Bytes} {pos : Nat} (h : R a b) (hl : c.lo ≤ pos) (hp : pos ≤ data.length) :
    ShAt c R (Pure.pure a : Rd α) (Pure.pure b) data pos := .inl ⟨a, b, pos, rfl, rfl, h, hl, hp⟩

theorem Sh.bind {α β} {R : α → α → Prop} {R' : β → β → Prop} {p q : Rd α} {f g : α → Rd β} (hp : Sh c R p q)
    (hf : ∀ a b, R a b → Sh c R' (f a) (g b)) : Sh c R' (p >>= f) (q >>= g) := by
  intro data pos hF hl hp'
  exact (hp data pos hF hl hp').bind fun a b pos' hr _ l1 l2 => hf a b hr data pos' hF l1 l2

theorem Sh.pure {α} {R : α → α → Prop} {a b : α} (h : R a b) : Sh c R (Pure.pure a : Rd α) (Pure.pure b) :=
  fun _ pos _ hl hp => .inl ⟨a, b, pos, rfl, rfl, h, hl, hp⟩

theorem Sh.bindEq {α β} {R : β → β → Prop} {p : Rd α} {f g : α → Rd β} (hp : Sk c p) (hf : ∀ a, Sh c R (f a) (g a)) :
    Sh c R (p >>= f) (p >>= g) := Sh.bind hp fun a b h => by subst h; exact hf a

namespace Sk

theorem bind {α β} {p : Rd α} {f : α → Rd β} (hp : Sk c p) (hf : ∀ a, Sk c (f a)) : Sk c (p >>= f) :=
  Sh.bind hp fun a b h => by subst h; exact hf a

theorem pure {α} (a : α) : Sk c (Pure.pure a : Rd α) := Sh.pure rfl

theorem fail {α} (e : Fail) : Sk c (Rd.fail e : Rd α) := fun _ _ _ _ _ => .inr ⟨e, rfl, rfl⟩

theorem lift {α} (x : Except Fail α) : Sk c (Rd.lift x) := by
  intro data pos _ hl hp
  unfold Rd.lift
  cases x with
  | error e => exact .inr ⟨e, rfl, rfl⟩
  | ok a => exact .inl ⟨a, a, pos, rfl, rfl, rfl, hl, hp⟩

theorem ite {α} {P : Prop} [Decidable P] {p q : Rd α} (hp : Sk c p) (hq : Sk c q) : Sk c (if P then p else q) := by
  split
  · exact hp
  · exact hq

theorem read (k : Nat) : Sk c (Rd.read k) := by
  intro data pos _ hl hp
  refine .inl ⟨_, _, pos + (if pos + k > data.length then data.length - pos else k), rfl, ?_, rfl, by omega, by split <;> omega⟩
  unfold Rd.read
  dsimp only
  rw [List.length_append, List.drop_append, List.drop_eq_nil_of_le (by omega), List.nil_append, Nat.add_sub_cancel_left]
  have : (if c.pre.length + pos + k > c.pre.length + data.length then c.pre.length + data.length - (c.pre.length + pos) else k) =
      (if pos + k > data.length then data.length - pos else k) := by
    split <;> split <;> omega
  rw [this, Nat.add_assoc]

theorem padded (k : Nat) : Sk c (Rd.readPadded k) := by
  intro data pos hF hl hp
  rcases read k data pos hF hl hp with ⟨a, b, pos1, e1, e2, hr, l1, l2⟩ | ⟨e, e1, e2⟩
  · subst hr
    refine .inl ⟨a ++ List.replicate (k - a.length) 0, _, pos1, ?_, ?_, rfl, l1, l2⟩
    · unfold Rd.readPadded
      rw [e1]
    · unfold Rd.readPadded
      rw [e2]
  · cases e1

theorem word (w k : Nat) : Sk c (Rd.word w k) := (padded k).bind fun _ => pure _
theorem u8 : Sk c Rd.u8 := word _ _
theorem u16 : Sk c Rd.u16 := word _ _
theorem u32 : Sk c Rd.u32 := word _ _
theorem f32 : Sk c Rd.f32 := word _ _
theorem char : Sk c Rd.char := (padded _).bind fun _ => pure _
theorem string (n : Nat) : Sk c (Rd.string n) := padded _
theorem vec3 : Sk c Rd.vec3 := (padded _).bind fun _ => pure _
theorem vec2 : Sk c Rd.vec2 := (padded _).bind fun _ => pure _
theorem mat4 : Sk c Rd.mat4 := (padded _).bind fun _ => pure _

theorem tell : Sh c c.At Rd.tell Rd.tell := fun _ pos _ hl hp => .inl ⟨pos, c.pre.length + pos, pos, rfl, rfl, ⟨hl, rfl⟩, hl, hp⟩

theorem eof : Sk c Rd.eof := by
  intro data pos _ hl hp
  refine .inl ⟨_, _, pos, rfl, ?_, rfl, hl, hp⟩
  unfold Rd.eof
  rw [List.length_append]
  have : decide (c.pre.length + pos ≥ c.pre.length + data.length) = decide (pos ≥ data.length) := by
    rw [decide_eq_decide]; omega
  dsimp only
  rw [this]

/-- Seeks to a place behind the lower bound. -/
theorem seekBeg {a b : Nat} (h : c.At a b) : Sh c Eq (Rd.seek (a : Int) .beg) (Rd.seek (b : Int) .beg) := by
  intro data pos _ hl hp
  obtain ⟨h1, h2⟩ := h
  left
  by_cases ha : a ≤ data.length
  · refine ⟨(), (), a, Rd.seek_beg ha, ?_, rfl, h1, ha⟩
    rw [h2]
    exact Rd.seek_beg (by rw [List.length_append]; omega)
  · refine ⟨(), (), pos, Rd.seek_ignored ?_, Rd.seek_ignored ?_, rfl, hl, hp⟩
    · unfold Rd.seekTarget; dsimp only; omega
    · unfold Rd.seekTarget; dsimp only; rw [List.length_append]; omega

/-- Seeks forward. -/
theorem seekCur (n : Nat) : Sk c (Rd.seek (n : Int) .cur) := by
  intro data pos _ hl hp
  left
  by_cases ha : pos + n ≤ data.length
  · refine ⟨(), (), pos + n, Rd.seek_ok ?_ ha, Rd.seek_ok ?_ ?_, rfl, by omega, ha⟩
    · unfold Rd.seekTarget; dsimp only; omega
    · unfold Rd.seekTarget; dsimp only; omega
    · rw [List.length_append]; omega
  · refine ⟨(), (), pos, Rd.seek_ignored ?_, Rd.seek_ignored ?_, rfl, hl, hp⟩
    · unfold Rd.seekTarget; dsimp only; omega
    · unfold Rd.seekTarget; dsimp only; rw [List.length_append]; omega

theorem times {α} {p : Rd α} (hp : Sk c p) (n : Nat) : Sk c (Rd.times p n) := by
  induction n with
  | zero => exact pure _
  | succ n ih => exact hp.bind fun _ => ih.bind fun _ => pure _

theorem aabb : Sk c Aabb.load := vec3.bind fun _ => vec3.bind fun _ => pure _

theorem date : Sk c Date.load :=
  u32.bind fun _ => u16.bind fun _ => u16.bind fun _ => u16.bind fun _ => u16.bind fun _ => u16.bind fun _ => u16.bind fun _ => pure _

/-- A reader whose fuel is what is left of the stream. -/
theorem fuelled {α} (p : Nat → Rd α) (h : ∀ n, Sk c (p n)) : Sk c (fun s => p (s.data.length - s.pos + 1) s) := by
  intro data pos hF hl hp
  have e : (c.pre ++ data).length - (c.pre.length + pos) + 1 = data.length - pos + 1 := by
    rw [List.length_append, Nat.add_sub_add_left]
  have := h (data.length - pos + 1) data pos hF hl hp
  rcases this with ⟨a, b, pos1, e1, e2, hr, l1, l2⟩ | ⟨x, e1, e2⟩
  · refine .inl ⟨a, b, pos1, e1, ?_, hr, l1, l2⟩
    show p ((c.pre ++ data).length - (c.pre.length + pos) + 1) _ = _
    rw [e]
    exact e2
  · refine .inr ⟨x, e1, ?_⟩
    show p ((c.pre ++ data).length - (c.pre.length + pos) + 1) _ = _
    rw [e]
    exact e2

theorem obbFuel (fuel : Nat) : Sk c (Obb.loadFuel fuel) := by
  induction fuel with
  | zero => unfold Obb.loadFuel; exact fail _
  | succ fuel ih =>
    have many : ∀ n, Sk c (Obb.loadMany fuel n) := by
      intro n
      induction n with
      | zero => unfold Obb.loadMany; exact pure _
      | succ n ih2 => unfold Obb.loadMany; exact ih.bind fun _ => ih2.bind fun _ => pure _
    unfold Obb.loadFuel
    exact vec3.bind fun _ => vec3.bind fun _ => vec3.bind fun _ => vec3.bind fun _ => vec3.bind fun _ => u16.bind fun n =>
      (many _).bind fun _ => pure _

theorem obb : Sk c Obb.load := fuelled _ obbFuel

theorem lineLoop (fuel : Nat) (acc : Bytes) : Sk c (Rd.lineLoop fuel acc) := by
  induction fuel generalizing acc with
  | zero => exact fail _
  | succ fuel ih => exact char.bind fun _ => ite (pure _) (ih _)

theorem ignoreLoop (chars : Bytes) (fuel : Nat) : Sk c (Rd.ignoreLoop chars fuel) := by
  induction fuel with
  | zero => exact fail _
  | succ fuel ih => exact char.bind fun _ => ite ih (pure _)

/-- A line that was not ended by the end of the stream or by NUL has at least one character. -/
theorem lineLoop_pos (fuel : Nat) (acc : Bytes) (data : Bytes) (pos : Nat) (hp : pos ≤ data.length) {x : Bytes × Byte} {t : Rs}
    (h : Rd.lineLoop fuel acc ⟨data, pos⟩ = .ok (x, t)) (hx : x.2 ≠ 0) : pos + 1 ≤ t.pos := by
  induction fuel generalizing acc pos with
  | zero => cases h
  | succ fuel ih =>
    simp only [Rd.lineLoop] at h
    rcases Fwd.char_cases data pos hp with ⟨hlt, c, e⟩ | ⟨heq, e⟩
    · rw [Rd.bind_ok e] at h
      split at h
      · cases h
        exact Nat.le_refl _
      · have := ih _ _ (by omega) h
        omega
    · rw [Rd.bind_ok e, if_pos (by decide)] at h
      cases h
      exact absurd rfl hx

/-- Seeks back to a place that is not before the lower bound. -/
theorem seekBack {n : Nat} {data : Bytes} {pos : Nat} (hl : c.lo + n ≤ pos) (hp : pos ≤ data.length) :
    ShAt c Eq (Rd.seek (-(n : Int)) .cur) (Rd.seek (-(n : Int)) .cur) data pos := by
  refine .inl ⟨(), (), pos - n, Rd.seek_ok ?_ (by omega), Rd.seek_ok ?_ ?_, rfl, by omega, by omega⟩
  · unfold Rd.seekTarget; dsimp only; omega
  · unfold Rd.seekTarget; dsimp only; omega
  · rw [List.length_append]; omega

theorem lineThenIgnore (chars : Bytes) : Sk c (Rd.lineThenIgnore chars) := by
  intro data pos hF hl hp
  unfold Rd.lineThenIgnore ShAt
  dsimp only
  rw [List.length_append, Nat.add_sub_add_left]
  generalize data.length - pos + 1 = fuel
  refine ShAt.bind (lineLoop fuel [] data pos hF hl hp) fun x y pos1 hr e1 l1 l2 => ?_
  subst hr
  have hpos := lineLoop_pos fuel [] data pos hp e1
  obtain ⟨str, ch⟩ := x
  dsimp only at hpos ⊢
  refine ShAt.bind (eof data pos1 hF l1 l2) fun b b' pos2 hr f1 m1 m2 => ?_
  subst hr
  have : pos2 = pos1 := by cases f1; rfl
  subst this
  split
  · exact .pure rfl l1 l2
  · rename_i hne
    have hch : ch ≠ 0 := by
      intro h0
      rw [h0] at hne
      simp at hne
    have hpos := hpos hch
    refine ShAt.bind (ignoreLoop chars fuel data pos2 hF m1 m2) fun d d' pos3 hr g1 n1 n2 => ?_
    subst hr
    have hge : pos2 ≤ pos3 := by
      rcases ignoreLoop (c := ⟨c.pre, c.files, pos2⟩) chars fuel data pos2 hF (Nat.le_refl _) m2 with
        ⟨_, _, _, k1, _, _, k2, _⟩ | ⟨_, k1, _⟩
      · rw [k1] at g1
        cases g1
        exact k2
      · rw [k1] at g1
        cases g1
    refine ShAt.bind (eof data pos3 hF n1 n2) fun b b' pos4 hr f1 _ _ => ?_
    subst hr
    have : pos4 = pos3 := by cases f1; rfl
    subst this
    split
    · exact .pure rfl n1 n2
    · exact ShAt.bind (seekBack (n := 1) (by omega) n2) fun _ _ _ _ _ l1 l2 => .pure rfl l1 l2

theorem line (skip : Bool) : Sk c (Rd.line skip) := lineThenIgnore _

/-- The loop over the chunks. -/
theorem chunkedFuel {σ} {cb : ChunkCb σ}
    (h : ∀ s t a b, c.At a b → Sh c (fun x y => x.1 = y.1 ∧ x.2.1 = y.2.1 ∧ c.At x.2.2 y.2.2) (cb s t a) (cb s t b)) (fuel : Nat) (s : σ) :
    Sk c (readChunkedFuel cb fuel s) := by
  induction fuel generalizing s with
  | zero => exact fail _
  | succ fuel ih =>
    refine u16.bind fun t => u32.bind fun n => Sh.bind tell fun a b hab => ?_
    refine Sh.bind (h s t (a + n.toNat) (b + n.toNat) ⟨Nat.le_trans hab.1 (Nat.le_add_right _ _), by rw [hab.2, Nat.add_assoc]⟩) ?_
    rintro ⟨s1, d1, t1⟩ ⟨s2, d2, t2⟩ ⟨h1, h2, h3⟩
    dsimp only at h1 h2 h3 ⊢
    subst h1 h2
    exact Sh.bind (seekBeg h3) fun _ _ _ => ite (pure _) (eof.bind fun _ => ite (pure _) (ih _))

theorem chunkedCb {σ} {cb : ChunkCb σ}
    (h : ∀ s t a b, c.At a b → Sh c (fun x y => x.1 = y.1 ∧ x.2.1 = y.2.1 ∧ c.At x.2.2 y.2.2) (cb s t a) (cb s t b)) (s : σ) :
    Sk c (readChunked cb s) := fuelled _ fun n => chunkedFuel h n s

theorem chunked {σ} {cb : σ → BitVec 16 → Rd (σ × Bool)} (h : ∀ s t, Sk c (cb s t)) (s : σ) : Sk c (readChunked (simpleCb cb) s) :=
  chunkedCb (fun s t a b hab => Sh.bind (h s t) fun x y hxy => by
    subst hxy
    exact Sh.pure ⟨rfl, rfl, hab⟩) s

end Sk

/-! ## The formats -/

/-- One step into a reader. -/
macro "shift1" : tactic => `(tactic| with_reducible first
  | exact Sk.pure _ | exact Sk.u32 | exact Sk.u16 | exact Sk.u8 | exact Sk.f32 | exact Sk.vec3 | exact Sk.vec2 | exact Sk.mat4
  | exact Sk.line _ | exact Sk.date | exact Sk.aabb | exact Sk.obb | exact Sk.char | exact Sk.string _ | exact Sk.padded _
  | exact Sk.read _ | exact Sk.fail _ | exact Sk.lift _ | assumption
  | refine Sk.times ?_ _ | refine Sk.bind ?_ fun _ => ?_ | refine Sk.ite ?_ ?_)

macro "shifts" : tactic => `(tactic| repeat' shift1)

open Tex in
theorem Tex.Texture.sk (t : Texture) : Sk c t.load := by
  have hl : ∀ (f : Format) (w h : BitVec 32) n acc, Sk c (loadLevels f w h n acc) := by
    intro f w h n
    induction n with
    | zero => intro acc; exact Sk.pure _
    | succ n ih => intro acc; exact (Sk.padded _).bind fun _ => ih _
  have hc : Sk c Color.load := by unfold Color.load; shifts
  have hpal : ∀ f old, Sk c (loadPalette f old) := fun f old => by unfold loadPalette; shifts
  unfold Texture.load
  shifts
  · exact hpal _ _
  · exact hl _ _ _ _ _

theorem Font.sk : Sk c Font.load := by
  unfold Font.load
  shifts

theorem Hierarchy.sk (h : Hierarchy) : Sk c h.load :=
  Sk.chunked (fun h t => by
    have hn : Sk c HNode.load := by unfold HNode.load; shifts
    unfold Hierarchy.onChunk
    shifts) h

theorem Animation.sk (o : SampleOps) (m : Animation) : Sk c (Animation.load o m) :=
  Sk.chunked (fun m t => by
    have hs : ∀ a b, Sk c (Animation.loadSample o a b) := fun a b => by unfold Animation.loadSample; shifts
    have he : Sk c Animation.loadEvent := by unfold Animation.loadEvent; shifts
    unfold Animation.onChunk
    shifts
    exact hs _ _) m

/-! ### Multi resolution meshes -/

theorem Sh.times {α} {R : α → α → Prop} {p q : Rd α} (h : Sh c R p q) (n : Nat) :
    Sh c (List.Forall₂ R) (Rd.times p n) (Rd.times q n) := by
  induction n with
  | zero => exact Sh.pure .nil
  | succ n ih => exact Sh.bind h fun _ _ h1 => Sh.bind ih fun _ _ h2 => Sh.pure (.cons h1 h2)

/-- A position that fits into 32 bits. -/
theorem Sk.tellShort (hs : ∀ data, c.files data → Short c.pre data) :
    Sh c (fun a b => c.At a b ∧ b < 2 ^ 32) Rd.tell Rd.tell := fun data pos hF hl hp =>
  .inl ⟨pos, c.pre.length + pos, pos, rfl, rfl, ⟨⟨hl, rfl⟩, by have := hs data hF; unfold Short at this; omega⟩, hl, hp⟩

namespace Mrm

def SecRel (c : Shift) (a b : MrmSection) : Prop := c.At a.offset b.offset ∧ a.size = b.size

structure SecsRel (c : Shift) (a b : MrmSections) : Prop where
  triangles : SecRel c a.triangles b.triangles
  wedges : SecRel c a.wedges b.wedges
  colors : SecRel c a.colors b.colors
  planeIndices : SecRel c a.planeIndices b.planeIndices
  planes : SecRel c a.planes b.planes
  wedgeMap : SecRel c a.wedgeMap b.wedgeMap
  triangleEdges : SecRel c a.triangleEdges b.triangleEdges
  edges : SecRel c a.edges b.edges
  edgeScores : SecRel c a.edgeScores b.edgeScores

theorem sh_section {x y : Nat} (h : c.At x y) : Sh c (SecRel c) (loadSection x) (loadSection y) := by
  unfold loadSection
  refine Sh.bind Sk.u32 fun a b hab => Sh.bind Sk.u32 fun d e hde => ?_
  subst hab hde
  exact Sh.pure ⟨⟨Nat.le_trans h.1 (Nat.le_add_left _ _), by dsimp only; rw [h.2]; omega⟩, rfl⟩

theorem sh_sections {x y : Nat} (h : c.At x y) : Sh c (SecsRel c) (loadSections x) (loadSections y) := by
  unfold loadSections
  exact Sh.bind (sh_section h) fun _ _ h1 => Sh.bind (sh_section h) fun _ _ h2 => Sh.bind (sh_section h) fun _ _ h3 =>
    Sh.bind (sh_section h) fun _ _ h4 => Sh.bind (sh_section h) fun _ _ h5 => Sh.bind (sh_section h) fun _ _ h6 =>
    Sh.bind (sh_section h) fun _ _ _ => Sh.bind (sh_section h) fun _ _ h8 => Sh.bind (sh_section h) fun _ _ h9 =>
    Sh.bind (sh_section h) fun _ _ h10 => Sh.pure ⟨h1, h2, h3, h4, h5, h6, h8, h9, h10⟩

theorem sh_readAt {α} {p : Rd α} (hp : Sk c p) {a b : MrmSection} (h : SecRel c a b) : Sh c Eq (readAt p a) (readAt p b) := by
  unfold readAt
  rw [← h.2]
  exact Sh.bind (Sk.seekBeg h.1) fun _ _ _ => hp.times _

theorem sh_part {μ} {a b : MrmSections} (h : SecsRel c a b) (mat : μ) : Sh c Eq (loadPart a mat) (loadPart b mat) := by
  have h1 : Sk c loadTriple := by unfold loadTriple; shifts
  have h2 : Sk c loadWedge := by unfold loadWedge; shifts
  have h3 : Sk c loadPlane := by unfold loadPlane; shifts
  have h4 : Sk c loadEdge := by unfold loadEdge; shifts
  unfold loadPart
  refine Sh.bind (sh_readAt h1 h.triangles) fun _ _ e1 => Sh.bind (sh_readAt h2 h.wedges) fun _ _ e2 =>
    Sh.bind (sh_readAt Sk.f32 h.colors) fun _ _ e3 => Sh.bind (sh_readAt Sk.u16 h.planeIndices) fun _ _ e4 =>
    Sh.bind (sh_readAt h3 h.planes) fun _ _ e5 => Sh.bind (sh_readAt h1 h.triangleEdges) fun _ _ e6 =>
    Sh.bind (sh_readAt h4 h.edges) fun _ _ e7 => Sh.bind (sh_readAt Sk.f32 h.edgeScores) fun _ _ e8 =>
    Sh.bind (sh_readAt Sk.u16 h.wedgeMap) fun _ _ e9 => Sh.pure ?_
  subst e1 e2 e3 e4 e5 e6 e7 e8 e9
  rfl

theorem sh_parts {μ} {as bs : List MrmSections} (h : List.Forall₂ (SecsRel c) as bs) (mats : List μ) :
    Sh c Eq (loadParts (as.zip mats)) (loadParts (bs.zip mats)) := by
  induction h generalizing mats with
  | nil => exact Sk.pure _
  | cons h1 _ ih =>
    cases mats with
    | nil => exact Sk.pure _
    | cons m ms =>
      refine Sh.bind (sh_part h1 m) fun _ _ e1 => Sh.bind (ih ms) fun _ _ e2 => Sh.pure ?_
      subst e1 e2
      rfl

variable {μ : Type} {mats : Nat → Rd (List μ)}

theorem sk_from (hs : ∀ data, c.files data → Short c.pre data) (hm : ∀ n, Sk c (mats n)) (m : Mrm μ) : Sk c (loadFrom mats m) := by
  have ha : ∀ v o, Sk c (loadAlpha v o) := fun v o => by unfold loadAlpha; shifts
  unfold loadFrom
  refine Sk.u16.bind fun v => Sk.u32.bind fun n => Sh.bind Sk.tell fun x y hxy => Sh.bindEq (Sk.seekCur n.toNat) fun _ =>
    Sh.bindEq Sk.u8 fun k => ?_
  refine Sh.bind (sh_section hxy) fun v1 v2 hv => Sh.bind (sh_section hxy) fun n1 n2 hn =>
    Sh.bind ((sh_sections hxy).times _) fun s1 s2 hse => Sh.bindEq (hm _) fun ms => Sh.bindEq (ha _ _) fun al => Sh.bindEq Sk.aabb fun bb =>
    Sh.bindEq Sk.obb fun ob => Sh.bindEq (Sk.seekCur 16) fun _ => Sh.bind (Sk.tellShort hs) fun f1 f2 hf => ?_
  refine Sh.bind (sh_readAt Sk.vec3 hv) fun p1 p2 e1 => Sh.bind (sh_readAt Sk.vec3 hn) fun q1 q2 e2 =>
    Sh.bind (sh_parts hse ms) fun r1 r2 e3 => ?_
  subst e1 e2 e3
  obtain ⟨⟨hlo, hf2⟩, hlt⟩ := hf
  rw [Nat.mod_eq_of_lt (by omega), Nat.mod_eq_of_lt hlt]
  exact Sh.bind (Sk.seekBeg ⟨hlo, hf2⟩) fun _ _ _ => Sk.pure _

theorem sk (hs : ∀ data, c.files data → Short c.pre data) (hm : ∀ n, Sk c (mats n)) (m : Mrm μ) : Sk c (Mrm.load mats m) :=
  Sk.chunked (fun m t => by
    have := sk_from hs hm
    unfold onChunk
    shifts
    exact this _) m

end Mrm

section
variable {μ : Type} {mats : Nat → Rd (List μ)}

theorem SoftSkin.sk (hs : ∀ data, c.files data → Short c.pre data) (hm : ∀ n, Sk c (mats n)) (m : SoftSkin μ) : Sk c (SoftSkin.load mats m) :=
  Sk.chunked (fun m t => by
    have hw : Sk c loadWeight := by unfold loadWeight; shifts
    have hws : Sk c loadWeights := by unfold loadWeights; shifts
    have hno : Sk c loadNormal := by unfold loadNormal; shifts
    have hskip : ∀ a b, c.At a b → Sh c Eq (skipTo a) (skipTo b) := fun a b h => by
      unfold skipTo
      refine Sh.bind Sk.tell fun x y hxy => ?_
      by_cases he : x = a
      · rw [if_neg (by rw [he]; exact fun h => h rfl), if_neg (by rw [hxy.2, h.2, he]; exact fun h => h rfl)]
        exact Sk.pure _
      · rw [if_pos he, if_pos (by rw [hxy.2, h.2]; omega)]
        exact Sk.seekBeg h
    have hn : ∀ m : SoftSkin μ, Sk c (loadNodes m) := fun m => by
      unfold loadNodes
      refine Sk.u32.bind fun n => Sh.bind Sk.tell fun x y hxy => Sh.bindEq (hws.times _) fun ws => ?_
      refine Sh.bind (hskip _ _ ⟨Nat.le_trans hxy.1 (Nat.le_add_right _ _), by rw [hxy.2, Nat.add_assoc]⟩) fun _ _ _ => ?_
      shifts
    have hf := Mrm.sk_from hs hm
    unfold SoftSkin.onChunk
    shifts
    · exact hf _
    · exact hn _) m

theorem MorphMesh.sk (hs : ∀ data, c.files data → Short c.pre data) (hm : ∀ n, Sk c (mats n)) (m : MorphMesh μ) :
    Sk c (MorphMesh.load mats m) :=
  Sk.chunked (fun m t => by
    have h1 : Sk c loadSource := by unfold loadSource; shifts
    have h2 : Sk c loadAnimation := by unfold loadAnimation; shifts
    have hf := Mrm.sk_from hs hm
    unfold MorphMesh.onChunk
    shifts
    exact hf _) m

theorem ModelMesh.sk (hs : ∀ data, c.files data → Short c.pre data) (hm : ∀ n, Sk c (mats n)) (m : ModelMesh μ) :
    Sk c (ModelMesh.load mats m) := by
  unfold ModelMesh.load
  refine Sk.bind (Sk.chunkedCb ?_ _) fun _ => Sk.pure _
  intro s t a b hab
  have done : ∀ {p : Rd (ModelMesh.St μ)} {d : Bool}, Sk c p →
      Sh c (fun x y => x.1 = y.1 ∧ x.2.1 = y.2.1 ∧ c.At x.2.2 y.2.2) (do let s ← p; return (s, d, a)) (do let s ← p; return (s, d, b)) :=
    fun hp => Sh.bind hp fun x y hxy => by subst hxy; exact Sh.pure ⟨rfl, rfl, hab⟩
  have hp : Sk c (onProto mats s) := by
    unfold onProto
    split
    · exact Sk.fail _
    · exact (Mrm.sk_from hs hm _).bind fun _ => Sk.pure _
  unfold onChunk
  split
  · exact Sh.bind Sk.u32 fun _ _ _ => Sh.pure ⟨rfl, rfl, hab⟩
  split
  · exact Sh.bind Sk.date fun _ _ _ => Sh.bind (Sk.line _) fun _ _ _ => Sh.pure ⟨rfl, rfl, hab⟩
  split
  · refine Sh.bind Sk.u16 fun x y h => ?_
    subst h
    refine Sh.bind ((Sk.line _).times _) fun _ _ h => ?_
    subst h
    exact Sh.pure ⟨rfl, rfl, hab⟩
  split
  · exact done hp
  split
  · unfold onSkins
    refine Sh.bind Sk.u32 fun x y h => ?_
    subst h
    refine Sh.bind Sk.u16 fun x y h => ?_
    subst h
    refine Sh.bind ((SoftSkin.sk hs hm _).times _) fun x y h => ?_
    subst h
    exact Sh.bind Sk.tell fun x y h => Sh.pure ⟨rfl, rfl, h⟩
  split
  · exact Sh.pure ⟨rfl, rfl, hab⟩
  · exact Sh.pure ⟨rfl, rfl, hab⟩

theorem GModel.sk (hs : ∀ data, c.files data → Short c.pre data) (hm : ∀ n, Sk c (mats n)) (m : GModel μ) : Sk c (GModel.load mats m) :=
  (Hierarchy.sk _).bind fun _ => (ModelMesh.sk hs hm _).bind fun _ => Sk.pure _

end

/-! ### Meshes, trees and scripts -/

theorem PolyFlags.sk (g2 : Bool) : Sk c (PolyFlags.load g2) := by
  have h1 : Sk c PolyFlags.loadG1 := by unfold PolyFlags.loadG1; shifts
  have h2 : Sk c PolyFlags.loadG2 := by unfold PolyFlags.loadG2; shifts
  unfold PolyFlags.load
  shifts

theorem Poly.sk_many (g2 wide : Bool) (n : Nat) (o : BitVec 32) : Sk c (Poly.loadMany g2 wide n o) := by
  have h1 : ∀ b, Sk c (Mesh.loadIndex b) := fun b => by unfold Mesh.loadIndex; shifts
  have h2 : ∀ b, Sk c (Mesh.loadCorner b) := fun b => by unfold Mesh.loadCorner; shifts; exact h1 _
  have h3 : ∀ o, Sk c (Poly.load g2 wide o) := fun o => by
    unfold Poly.load
    shifts
    · exact PolyFlags.sk _
    · exact h2 _
  induction n generalizing o with
  | zero => exact Sk.pure _
  | succ n ih => exact (h3 o).bind fun _ => (ih _).bind fun _ => Sk.pure _

theorem Mesh.sk_chunk (wide : Bool) (m : Mesh) (v t : BitVec 16) : Sk c (Mesh.onChunkV wide m v t) := by
  have h1 : Sk c Feature.load := by unfold Feature.load; shifts
  unfold Mesh.onChunkV
  shifts
  exact Poly.sk_many _ _ _ _

theorem Mesh.sk (wide : Bool) (m : Mesh) : Sk c (m.load wide) :=
  (Sk.chunked (fun _ _ => Mesh.sk_chunk wide _ _ _) _).bind fun _ => Sk.pure _

theorem Bsp.sk_parse (g1 : Bool) (fuel : Nat) (st : BspParse) (parent : BitVec 32) (leaf : Bool) : Sk c (Bsp.parse g1 fuel st parent leaf) := by
  induction fuel generalizing st parent leaf with
  | zero => exact Sk.fail _
  | succ fuel ih =>
    unfold Bsp.parse
    shifts
    · exact ih _ _ _
    · exact ih _ _ _

theorem Bsp.sk (g1 : Bool) (b : Bsp) : Sk c (b.load g1) :=
  Sk.chunked (fun b t => by
    have h1 : Sk c BspSector.load := by unfold BspSector.load; shifts
    have h2 : Sk c (Bsp.onTree g1 b) := by
      unfold Bsp.onTree
      refine Sk.u32.bind fun n => Sk.u32.bind fun _ => Sk.bind (Sk.fuelled (fun k => Bsp.parse g1 k
        { nodes := b.nodes, leaves := b.leafNodes, cap := max b.nodes.length n.toNat, gen := 0 } 0xFFFFFFFF (n == 1))
        fun _ => Bsp.sk_parse _ _ _ _ _) fun _ => ?_
      shifts
    unfold Bsp.onChunk
    shifts) b

namespace Mds

theorem sk_atAni (st : MsbSt) (f : Animation → Animation) : Sk c (atAni st f) := by
  unfold atAni
  shifts

theorem sk_args (evt : EventTag) : Sk c (msbArgs evt) := by
  unfold msbArgs
  split
  all_goals shifts
  all_goals
    split
    · exact Sk.fail _
    · exact Sk.pure _

theorem sk_binary (s : Script) : Sk c (loadBinary s) := by
  have h0 : Sk c msbSfx := by unfold msbSfx; shifts
  refine (Sk.chunked (fun st t => ?_) _).bind fun _ => Sk.pure _
  have h1 : Sk c (msbTag st) := by
    unfold msbTag; shifts
    · exact sk_args _
    · exact sk_atAni _ _
  have h2 : Sk c (msbAni st) := by unfold msbAni; shifts
  have h3 : Sk c (msbAlias st) := by unfold msbAlias; shifts
  have h4 : Sk c (msbBlend st) := by unfold msbBlend; shifts
  have h5 : Sk c (msbCombine st) := by unfold msbCombine; shifts
  have h6 : Sk c (msbTremor st) := by unfold msbTremor; shifts; exact sk_atAni _ _
  have h7 : Sk c (msbPfx st) := by unfold msbPfx; shifts; exact sk_atAni _ _
  have h8 : Sk c (msbPfxStop st) := by unfold msbPfxStop; shifts; exact sk_atAni _ _
  have h9 : Sk c (msbMorph st) := by unfold msbMorph; shifts; exact sk_atAni _ _
  have h10 : Sk c (msbModelTag st) := by unfold msbModelTag; shifts
  unfold msbChunk
  shifts
  all_goals exact sk_atAni _ _

end Mds

namespace Daedalus

/-- One attempt of the search. -/
theorem sk_back (h3 : 3 ≤ c.lo) : Sk c (do Rd.seek (-3) .cur; Rd.u32) := by
  intro data pos hF hl hp
  have h := ShAt.bind (c := ⟨c.pre, c.files, c.lo - 3⟩) (R' := Eq) (f := fun _ => Rd.u32) (g := fun _ => Rd.u32)
    (Sk.seekBack (n := 3) (data := data) (pos := pos) (by dsimp only; omega) hp) fun _ _ pos1 _ _ l1 l2 => Sk.u32 data pos1 hF l1 l2
  rcases h with ⟨a, b, pos1, e1, e2, hr, l1, l2⟩ | ⟨e, e1, e2⟩
  · refine .inl ⟨a, b, pos1, e1, e2, hr, ?_, l2⟩
    have e0 : Rd.seek (-3) .cur ⟨data, pos⟩ = .ok ((), ⟨data, pos - 3⟩) :=
      Rd.seek_ok (by unfold Rd.seekTarget; dsimp only; omega) (by omega)
    have e1 : (do Rd.seek (-3) .cur; Rd.u32 : Rd (BitVec 32)) ⟨data, pos⟩ = _ := e1
    rw [Rd.bind_ok e0] at e1
    obtain ⟨v, hv⟩ := Rd.word_ok 32 4 data (pos - 3) (by omega)
    have e1 : Rd.word 32 4 _ = _ := e1
    rw [hv] at e1
    cases e1
    omega
  · exact .inr ⟨e, e1, e2⟩

theorem sk_seekParent (h3 : 3 ≤ c.lo) (n : Nat) : Sk c (seekParent n) := by
  induction n with
  | zero => exact Sk.pure _
  | succ n ih =>
    have : seekParent (n + 1) = (do
        let v ← (do Rd.seek (-3) .cur; Rd.u32)
        if v = BitVec.allOnes 32 then return true else seekParent n) := by
      rw [Rd.bind_assoc]
      rfl
    rw [this]
    exact (sk_back h3).bind fun _ => Sk.ite (Sk.pure _) ih

theorem sk_searchParent (h3 : 3 ≤ c.lo) : Sk c searchParent := by
  unfold searchParent
  exact Sh.bind Sk.tell fun x y hxy => Sh.bindEq (sk_seekParent h3 4) fun b => by
    split
    · exact Sk.pure _
    · exact Sh.bind (Sk.seekBeg hxy) fun _ _ _ => Sk.u32

theorem sk_parent (h3 : 3 ≤ c.lo) (s : LSym) : Sk c s.loadParent := by
  have := sk_searchParent h3
  unfold LSym.loadParent
  shifts

/-- At the end of a file there is nothing to search. -/
theorem sk_parent_end (he : ∀ data, c.files data → data.length ≤ c.lo) (s : LSym) : Sk c s.loadParent := by
  intro data pos hF hl hp
  have h0 := he data hF
  obtain rfl : pos = data.length := by omega
  unfold LSym.loadParent
  refine ShAt.bind (Sk.u32 data _ hF hl hp) fun v _ pos1 hr e1 l1 l2 => ?_
  subst hr
  rw [u32_end] at e1
  cases e1
  rw [if_neg (fun h => absurd h.2.2.2 (by decide))]
  exact .pure rfl l1 l2

theorem sk_sym (h6 : ∀ s : LSym, Sk c s.loadParent) (s : LSym) : Sk c s.load := by
  have h1 : ∀ s : LSym, Sk c s.loadName := fun s => by unfold LSym.loadName; shifts
  have h2 : ∀ s : LSym, Sk c s.loadProps := fun s => by unfold LSym.loadProps; shifts
  have h4 : ∀ s : LSym, Sk c s.loadPlace := fun s => by unfold LSym.loadPlace; shifts
  have h5 : ∀ s : LSym, Sk c s.loadValue := fun s => by
    unfold LSym.loadValue
    dsimp only
    split
    all_goals shifts
  unfold LSym.load
  exact (h1 _).bind fun _ => (h2 _).bind fun _ => (h4 _).bind fun _ => (Sk.ite (Sk.pure _) (h5 _)).bind fun _ => h6 _

theorem sk_syms (h6 : ∀ s : LSym, Sk c s.loadParent) (sc : Script) (i : Nat) (l : List LSym) : Sk c (sc.loadSyms i l) := by
  induction l generalizing sc i with
  | nil => exact Sk.pure _
  | cons a l ih => exact (sk_sym h6 a).bind fun _ => ih _ _

theorem sk_load (sc : Script) (pre : Bytes) : Sk ⟨pre, AnyFile, 0⟩ sc.load := by
  intro data pos _ _ hp
  unfold Script.load
  refine ShAt.bind (Sk.u8 data pos trivial (Nat.zero_le _) hp) fun v _ pos1 hr e1 _ l1 => ?_
  subst hr
  obtain ⟨_, h1⟩ := Rd.word_ok 8 1 data pos hp
  have e1 : Rd.word 8 1 _ = _ := e1
  rw [h1] at e1
  cases e1
  refine ShAt.bind (Sk.u32 data _ trivial (Nat.zero_le _) l1) fun n _ pos2 hr e2 _ l2 => ?_
  subst hr
  obtain ⟨_, h2⟩ := Rd.word_ok 32 4 data (min (pos + 1) data.length) l1
  have e2 : Rd.word 32 4 _ = _ := e2
  rw [h2] at e2
  cases e2
  by_cases hlen : pos + 5 ≤ data.length
  · refine ShAt.lower (lo := 3) ?_ (Nat.zero_le _)
    refine (show Sk ⟨pre, AnyFile, 3⟩ _ from ?_) data _ trivial (by dsimp only; omega) l2
    exact (Sk.seekCur _).bind fun _ => (sk_syms (sk_parent (Nat.le_refl 3)) _ _ _).bind fun _ => Sk.u32.bind fun _ =>
      (Sk.padded _).bind fun _ => Sk.pure _
  · have key : Sk ⟨pre, fun d => d = data, data.length⟩ (do
        Rd.seek (n.toNat * 4) .cur
        let sc ← ({ sc with version := v, syms := [] } : Script).loadSyms 0 (resized sc.syms n.toNat)
        let k ← Rd.u32
        let code ← Rd.readPadded k.toNat
        return { sc with text := some code }) :=
      (Sk.seekCur _).bind fun _ => (sk_syms (sk_parent_end fun d hd => by cases hd; exact Nat.le_refl _) _ _ _).bind fun _ =>
        Sk.u32.bind fun _ => (Sk.padded _).bind fun _ => Sk.pure _
    rcases key data _ rfl (by dsimp only; omega) l2 with ⟨a, b, q, k1, k2, k3, _, k4⟩ | k
    · exact .inl ⟨a, b, q, k1, k2, k3, Nat.zero_le _, k4⟩
    · exact .inr k

end Daedalus

end Verif
