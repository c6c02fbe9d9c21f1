import Verif.Lemmas.MeshSave
import Verif.Lemmas.Font

/-!
# Readers that end well on any bytes

`Safe T p`: on any file of less than 4 GiB `p` ends, leaves the file as it is and a position inside of it; an exception is possible if `T`
holds, any other failure is not. `Fwd T p`: in addition, the position does not go back.
-/

namespace Verif

/-- Which files are looked at, and whether an exception may be thrown. -/
structure Mode where
  throws : Prop
  files : Bytes → Prop

/-- All files, exceptions allowed or not. -/
def Mode.all (T : Prop) : Mode := ⟨T, fun _ => True⟩

def Safe (T : Mode) {α} (p : Rd α) : Prop := ∀ (data : Bytes) (pos : Nat), (data.length < 2 ^ 32 ∧ T.files data) → pos ≤ data.length →
  (∃ a pos', p ⟨data, pos⟩ = .ok (a, ⟨data, pos'⟩) ∧ pos' ≤ data.length) ∨ T.throws ∧ ∃ e, p ⟨data, pos⟩ = .error (.throw e)

def Fwd (T : Mode) {α} (p : Rd α) : Prop := ∀ (data : Bytes) (pos : Nat), (data.length < 2 ^ 32 ∧ T.files data) → pos ≤ data.length →
  (∃ a pos', p ⟨data, pos⟩ = .ok (a, ⟨data, pos'⟩) ∧ pos ≤ pos' ∧ pos' ≤ data.length) ∨ T.throws ∧ ∃ e, p ⟨data, pos⟩ = .error (.throw e)

variable {T : Mode}

theorem Fwd.safe {α} {p : Rd α} (h : Fwd T p) : Safe T p := fun data pos hl hp => by
  rcases h data pos hl hp with ⟨a, pos', e, _, l⟩ | h
  · exact .inl ⟨a, pos', e, l⟩
  · exact .inr h

namespace Safe

theorem bind {α β} {p : Rd α} {f : α → Rd β} (hp : Safe T p) (hf : ∀ a, Safe T (f a)) : Safe T (p >>= f) := by
  intro data pos hl hpos
  rcases hp data pos hl hpos with ⟨a, pos1, e1, l1⟩ | ⟨ht, e, he⟩
  · rw [Rd.bind_ok e1]
    exact hf a data pos1 hl l1
  · exact .inr ⟨ht, e, by rw [Rd.bind_err he]⟩

theorem pure {α} (a : α) : Safe T (Pure.pure a : Rd α) := fun _ pos _ hp => .inl ⟨a, pos, rfl, hp⟩

theorem seek (off : Int) (wh : Whence) : Safe T (Rd.seek off wh) := by
  intro data pos _ hp
  unfold Rd.seek
  dsimp only
  split
  · exact .inl ⟨(), pos, rfl, hp⟩
  · exact .inl ⟨(), _, rfl, by omega⟩

theorem times {α} {p : Rd α} (hp : Safe T p) (n : Nat) : Safe T (Rd.times p n) := by
  induction n with
  | zero => exact pure _
  | succ n ih => exact hp.bind fun _ => ih.bind fun _ => pure _

end Safe

namespace Fwd

theorem bind {α β} {p : Rd α} {f : α → Rd β} (hp : Fwd T p) (hf : ∀ a, Fwd T (f a)) : Fwd T (p >>= f) := by
  intro data pos hl hpos
  rcases hp data pos hl hpos with ⟨a, pos1, e1, b1, l1⟩ | ⟨ht, e, he⟩
  · rw [Rd.bind_ok e1]
    rcases hf a data pos1 hl l1 with ⟨b, pos2, e2, b2, l2⟩ | h
    · exact .inl ⟨b, pos2, e2, Nat.le_trans b1 b2, l2⟩
    · exact .inr h
  · exact .inr ⟨ht, e, by rw [Rd.bind_err he]⟩

theorem pure {α} (a : α) : Fwd T (Pure.pure a : Rd α) := fun _ pos _ hp => .inl ⟨a, pos, rfl, Nat.le_refl _, hp⟩

theorem word (w k : Nat) : Fwd T (Rd.word w k) := by
  intro data pos _ hp
  obtain ⟨v, e⟩ := Rd.word_ok w k data pos hp
  exact .inl ⟨v, _, e, by omega, by omega⟩

theorem u8 : Fwd T Rd.u8 := word _ _
theorem u16 : Fwd T Rd.u16 := word _ _
theorem u32 : Fwd T Rd.u32 := word _ _
theorem f32 : Fwd T Rd.f32 := word _ _

theorem padded (k : Nat) : Fwd T (Rd.readPadded k) := by
  intro data pos _ hp
  obtain ⟨v, e⟩ := Obb.padded_ok k data pos hp
  exact .inl ⟨v, _, e, by omega, by omega⟩

theorem char : Fwd T Rd.char := (padded _).bind fun _ => pure _
theorem vec3 : Fwd T Rd.vec3 := (padded _).bind fun _ => pure _
theorem vec2 : Fwd T Rd.vec2 := (padded _).bind fun _ => pure _
theorem mat4 : Fwd T Rd.mat4 := (padded _).bind fun _ => pure _

theorem tell : Fwd T Rd.tell := fun _ pos _ hp => .inl ⟨pos, pos, rfl, Nat.le_refl _, hp⟩

theorem seekCur (n : Nat) : Fwd T (Rd.seek (n : Int) .cur) := by
  intro data pos _ hp
  unfold Rd.seek
  dsimp only [Rd.seekTarget]
  split
  · exact .inl ⟨(), pos, rfl, Nat.le_refl _, hp⟩
  · exact .inl ⟨(), _, rfl, by omega, by omega⟩

theorem times {α} {p : Rd α} (hp : Fwd T p) (n : Nat) : Fwd T (Rd.times p n) := by
  induction n with
  | zero => exact pure _
  | succ n ih => exact hp.bind fun _ => ih.bind fun _ => pure _

theorem aabb : Fwd T Aabb.load := vec3.bind fun _ => vec3.bind fun _ => pure _

theorem obb : Fwd T Obb.load := by
  intro data pos _ hp
  obtain ⟨v, pos', e, b, l⟩ := Obb.load_ok data _ pos hp (Nat.lt_succ_self _)
  exact .inl ⟨v, pos', e, b, l⟩

theorem date : Fwd T Date.load :=
  u32.bind fun _ => u16.bind fun _ => u16.bind fun _ => u16.bind fun _ => u16.bind fun _ => u16.bind fun _ => u16.bind fun _ => pure _

/-- Reading a character either advances or gives NUL at the end. -/
theorem char_cases (data : Bytes) (pos : Nat) (hp : pos ≤ data.length) :
    (pos < data.length ∧ ∃ c, Rd.char ⟨data, pos⟩ = .ok (c, ⟨data, pos + 1⟩)) ∨
      pos = data.length ∧ Rd.char ⟨data, pos⟩ = .ok (0, ⟨data, pos⟩) := by
  by_cases h : pos = data.length
  · right
    refine ⟨h, ?_⟩
    subst h
    simp [Rd.char, Rd.bind_def, Rd.readPadded, Rd.read]
  · left
    obtain ⟨v, e⟩ := Obb.padded_ok 1 data pos hp
    refine ⟨by omega, v.headD 0, ?_⟩
    unfold Rd.char
    rw [Rd.bind_ok e, show min (pos + 1) data.length = pos + 1 by omega]
    rfl

theorem lineLoop_total (data : Bytes) (fuel : Nat) (acc : Bytes) (pos : Nat) (hp : pos ≤ data.length) (hf : data.length - pos < fuel) :
    ∃ str c pos', Rd.lineLoop fuel acc ⟨data, pos⟩ = .ok ((str, c), ⟨data, pos'⟩) ∧ pos ≤ pos' ∧ pos' ≤ data.length ∧
      (pos < pos' ∨ pos' = data.length) := by
  induction fuel generalizing acc pos with
  | zero => omega
  | succ fuel ih =>
    simp only [Rd.lineLoop]
    rcases char_cases data pos hp with ⟨hlt, c, e⟩ | ⟨heq, e⟩
    · rw [Rd.bind_ok e]
      by_cases hc : Rd.isEol c = true
      · rw [if_pos hc]
        exact ⟨acc, c, pos + 1, rfl, by omega, by omega, .inl (by omega)⟩
      · rw [if_neg hc]
        obtain ⟨str, c', pos', e', b, l, _⟩ := ih (acc ++ [c]) (pos + 1) (by omega) (by omega)
        exact ⟨str, c', pos', e', by omega, l, .inl (by omega)⟩
    · rw [Rd.bind_ok e, if_pos (by decide)]
      exact ⟨acc, 0, pos, rfl, Nat.le_refl _, hp, .inr heq⟩

theorem ignoreLoop_total (chars : Bytes) (data : Bytes) (fuel : Nat) (pos : Nat) (hp : pos ≤ data.length) (hf : data.length - pos < fuel) :
    ∃ c pos', Rd.ignoreLoop chars fuel ⟨data, pos⟩ = .ok (c, ⟨data, pos'⟩) ∧ pos ≤ pos' ∧ pos' ≤ data.length := by
  induction fuel generalizing pos with
  | zero => omega
  | succ fuel ih =>
    simp only [Rd.ignoreLoop]
    rcases char_cases data pos hp with ⟨hlt, c, e⟩ | ⟨heq, e⟩
    · rw [Rd.bind_ok e]
      split
      · obtain ⟨c', pos', e', b, l⟩ := ih (pos + 1) (by omega) (by omega)
        exact ⟨c', pos', e', by omega, l⟩
      · exact ⟨c, pos + 1, rfl, by omega, by omega⟩
    · rw [Rd.bind_ok e, if_neg (by simp)]
      exact ⟨0, pos, rfl, Nat.le_refl _, hp⟩

theorem lineThenIgnore (chars : Bytes) : Fwd T (Rd.lineThenIgnore chars) := by
  intro data pos _ hp
  left
  obtain ⟨str, c, pos1, e1, b1, l1, c1⟩ := lineLoop_total data (data.length - pos + 1) [] pos hp (by omega)
  unfold Rd.lineThenIgnore
  dsimp only
  rw [Rd.bind_ok e1]
  dsimp only
  rw [Rd.bind_ok (show Rd.eof ⟨data, pos1⟩ = .ok (decide (pos1 ≥ data.length), ⟨data, pos1⟩) from rfl)]
  by_cases h : (chars.isEmpty || c == 0 || decide (pos1 ≥ data.length)) = true
  · rw [if_pos h]
    exact ⟨str, pos1, rfl, b1, l1⟩
  · rw [if_neg h]
    have hlt : pos1 < data.length := by
      simp only [Bool.or_eq_true, decide_eq_true_eq, not_or] at h
      omega
    obtain ⟨c', pos2, e2, b2, l2⟩ := ignoreLoop_total chars data (data.length - pos + 1) pos1 l1 (by omega)
    rw [Rd.bind_ok e2, Rd.bind_ok (show Rd.eof ⟨data, pos2⟩ = .ok (decide (pos2 ≥ data.length), ⟨data, pos2⟩) from rfl)]
    by_cases h2 : (decide (pos2 ≥ data.length) && c' == 0) = true
    · rw [if_pos h2]
      exact ⟨str, pos2, rfl, by omega, l2⟩
    · rw [if_neg h2, Rd.bind_ok (Rd.seek_ok (t := pos2 - 1) (by simp [Rd.seekTarget]; omega) (by omega))]
      exact ⟨str, pos2 - 1, rfl, by omega, by omega⟩

theorem line (skip : Bool) : Fwd T (Rd.line skip) := lineThenIgnore _

/-- The loop over the chunks ends if the handler never goes back. -/
theorem chunked {σ} {cb : σ → BitVec 16 → Rd (σ × Bool)} (h : ∀ s t, Fwd T (cb s t)) (s : σ) : Fwd T (readChunked (simpleCb cb) s) := by
  intro data pos hl hp
  unfold readChunked
  dsimp only
  have key : ∀ (fuel : Nat) (s : σ) (pos : Nat), pos ≤ data.length → data.length - pos < fuel →
      (∃ a pos', readChunkedFuel (simpleCb cb) fuel s ⟨data, pos⟩ = .ok (a, ⟨data, pos'⟩) ∧ pos ≤ pos' ∧ pos' ≤ data.length) ∨
        T.throws ∧ ∃ e, readChunkedFuel (simpleCb cb) fuel s ⟨data, pos⟩ = .error (.throw e) := by
    intro fuel
    induction fuel with
    | zero => intro _ _ _ _; omega
    | succ fuel ih =>
      intro s pos hp hf
      obtain ⟨t, e1⟩ := Rd.word_ok 16 2 data pos hp
      obtain ⟨z, e2⟩ := Rd.word_ok 32 4 data (min (pos + 2) data.length) (by omega)
      generalize hq : min (min (pos + 2) data.length + 4) data.length = q at e2
      have hq1 : q ≤ data.length := by omega
      simp only [readChunkedFuel]
      rw [Rd.bind_ok (show Rd.u16 _ = _ from e1), Rd.bind_ok (show Rd.u32 _ = _ from e2),
        Rd.bind_ok (show Rd.tell ⟨data, q⟩ = .ok (q, _) from rfl)]
      unfold simpleCb
      rcases h s t data q hl hq1 with ⟨⟨s', done⟩, pos3, e3, b3, l3⟩ | ⟨ht, e, he⟩
      · rw [Rd.bind_ok (show (do
            let (s', done) ← cb s t
            return (s', done, q + z.toNat) : Rd (σ × Bool × Nat)) ⟨data, q⟩ = .ok ((s', done, q + z.toNat), ⟨data, pos3⟩) by
          rw [Rd.bind_ok e3]; rfl)]
        dsimp only
        have hs : ∃ pos4, Rd.seek ((q + z.toNat : Nat) : Int) .beg ⟨data, pos3⟩ = .ok ((), ⟨data, pos4⟩) ∧ q ≤ pos4 ∧ pos4 ≤ data.length := by
          unfold Rd.seek
          dsimp only [Rd.seekTarget]
          split
          · exact ⟨pos3, rfl, b3, l3⟩
          · exact ⟨_, rfl, by omega, by omega⟩
        obtain ⟨pos4, e4, b4, l4⟩ := hs
        rw [Rd.bind_ok e4]
        cases done with
        | true => exact .inl ⟨s', pos4, rfl, by omega, l4⟩
        | false =>
          simp only [Bool.false_eq_true, if_false]
          rw [Rd.bind_ok (show Rd.eof ⟨data, pos4⟩ = .ok (decide (pos4 ≥ data.length), ⟨data, pos4⟩) from rfl)]
          by_cases h5 : decide (pos4 ≥ data.length) = true
          · rw [if_pos h5]
            exact .inl ⟨s', pos4, rfl, by omega, l4⟩
          · rw [if_neg h5]
            simp only [decide_eq_true_eq] at h5
            rcases ih s' pos4 l4 (by omega) with ⟨a, pos5, e5, b5, l5⟩ | h6
            · exact .inl ⟨a, pos5, e5, by omega, l5⟩
            · exact .inr h6
      · refine .inr ⟨ht, e, ?_⟩
        rw [Rd.bind_err (show (do
            let (s', done) ← cb s t
            return (s', done, q + z.toNat) : Rd (σ × Bool × Nat)) ⟨data, q⟩ = .error (.throw e) by rw [Rd.bind_err he])]
  exact key _ s pos hp (by omega)

/-- A reader that goes anywhere and at last back to where it was. -/
theorem andBack {α β} {p : Rd α} (hp : Safe T p) (f : α → β) : Fwd T (do
    let fin ← Rd.tell
    let a ← p
    Rd.seek (fin % 2 ^ 32 : Nat) .beg
    return f a) := by
  intro data pos hl hpos
  rw [Rd.bind_ok (show Rd.tell ⟨data, pos⟩ = .ok (pos, _) from rfl)]
  rcases hp data pos hl hpos with ⟨a, pos1, e1, l1⟩ | ⟨ht, e, he⟩
  · rw [Rd.bind_ok e1, Nat.mod_eq_of_lt (show pos < 2 ^ 32 by omega), Rd.bind_ok (Rd.seek_beg hpos)]
    exact .inl ⟨f a, pos, rfl, Nat.le_refl _, hpos⟩
  · exact .inr ⟨ht, e, by rw [Rd.bind_err he]⟩

end Fwd

/-! ## Meshes -/

namespace Mrm

theorem fwd_section (base : Nat) : Fwd T (loadSection base) := Fwd.u32.bind fun _ => Fwd.u32.bind fun _ => .pure _

theorem fwd_sections (base : Nat) : Fwd T (loadSections base) :=
  (fwd_section _).bind fun _ => (fwd_section _).bind fun _ => (fwd_section _).bind fun _ => (fwd_section _).bind fun _ =>
    (fwd_section _).bind fun _ => (fwd_section _).bind fun _ => (fwd_section _).bind fun _ => (fwd_section _).bind fun _ =>
      (fwd_section _).bind fun _ => (fwd_section _).bind fun _ => .pure _

theorem safe_readAt {α} {p : Rd α} (hp : Fwd T p) (s : MrmSection) : Safe T (readAt p s) := (Safe.seek _ _).bind fun _ => hp.safe.times _

theorem fwd_triple : Fwd T loadTriple := Fwd.u16.bind fun _ => Fwd.u16.bind fun _ => Fwd.u16.bind fun _ => .pure _

theorem safe_part {μ} (map : MrmSections) (mat : μ) : Safe T (loadPart map mat) :=
  (safe_readAt fwd_triple _).bind fun _ =>
  (safe_readAt (Fwd.vec3.bind fun _ => Fwd.vec2.bind fun _ => Fwd.u16.bind fun _ => Fwd.u16.bind fun _ => .pure _) _).bind fun _ =>
  (safe_readAt Fwd.f32 _).bind fun _ => (safe_readAt Fwd.u16 _).bind fun _ =>
  (safe_readAt (Fwd.f32.bind fun _ => Fwd.vec3.bind fun _ => .pure _) _).bind fun _ =>
  (safe_readAt fwd_triple _).bind fun _ => (safe_readAt (Fwd.u16.bind fun _ => Fwd.u16.bind fun _ => .pure _) _).bind fun _ =>
  (safe_readAt Fwd.f32 _).bind fun _ => (safe_readAt Fwd.u16 _).bind fun _ => .pure _

theorem safe_parts {μ} (l : List (MrmSections × μ)) : Safe T (loadParts l) := by
  induction l with
  | nil => exact .pure _
  | cons p l ih => exact (safe_part p.1 p.2).bind fun _ => ih.bind fun _ => .pure _

theorem fwd_alpha (v : BitVec 16) (old : BitVec 8) : Fwd T (loadAlpha v old) := by
  unfold loadAlpha
  split
  · exact Fwd.u8.bind fun _ => .pure _
  · exact .pure _

theorem fwd_from {μ} {mats : Nat → Rd (List μ)} (hm : ∀ n, Fwd T (mats n)) (m : Mrm μ) : Fwd T (loadFrom mats m) := by
  refine Fwd.u16.bind fun version => Fwd.u32.bind fun size => Fwd.tell.bind fun base => (Fwd.seekCur _).bind fun _ =>
    Fwd.u8.bind fun count => (fwd_section _).bind fun vertices => (fwd_section _).bind fun norms => ((fwd_sections _).times _).bind fun sections =>
    (hm _).bind fun materials => (fwd_alpha _ _).bind fun alphaTest => Fwd.aabb.bind fun bbox => Fwd.obb.bind fun obbox =>
    (Fwd.seekCur 16).bind fun _ => ?_
  have := Fwd.andBack (T := T) ((safe_readAt Fwd.vec3 vertices).bind fun positions => (safe_readAt Fwd.vec3 norms).bind fun normals =>
    (safe_parts (sections.zip materials)).bind fun subMeshes => Safe.pure (positions, normals, subMeshes))
    (fun a => ({ positions := a.1, normals := a.2.1, subMeshes := a.2.2, materials, alphaTest, bbox, obbox } : Mrm μ))
  refine fun data pos hl hp => ?_
  have h := this data pos hl hp
  have e : ∀ st, (do
      let fin ← Rd.tell
      let a ← (do
        let positions ← readAt Rd.vec3 vertices
        let normals ← readAt Rd.vec3 norms
        let subMeshes ← loadParts (sections.zip materials)
        Pure.pure (positions, normals, subMeshes))
      Rd.seek (fin % 2 ^ 32 : Nat) .beg
      return ({ positions := a.1, normals := a.2.1, subMeshes := a.2.2, materials, alphaTest, bbox, obbox } : Mrm μ) : Rd (Mrm μ)) st = (do
      let fin ← Rd.tell
      let positions ← readAt Rd.vec3 vertices
      let normals ← readAt Rd.vec3 norms
      let subMeshes ← loadParts (sections.zip materials)
      Rd.seek (fin % 2 ^ 32 : Nat) .beg
      return ({ positions, normals, subMeshes, materials, alphaTest, bbox, obbox } : Mrm μ) : Rd (Mrm μ)) st := by
    intro st
    simp only [Rd.bind_def]
    cases h1 : Rd.tell st with
    | error e => rfl
    | ok r =>
      dsimp only
      cases h2 : readAt Rd.vec3 vertices r.2 with
      | error e => rfl
      | ok r2 =>
        dsimp only
        cases h3 : readAt Rd.vec3 norms r2.2 with
        | error e => rfl
        | ok r3 =>
          dsimp only
          cases h4 : loadParts (sections.zip materials) r3.2 with
          | error e => rfl
          | ok r4 => rfl
  rw [e] at h
  exact h

theorem fwd_onChunk {μ} {mats : Nat → Rd (List μ)} (hm : ∀ n, Fwd T (mats n)) (m : Mrm μ) (t : BitVec 16) : Fwd T (onChunk mats m t) := by
  unfold onChunk
  split
  · exact (fwd_from hm m).bind fun _ => .pure _
  · split <;> exact .pure _

theorem fwd_load {μ} {mats : Nat → Rd (List μ)} (hm : ∀ n, Fwd T (mats n)) (m : Mrm μ) : Fwd T (load mats m) :=
  Fwd.chunked (fwd_onChunk hm) m

end Mrm

namespace SoftSkin

theorem fwd_skip (p : Nat) (data : Bytes) (pos : Nat) (hp : pos ≤ data.length) (hpp : p ≤ pos) (n : Nat) :
    ∃ pos', skipTo (p + n) ⟨data, pos⟩ = .ok ((), ⟨data, pos'⟩) ∧ p ≤ pos' ∧ pos' ≤ data.length := by
  unfold skipTo
  rw [Rd.bind_ok (show Rd.tell ⟨data, pos⟩ = .ok (pos, _) from rfl)]
  split
  · unfold Rd.seek
    dsimp only [Rd.seekTarget]
    split
    · exact ⟨pos, rfl, hpp, hp⟩
    · exact ⟨_, rfl, by omega, by omega⟩
  · exact ⟨pos, rfl, hpp, hp⟩

theorem fwd_weights : Fwd T loadWeights :=
  Fwd.u32.bind fun _ => (Fwd.f32.bind fun _ => Fwd.vec3.bind fun _ => Fwd.u8.bind fun _ => .pure _ : Fwd T loadWeight).times _

theorem fwd_nodes {μ} (m : SoftSkin μ) : Fwd T (loadNodes m) := by
  refine Fwd.u32.bind fun size => ?_
  intro data pos hl hp
  rw [Rd.bind_ok (show Rd.tell ⟨data, pos⟩ = .ok (pos, _) from rfl)]
  rcases (fwd_weights (T := T)).times m.mesh.positions.length data pos hl hp with ⟨ws, pos1, e1, b1, l1⟩ | ⟨ht, e, he⟩
  · rw [Rd.bind_ok e1]
    obtain ⟨pos2, e2, b2, l2⟩ := fwd_skip pos data pos1 l1 b1 size.toNat
    rw [Rd.bind_ok e2]
    have h3 : Fwd T (do
        let normalCount ← Rd.u32
        let wedgeNormals ← Rd.times loadNormal normalCount.toNat
        let nodeCount ← Rd.u16
        let nodes ← Rd.times Rd.u32 nodeCount.toNat
        let bboxes ← Rd.times Obb.load nodes.length
        return ({ m with weights := ws, wedgeNormals, nodes, bboxes } : SoftSkin μ)) :=
      Fwd.u32.bind fun _ => (Fwd.vec3.bind fun _ => Fwd.u32.bind fun _ => .pure _ : Fwd T loadNormal).times _ |>.bind fun _ =>
        Fwd.u16.bind fun _ => (Fwd.u32.times _).bind fun _ => (Fwd.obb.times _).bind fun _ => .pure _
    rcases h3 data pos2 hl l2 with ⟨a, pos3, e3, b3, l3⟩ | h
    · exact .inl ⟨a, pos3, e3, by omega, l3⟩
    · exact .inr h
  · exact .inr ⟨ht, e, by rw [Rd.bind_err he]⟩

theorem fwd_onChunk {μ} {mats : Nat → Rd (List μ)} (hm : ∀ n, Fwd T (mats n)) (m : SoftSkin μ) (t : BitVec 16) : Fwd T (onChunk mats m t) := by
  unfold onChunk
  split
  · exact Fwd.u32.bind fun _ => .pure _
  split
  · exact (Mrm.fwd_from hm _).bind fun _ => .pure _
  split
  · exact (fwd_nodes m).bind fun _ => .pure _
  split <;> exact .pure _

theorem fwd_load {μ} {mats : Nat → Rd (List μ)} (hm : ∀ n, Fwd T (mats n)) (m : SoftSkin μ) : Fwd T (load mats m) :=
  Fwd.chunked (fwd_onChunk hm) m

end SoftSkin

namespace MorphMesh

theorem fwd_onChunk {μ} {mats : Nat → Rd (List μ)} (hm : ∀ n, Fwd T (mats n)) (m : MorphMesh μ) (t : BitVec 16) : Fwd T (onChunk mats m t) := by
  unfold onChunk
  split
  · exact Fwd.u16.bind fun _ => ((Fwd.date.bind fun _ => (Fwd.line _).bind fun _ => .pure _ : Fwd T loadSource).times _).bind fun _ => .pure _
  split
  · exact Fwd.u32.bind fun _ => (Fwd.line _).bind fun _ => .pure _
  split
  · exact (Mrm.fwd_from hm _).bind fun _ => .pure _
  split
  · exact (Fwd.vec3.times _).bind fun _ => .pure _
  split
  · have : Fwd T loadAnimation :=
      (Fwd.line _).bind fun _ => Fwd.f32.bind fun _ => Fwd.f32.bind fun _ => Fwd.f32.bind fun _ => Fwd.u32.bind fun _ => Fwd.f32.bind fun _ =>
        Fwd.u8.bind fun _ => Fwd.u32.bind fun _ => Fwd.u32.bind fun _ => (Fwd.u32.times _).bind fun _ => (Fwd.vec3.times _).bind fun _ => .pure _
    exact Fwd.u16.bind fun _ => (this.times _).bind fun _ => .pure _
  · exact .pure _

theorem fwd_load {μ} {mats : Nat → Rd (List μ)} (hm : ∀ n, Fwd T (mats n)) (m : MorphMesh μ) : Fwd T (load mats m) :=
  Fwd.chunked (fwd_onChunk hm) m

end MorphMesh

namespace Animation

theorem fwd_onChunk (o : SampleOps) (m : Animation) (t : BitVec 16) : Fwd T (onChunk o m t) := by
  unfold onChunk
  split
  · exact Fwd.date.bind fun _ => (Fwd.line _).bind fun _ => (Fwd.line _).bind fun _ => .pure _
  split
  · exact Fwd.u16.bind fun _ => (Fwd.line _).bind fun _ => Fwd.u32.bind fun _ => Fwd.u32.bind fun _ => Fwd.u32.bind fun _ => Fwd.f32.bind fun _ =>
      Fwd.f32.bind fun _ => Fwd.f32.bind fun _ => Fwd.f32.bind fun _ => Fwd.aabb.bind fun _ => (Fwd.line _).bind fun _ => .pure _
  split
  · have : Fwd T loadEvent :=
      Fwd.u32.bind fun _ => Fwd.u32.bind fun _ => (Fwd.line _).bind fun _ => ((Fwd.line _).times _).bind fun _ => (Fwd.f32.times _).bind fun _ =>
        Fwd.f32.bind fun _ => .pure _
    exact Fwd.u32.bind fun _ => (this.times _).bind fun _ => .pure _
  split
  · have : ∀ a b, Fwd T (loadSample o a b) := fun _ _ =>
      Fwd.u16.bind fun _ => Fwd.u16.bind fun _ => Fwd.u16.bind fun _ => Fwd.u16.bind fun _ => Fwd.u16.bind fun _ => Fwd.u16.bind fun _ => .pure _
    exact Fwd.u32.bind fun _ => (Fwd.u32.times _).bind fun _ => ((this _ _).times _).bind fun _ => .pure _
  · exact .pure _

theorem fwd_load (o : SampleOps) (m : Animation) : Fwd T (load o m) := Fwd.chunked (fwd_onChunk o) m

end Animation

/-! ## Hierarchies and fonts -/

theorem Hierarchy.fwd_onChunk (h : Hierarchy) (t : BitVec 16) : Fwd T (Hierarchy.onChunk h t) := by
  unfold Hierarchy.onChunk
  split
  · have : Fwd T HNode.load := (Fwd.line _).bind fun _ => Fwd.u16.bind fun _ => Fwd.mat4.bind fun _ => .pure _
    exact Fwd.u32.bind fun _ => Fwd.u16.bind fun _ => (this.times _).bind fun _ => Fwd.aabb.bind fun _ => Fwd.aabb.bind fun _ =>
      Fwd.vec3.bind fun _ => Fwd.u32.bind fun _ => .pure _
  split
  · exact Fwd.date.bind fun _ => (Fwd.line _).bind fun _ => .pure _
  split <;> exact .pure _

theorem Hierarchy.fwd_load (h : Hierarchy) : Fwd T (Hierarchy.load h) := Fwd.chunked Hierarchy.fwd_onChunk h

theorem Fwd.throw {α} (e : Exc) : Fwd (.all True) (Rd.fail (.throw e) : Rd α) := fun _ _ _ _ => .inr ⟨trivial, e, rfl⟩

theorem Font.fwd_load : Fwd (.all True) Font.load := by
  refine (Fwd.line _).bind fun version => ?_
  split
  · exact Fwd.throw _
  · exact (Fwd.line _).bind fun _ => Fwd.u32.bind fun _ => Fwd.u32.bind fun _ => (Fwd.u8.times _).bind fun _ => (Fwd.vec2.times _).bind fun _ =>
      (Fwd.vec2.times _).bind fun _ => .pure _

end Verif
