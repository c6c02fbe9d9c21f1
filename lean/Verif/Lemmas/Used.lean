import Verif.Lemmas.MeshTame
import Verif.Lemmas.Chunked
import Verif.Spec.Used

/-! # Two runs of a loader on one file -/

namespace Verif

open Spec

/-- Both readers end at the same position with related results, or with the same failure. -/
def TwinAt (data : Bytes) {α β} (R : α → β → Prop) (p : Rd α) (q : Rd β) : Prop := ∀ pos, pos ≤ data.length →
  (∃ a b pos', p ⟨data, pos⟩ = .ok (a, ⟨data, pos'⟩) ∧ q ⟨data, pos⟩ = .ok (b, ⟨data, pos'⟩) ∧ pos' ≤ data.length ∧ R a b) ∨
    ∃ e, p ⟨data, pos⟩ = .error e ∧ q ⟨data, pos⟩ = .error e

namespace TwinAt

variable {data : Bytes}

theorem bind {α β γ δ} {R : α → β → Prop} {S : γ → δ → Prop} {p : Rd α} {q : Rd β} {f : α → Rd γ} {g : β → Rd δ} (h : TwinAt data R p q)
    (hf : ∀ a b, R a b → TwinAt data S (f a) (g b)) : TwinAt data S (p >>= f) (q >>= g) := by
  intro pos hp
  rcases h pos hp with ⟨a, b, pos', e1, e2, l, r⟩ | ⟨e, e1, e2⟩
  · rw [Rd.bind_ok e1, Rd.bind_ok e2]
    exact hf a b r pos' l
  · rw [Rd.bind_err e1, Rd.bind_err e2]
    exact .inr ⟨e, rfl, rfl⟩

theorem pure {α β} {R : α → β → Prop} {a : α} {b : β} (h : R a b) : TwinAt data R (Pure.pure a) (Pure.pure b) :=
  fun pos hp => .inl ⟨a, b, pos, rfl, rfl, hp, h⟩

theorem refl {T : Mode} {α} {p : Rd α} (hl : data.length < 2 ^ 32 ∧ T.files data) (h : Safe T p) : TwinAt data (· = ·) p p := by
  intro pos hp
  rcases h data pos hl hp with ⟨a, pos', e, l⟩ | ⟨-, e, he⟩
  · exact .inl ⟨a, a, pos', e, e, l, rfl⟩
  · exact .inr ⟨_, he, he⟩

/-- Both read the same and go on. -/
theorem same {T : Mode} {α γ δ} {S : γ → δ → Prop} {p : Rd α} {f : α → Rd γ} {g : α → Rd δ} (hl : data.length < 2 ^ 32 ∧ T.files data) (h : Safe T p)
    (hf : ∀ a, TwinAt data S (f a) (g a)) : TwinAt data S (p >>= f) (p >>= g) :=
  (refl hl h).bind fun a b e => by subst e; exact hf a

theorem ite {α β} {R : α → β → Prop} {c : Prop} [Decidable c] {p p' : Rd α} {q q' : Rd β} (h : c → TwinAt data R p q) (h' : ¬ c → TwinAt data R p' q') :
    TwinAt data R (if c then p else p') (if c then q else q') := by
  split
  · exact h ‹_›
  · exact h' ‹_›

/-- One round of the loop over the chunks. -/
theorem round {ρ} (c : ρ → BitVec 16 → Rd (ρ × Bool)) (s : ρ) {pre payload post : Bytes} {t : BitVec 16}
    (hd : data = pre ++ (Spec.header t payload ++ payload ++ post)) (hp : payload.length < 2 ^ 32) (fuel : Nat) :
    (∀ e, c s t ⟨data, pre.length + 6⟩ = .error e → readChunkedFuel (simpleCb c) (fuel + 1) s ⟨data, pre.length⟩ = .error e) ∧
    (∀ x done pos', c s t ⟨data, pre.length + 6⟩ = .ok ((x, done), ⟨data, pos'⟩) → readChunkedFuel (simpleCb c) (fuel + 1) s ⟨data, pre.length⟩ =
      if done = true ∨ post = [] then .ok (x, ⟨data, pre.length + 6 + payload.length⟩)
      else readChunkedFuel (simpleCb c) fuel x ⟨data, pre.length + 6 + payload.length⟩) := by
  have hr := Reads.header t (BitVec.ofNat 32 payload.length) pre (payload ++ post)
  have e0 : pre ++ (encW 2 t ++ encW 4 (BitVec.ofNat 32 payload.length)) ++ (payload ++ post) = data := by
    rw [hd]; simp [Spec.header]
  rw [e0] at hr
  have hsz : (BitVec.ofNat 32 payload.length).toNat = payload.length := by simp; omega
  have hlen : data.length = pre.length + 6 + payload.length + post.length := by rw [hd]; simp [Spec.header]; omega
  constructor
  · intro e he
    simp only [readChunkedFuel]
    rw [Rd.bind_ok hr.1, Rd.bind_ok hr.2, Rd.bind_ok (show Rd.tell _ = .ok (pre.length + 6, _) from rfl), hsz]
    refine Rd.bind_err ?_
    unfold simpleCb
    exact Rd.bind_err he
  · intro x done pos' he
    simp only [readChunkedFuel]
    rw [Rd.bind_ok hr.1, Rd.bind_ok hr.2, Rd.bind_ok (show Rd.tell _ = .ok (pre.length + 6, _) from rfl), hsz,
      Rd.bind_ok (show simpleCb c s t _ _ = .ok ((x, done, pre.length + 6 + payload.length), ⟨data, pos'⟩) by
        unfold simpleCb
        rw [Rd.bind_ok he]
        rfl)]
    dsimp only
    rw [Rd.bind_ok (Rd.seek_beg (by omega))]
    cases done with
    | true =>
      rw [if_pos (Or.inl rfl)]
      rfl
    | false =>
      simp only [Bool.false_eq_true, if_false, false_or]
      by_cases hpost : post = []
      · rw [if_pos hpost, Rd.bind_ok (show Rd.eof _ = .ok (true, _) by
          simp only [Rd.eof]
          rw [decide_eq_true]
          rw [hlen, hpost]; simp)]
        rfl
      · have := List.length_pos_iff.mpr hpost
        rw [if_neg hpost, Rd.bind_ok (show Rd.eof _ = .ok (false, _) by
          simp only [Rd.eof]
          rw [decide_eq_false]
          simp only [ge_iff_le, Nat.not_le]; omega)]
        rfl

/-- A run over the chunks of a file. -/
theorem chunked {σ τ} {cb : σ → BitVec 16 → Rd (σ × Bool)} {cb' : τ → BitVec 16 → Rd (τ × Bool)} {stop : Option (BitVec 16)}
    {R : List (BitVec 16) → σ → τ → Prop} {all : List (BitVec 16)}
    (h : ∀ seen t rest m n, all = seen ++ t :: rest → R seen m n →
      TwinAt data (fun x y => x.2 = decide (stop = some t) ∧ y.2 = x.2 ∧ R (seen ++ [t]) x.1 y.1) (cb m t) (cb' n t))
    {d : Bytes} {ts : List (BitVec 16)} (hc : Chunks stop d ts) {pre : Bytes} (hd : data = pre ++ d) {seen : List (BitVec 16)} (ha : all = seen ++ ts)
    {m : σ} {n : τ} (hr : R seen m n) {fuel : Nat} (hf : ts.length ≤ fuel) :
    (∃ a b pos', readChunkedFuel (simpleCb cb) fuel m ⟨data, pre.length⟩ = .ok (a, ⟨data, pos'⟩) ∧
      readChunkedFuel (simpleCb cb') fuel n ⟨data, pre.length⟩ = .ok (b, ⟨data, pos'⟩) ∧ R all a b) ∨
      ∃ e, readChunkedFuel (simpleCb cb) fuel m ⟨data, pre.length⟩ = .error e ∧ readChunkedFuel (simpleCb cb') fuel n ⟨data, pre.length⟩ = .error e := by
  induction hc generalizing pre seen m n fuel with
  | @stop t payload post hs hp =>
    obtain ⟨fuel, rfl⟩ : ∃ f, fuel = f + 1 := ⟨fuel - 1, by simp only [List.length_singleton] at hf; omega⟩
    have r1 := round cb m hd hp fuel
    have r2 := round cb' n hd hp fuel
    rcases h seen t [] m n ha hr (pre.length + 6) (by rw [hd]; simp [Spec.header]; omega) with ⟨⟨a, da⟩, ⟨b, db⟩, pos', e1, e2, l, q1, q2, q3⟩ | ⟨e, e1, e2⟩
    · dsimp only at q1 q2 q3
      subst q2
      rw [r1.2 _ _ _ e1, r2.2 _ _ _ e2, if_pos (.inl (by rw [q1, decide_eq_true hs])), if_pos (.inl (by rw [q1, decide_eq_true hs]))]
      exact .inl ⟨a, b, _, rfl, rfl, by rw [ha]; exact q3⟩
    · exact .inr ⟨e, r1.1 e e1, r2.1 e e2⟩
  | @fin t payload hs hp =>
    obtain ⟨fuel, rfl⟩ : ∃ f, fuel = f + 1 := ⟨fuel - 1, by simp only [List.length_singleton] at hf; omega⟩
    have hd' : data = pre ++ (Spec.header t payload ++ payload ++ []) := by rw [List.append_nil]; exact hd
    have r1 := round cb m hd' hp fuel
    have r2 := round cb' n hd' hp fuel
    rcases h seen t [] m n ha hr (pre.length + 6) (by rw [hd]; simp [Spec.header]; omega) with ⟨⟨a, da⟩, ⟨b, db⟩, pos', e1, e2, l, q1, q2, q3⟩ | ⟨e, e1, e2⟩
    · dsimp only at q1 q2 q3
      rw [r1.2 _ _ _ e1, r2.2 _ _ _ e2, if_pos (.inr rfl), if_pos (.inr rfl)]
      exact .inl ⟨a, b, _, rfl, rfl, by rw [ha]; exact q3⟩
    · exact .inr ⟨e, r1.1 e e1, r2.1 e e2⟩
  | @next t payload rest ts hs hp hc ih =>
    obtain ⟨fuel, rfl⟩ : ∃ f, fuel = f + 1 := ⟨fuel - 1, by simp only [List.length_cons] at hf; omega⟩
    have r1 := round cb m hd hp fuel
    have r2 := round cb' n hd hp fuel
    have hne : rest ≠ [] := fun hx => by
      have : rest.length = 0 := by rw [hx]; rfl
      cases hc <;> simp [Spec.header] at this
    rcases h seen t ts m n ha hr (pre.length + 6) (by rw [hd]; simp [Spec.header]; omega) with ⟨⟨a, da⟩, ⟨b, db⟩, pos', e1, e2, l, q1, q2, q3⟩ | ⟨e, e1, e2⟩
    · dsimp only at q1 q2 q3
      subst q2
      have hno : ¬ (db = true ∨ rest = []) := by
        rintro (hx | hx)
        · rw [q1, decide_eq_true_eq] at hx
          exact hs hx
        · exact hne hx
      rw [r1.2 _ _ _ e1, r2.2 _ _ _ e2, if_neg hno, if_neg hno]
      have := ih (pre := pre ++ (Spec.header t payload ++ payload)) (seen := seen ++ [t]) (m := a) (n := b) (fuel := fuel)
        (by rw [hd]; simp) (by rw [ha]; simp) q3 (by simp only [List.length_cons] at hf; omega)
      have el : (pre ++ (Spec.header t payload ++ payload)).length = pre.length + 6 + payload.length := by simp [Spec.header]; omega
      rw [el] at this
      exact this
    · exact .inr ⟨e, r1.1 e e1, r2.1 e e2⟩

/-- The whole loop at the beginning of a file. -/
theorem loads {σ τ} {cb : σ → BitVec 16 → Rd (σ × Bool)} {cb' : τ → BitVec 16 → Rd (τ × Bool)} {stop : Option (BitVec 16)}
    {R : List (BitVec 16) → σ → τ → Prop} {all : List (BitVec 16)}
    (h : ∀ seen t rest m n, all = seen ++ t :: rest → R seen m n →
      TwinAt data (fun x y => x.2 = decide (stop = some t) ∧ y.2 = x.2 ∧ R (seen ++ [t]) x.1 y.1) (cb m t) (cb' n t))
    (hc : Chunks stop data all) {m : σ} {n : τ} (hr : R [] m n) :
    (∃ a b s, readChunked (simpleCb cb) m ⟨data, 0⟩ = .ok (a, s) ∧ readChunked (simpleCb cb') n ⟨data, 0⟩ = .ok (b, s) ∧ R all a b) ∨
      ∃ e, readChunked (simpleCb cb) m ⟨data, 0⟩ = .error e ∧ readChunked (simpleCb cb') n ⟨data, 0⟩ = .error e := by
  have hlen : ∀ {d ts}, Chunks stop d ts → ts.length ≤ d.length := by
    intro d ts hc
    induction hc with
    | stop hs hp => simp [Spec.header]; omega
    | fin hs hp => simp [Spec.header]; omega
    | next hs hp hc ih => simp [Spec.header]; omega
  have := chunked (pre := []) (seen := []) h hc rfl rfl hr (fuel := data.length - 0 + 1) (by have := hlen hc; omega)
  rcases this with ⟨a, b, p, e1, e2, q⟩ | h'
  · exact .inl ⟨a, b, _, e1, e2, q⟩
  · exact .inr h'

end TwinAt

theorem pick_nil {α} (t : BitVec 16) (a b : α) : pick [] t a b = b := rfl

theorem pick_self {α} (ts : List (BitVec 16)) (t : BitVec 16) (a b : α) : pick (ts ++ [t]) t a b = a := by simp [pick]

theorem pick_other {α} {ts : List (BitVec 16)} {t t' : BitVec 16} (h : t' ≠ t) (a b : α) : pick (ts ++ [t']) t a b = pick ts t a b := by
  simp [pick, h.symm]

theorem ite_other {ts : List (BitVec 16)} {t t' : BitVec 16} (h : t' ≠ t) {P Q : Prop} : (if t ∈ ts ++ [t'] then P else Q) ↔ (if t ∈ ts then P else Q) := by
  simp [h.symm]

theorem pick_mem {α} {ts : List (BitVec 16)} {t : BitVec 16} (h : t ∈ ts) (a b : α) : pick ts t a b = a := if_pos h

theorem hierarchy_twin {data : Bytes} (hl : data.length < 2 ^ 32) (old : Hierarchy) (seen : List (BitVec 16)) (t : BitVec 16) (n : Hierarchy) :
    TwinAt data (fun x y => x.2 = decide (some (0xD120 : BitVec 16) = some t) ∧ y.2 = x.2 ∧ x.1 = hierarchyOver (seen ++ [t]) old y.1)
      (Hierarchy.onChunk (hierarchyOver seen old n) t) (Hierarchy.onChunk n t) := by
  have hl : data.length < 2 ^ 32 ∧ (Mode.all True).files data := ⟨hl, trivial⟩
  unfold Hierarchy.onChunk
  refine .ite (fun ht => ?_) fun h1 => .ite (fun ht => ?_) fun h2 => .ite (fun ht => ?_) fun h3 => ?_
  · subst ht
    have hnode : Fwd (.all True) HNode.load := (Fwd.line _).bind fun _ => Fwd.u16.bind fun _ => Fwd.mat4.bind fun _ => .pure _
    refine .same hl Fwd.u32.safe fun _ => .same hl Fwd.u16.safe fun k => .same hl (Fwd.times hnode _).safe fun a => ?_
    refine .same hl Fwd.aabb.safe fun b => .same hl Fwd.aabb.safe fun c => .same hl Fwd.vec3.safe fun d => .same hl Fwd.u32.safe fun e => .pure ⟨rfl, rfl, ?_⟩
    simp only [hierarchyOver, pick_self, pick_other (t' := 0xD100) (t := 0xD110) (by decide)]
  · subst ht
    refine .same hl Fwd.date.safe fun a => .same hl (Fwd.line _).safe fun b => .pure ⟨rfl, rfl, ?_⟩
    simp only [hierarchyOver, pick_self, pick_other (t' := 0xD110) (t := 0xD100) (by decide)]
  · subst ht
    refine .pure ⟨rfl, rfl, ?_⟩
    simp only [hierarchyOver, pick_other (t' := 0xD120) (t := 0xD110) (by decide), pick_other (t' := 0xD120) (t := 0xD100) (by decide)]
  · refine .pure ⟨?_, rfl, ?_⟩
    · rw [decide_eq_false]
      simpa using fun h => h3 h.symm
    · simp only [hierarchyOver, pick_other h1, pick_other h2]

theorem animation_twin {data : Bytes} (hl : data.length < 2 ^ 32) (o : SampleOps) (old : Animation) (seen : List (BitVec 16)) (t : BitVec 16) (n : Animation)
    (hh : t = 0xA090 → 0xA020 ∈ seen) :
    TwinAt data (fun x y => x.2 = decide (none = some t) ∧ y.2 = x.2 ∧ x.1 = animationOver (seen ++ [t]) old y.1)
      (Animation.onChunk o (animationOver seen old n) t) (Animation.onChunk o n t) := by
  have hl : data.length < 2 ^ 32 ∧ (Mode.all True).files data := ⟨hl, trivial⟩
  unfold Animation.onChunk
  refine .ite (fun ht => ?_) fun h1 => .ite (fun ht => ?_) fun h2 => .ite (fun ht => ?_) fun h3 => .ite (fun ht => ?_) fun h4 => ?_
  · subst ht
    refine .same hl Fwd.date.safe fun _ => .same hl (Fwd.line _).safe fun _ => .same hl (Fwd.line _).safe fun _ => .pure ⟨rfl, rfl, ?_⟩
    simp only [animationOver, pick_self, pick_other (t' := 0xA010) (t := 0xA020) (by decide), pick_other (t' := 0xA010) (t := 0xA030) (by decide),
      pick_other (t' := 0xA010) (t := 0xA090) (by decide)]
  · subst ht
    refine .same hl Fwd.u16.safe fun _ => .same hl (Fwd.line _).safe fun _ => .same hl Fwd.u32.safe fun _ => .same hl Fwd.u32.safe fun _ =>
      .same hl Fwd.u32.safe fun _ => .same hl Fwd.f32.safe fun _ => .same hl Fwd.f32.safe fun _ => .same hl Fwd.f32.safe fun _ =>
      .same hl Fwd.f32.safe fun _ => .same hl Fwd.aabb.safe fun _ => .same hl (Fwd.line _).safe fun _ => .pure ⟨rfl, rfl, ?_⟩
    simp only [animationOver, pick_self, pick_other (t' := 0xA020) (t := 0xA010) (by decide), pick_other (t' := 0xA020) (t := 0xA030) (by decide),
      pick_other (t' := 0xA020) (t := 0xA090) (by decide)]
  · subst ht
    have hevent : Fwd (.all True) Animation.loadEvent :=
      Fwd.u32.bind fun _ => Fwd.u32.bind fun _ => (Fwd.line _).bind fun _ => ((Fwd.line _).times _).bind fun _ => (Fwd.f32.times _).bind fun _ =>
        Fwd.f32.bind fun _ => .pure _
    refine .same hl Fwd.u32.safe fun _ => .same hl (Fwd.times hevent _).safe fun _ => .pure ⟨rfl, rfl, ?_⟩
    simp only [animationOver, pick_self, pick_other (t' := 0xA030) (t := 0xA010) (by decide), pick_other (t' := 0xA030) (t := 0xA020) (by decide),
      pick_other (t' := 0xA030) (t := 0xA090) (by decide)]
  · subst ht
    have hm := hh rfl
    have hsample : Fwd (.all True) (Animation.loadSample o n.positionScale n.positionMin) :=
      Fwd.u16.bind fun _ => Fwd.u16.bind fun _ => Fwd.u16.bind fun _ => Fwd.u16.bind fun _ => Fwd.u16.bind fun _ => Fwd.u16.bind fun _ => .pure _
    have e1 : (animationOver seen old n).nodeCount = n.nodeCount := pick_mem hm _ _
    have e2 : (animationOver seen old n).frameCount = n.frameCount := pick_mem hm _ _
    have e3 : (animationOver seen old n).positionScale = n.positionScale := pick_mem hm _ _
    have e4 : (animationOver seen old n).positionMin = n.positionMin := pick_mem hm _ _
    rw [e1, e2, e3, e4]
    refine .same hl Fwd.u32.safe fun _ => .same hl (Fwd.times Fwd.u32 _).safe fun _ => .same hl (Fwd.times hsample _).safe fun _ => .pure ⟨rfl, rfl, ?_⟩
    simp only [animationOver, pick_self, pick_other (t' := 0xA090) (t := 0xA010) (by decide), pick_other (t' := 0xA090) (t := 0xA020) (by decide),
      pick_other (t' := 0xA090) (t := 0xA030) (by decide), pick_mem hm]
  · refine .pure ⟨rfl, rfl, ?_⟩
    simp only [animationOver, pick_other h1, pick_other h2, pick_other h3, pick_other h4]

/-- What a second load of a mesh gives. -/
theorem mrm_twin {data : Bytes} {T : Mode} (hl : data.length < 2 ^ 32 ∧ T.files data) {μ} {mats : Nat → Rd (List μ)} (hm : ∀ n, Fwd T (mats n)) (a b : Mrm μ) :
    TwinAt data (MeshOver a b) (Mrm.loadFrom mats a) (Mrm.loadFrom mats b) := by
  unfold Mrm.loadFrom
  refine .same hl Fwd.u16.safe fun version => .same hl Fwd.u32.safe fun size => .same hl Fwd.tell.safe fun base => .same hl (Fwd.seekCur _).safe fun _ =>
    .same hl Fwd.u8.safe fun count => .same hl (Mrm.fwd_section _).safe fun vertices => .same hl (Mrm.fwd_section _).safe fun norms =>
    .same hl ((Mrm.fwd_sections _).times _).safe fun sections => .same hl (hm _).safe fun materials => ?_
  have halpha : TwinAt data (fun x y : BitVec 8 => x = y ∨ x = a.alphaTest ∧ y = b.alphaTest) (Mrm.loadAlpha version a.alphaTest) (Mrm.loadAlpha version b.alphaTest) := by
    unfold Mrm.loadAlpha
    exact .ite (fun _ => .same hl Fwd.u8.safe fun _ => .pure (.inl rfl)) fun _ => .pure (.inr ⟨rfl, rfl⟩)
  refine halpha.bind fun x y hxy => .same hl Fwd.aabb.safe fun bbox => .same hl Fwd.obb.safe fun obbox =>
    .same hl (Fwd.seekCur 16).safe fun _ => .same hl Fwd.tell.safe fun fin => .same hl (Mrm.safe_readAt Fwd.vec3 _) fun ps =>
    .same hl (Mrm.safe_readAt Fwd.vec3 _) fun ns => .same hl (Mrm.safe_parts _) fun ss => .same hl (Safe.seek _ _) fun _ => .pure ⟨rfl, hxy⟩

theorem MeshOver.trans {μ} {a b a' b' x y : Mrm μ} (h : MeshOver a b a' b') (h' : MeshOver a' b' x y) : MeshOver a b x y := by
  refine ⟨h'.1, ?_⟩
  rcases h'.2 with e | ⟨e1, e2⟩
  · exact .inl e
  · rcases h.2 with e | ⟨e3, e4⟩
    · exact .inl (by rw [e1, e2, e])
    · exact .inr ⟨e1.trans e3, e2.trans e4⟩

/-- The step for meshes. -/
theorem mesh_twin {data : Bytes} {T : Mode} (hl : data.length < 2 ^ 32 ∧ T.files data) {μ} {mats : Nat → Rd (List μ)} (hm : ∀ n, Fwd T (mats n))
    {a b : Mrm μ} (seen : List (BitVec 16)) (t : BitVec 16) {m n : Mrm μ} (h : if 0xB100 ∈ seen then MeshOver a b m n else m = a ∧ n = b) :
    TwinAt data (fun x y => x.2 = decide (some (0xB1FF : BitVec 16) = some t) ∧ y.2 = x.2 ∧
      if 0xB100 ∈ seen ++ [t] then MeshOver a b x.1 y.1 else x.1 = a ∧ y.1 = b) (Mrm.onChunk mats m t) (Mrm.onChunk mats n t) := by
  unfold Mrm.onChunk
  refine .ite (fun ht => ?_) fun h1 => .ite (fun ht => ?_) fun h2 => ?_
  · subst ht
    refine (mrm_twin hl hm m n).bind fun x y hxy => .pure ⟨rfl, rfl, ?_⟩
    rw [if_pos (by simp)]
    split at h
    · exact MeshOver.trans h hxy
    · obtain ⟨rfl, rfl⟩ := h
      exact hxy
  · subst ht
    exact .pure ⟨rfl, rfl, (ite_other (by decide)).mpr h⟩
  · refine .pure ⟨?_, rfl, ?_⟩
    · rw [decide_eq_false]
      simpa using fun h => h2 h.symm
    · exact (ite_other h1).mpr h

/-- The weights. -/
theorem nodes_twin {data : Bytes} (hl : data.length < 2 ^ 32) {μ} (m n : SoftSkin μ) (h : m.mesh.positions.length = n.mesh.positions.length) :
    TwinAt data (fun x y => x = { y with mesh := m.mesh } ∧ y.mesh = n.mesh) (SoftSkin.loadNodes m) (SoftSkin.loadNodes n) := by
  have hl : data.length < 2 ^ 32 ∧ (Mode.all True).files data := ⟨hl, trivial⟩
  unfold SoftSkin.loadNodes
  rw [h]
  have hskip : ∀ k, Safe (.all True) (SoftSkin.skipTo k) := by
    intro k
    unfold SoftSkin.skipTo
    refine Fwd.tell.safe.bind fun here => ?_
    split
    · exact Safe.seek _ _
    · exact Safe.pure _
  refine .same hl Fwd.u32.safe fun _ => .same hl Fwd.tell.safe fun _ => .same hl (SoftSkin.fwd_weights.times _).safe fun _ => .same hl (hskip _) fun _ =>
    .same hl Fwd.u32.safe fun _ => .same hl ((Fwd.vec3.bind fun _ => Fwd.u32.bind fun _ => .pure _ : Fwd (.all True) SoftSkin.loadNormal).times _).safe fun _ =>
    .same hl Fwd.u16.safe fun _ => .same hl (Fwd.u32.times _).safe fun _ => .same hl (Fwd.obb.times _).safe fun _ => .pure ⟨rfl, rfl⟩

theorem skin_twin {data : Bytes} {T : Mode} (hl : data.length < 2 ^ 32 ∧ T.files data) {μ} {mats : Nat → Rd (List μ)} (hm : ∀ n, Fwd T (mats n))
    {a b : SoftSkin μ} (seen : List (BitVec 16)) (t : BitVec 16) {m n : SoftSkin μ} (h : SkinOver seen a b m n) (hh : t = 0xB1FF → 0xB100 ∈ seen) :
    TwinAt data (fun x y => x.2 = decide (some (0xE110 : BitVec 16) = some t) ∧ y.2 = x.2 ∧ SkinOver (seen ++ [t]) a b x.1 y.1)
      (SoftSkin.onChunk mats m t) (SoftSkin.onChunk mats n t) := by
  have keep : ∀ {t : BitVec 16}, t ≠ 0xB100 → t ≠ 0xB1FF → SkinOver (seen ++ [t]) a b m n := by
    intro t h1 h2
    obtain ⟨q1, q2, q3, q4, q5⟩ := h
    refine ⟨?_, ?_, ?_, ?_, ?_⟩
    · exact (ite_other h1).mpr q1
    all_goals rw [pick_other h2]; assumption
  unfold SoftSkin.onChunk
  refine .ite (fun ht => ?_) fun h1 => .ite (fun ht => ?_) fun h2 => .ite (fun ht => ?_) fun h3 => .ite (fun ht => ?_) fun h4 => ?_
  · subst ht
    exact .same hl Fwd.u32.safe fun _ => .pure ⟨rfl, rfl, keep (by decide) (by decide)⟩
  · subst ht
    refine (mrm_twin hl hm m.mesh n.mesh).bind fun x y hxy => .pure ⟨rfl, rfl, ?_⟩
    obtain ⟨q1, q2, q3, q4, q5⟩ := h
    refine ⟨?_, ?_, ?_, ?_, ?_⟩
    · rw [if_pos (by simp)]
      split at q1
      · exact MeshOver.trans q1 hxy
      · rw [q1.1, q1.2] at hxy
        exact hxy
    all_goals rw [pick_other (by decide)]; assumption
  · subst ht
    have hseen := hh rfl
    have hq := h.mesh
    rw [if_pos hseen] at hq
    refine (nodes_twin hl.1 m n (by rw [hq.1])).bind fun x y hxy => .pure ⟨rfl, rfl, ?_⟩
    refine ⟨?_, ?_, ?_, ?_, ?_⟩
    · rw [if_pos (List.mem_append_left _ hseen), hxy.2, hxy.1]
      exact hq
    all_goals rw [pick_self, hxy.1]
  · subst ht
    exact .pure ⟨rfl, rfl, keep (by decide) (by decide)⟩
  · refine .pure ⟨?_, rfl, keep h2 h3⟩
    rw [decide_eq_false]
    simpa using fun h => h4 h.symm

open Tex in
/-- Levels are put behind those the texture has. -/
theorem loadLevels_over (f : Format) (w h : BitVec 32) (n : Nat) (acc more : List Bytes) (s : Rs) :
    loadLevels f w h n (acc ++ more) s = (loadLevels f w h n more s).map fun r => (acc ++ r.1, r.2) := by
  induction n generalizing more s with
  | zero => rfl
  | succ n ih =>
    simp only [loadLevels, Rd.bind_def]
    cases h1 : Rd.readPadded (mipmapSize f w h n).toNat s with
    | error e => rfl
    | ok r =>
      dsimp only
      rw [List.append_assoc]
      exact ih _ _

/-- `p` gives what `q` gives, changed by `f`. -/
def Alters {α β} (f : α → β) (p : Rd β) (q : Rd α) : Prop := ∀ s, p s = (q s).map fun r => (f r.1, r.2)

namespace Alters

theorem same {α β γ} {f : α → β} {p : Rd γ} {g : γ → Rd β} {h : γ → Rd α} (hg : ∀ a, Alters f (g a) (h a)) : Alters f (p >>= g) (p >>= h) := by
  intro s
  simp only [Rd.bind_def]
  cases p s with
  | error e => rfl
  | ok r => exact hg r.1 r.2

theorem bind {α β γ δ} {f : α → β} {k : γ → δ} {p : Rd δ} {q : Rd γ} {g : δ → Rd β} {h : γ → Rd α} (hp : Alters k p q)
    (hg : ∀ a, Alters f (g (k a)) (h a)) : Alters f (p >>= g) (q >>= h) := by
  intro s
  simp only [Rd.bind_def]
  rw [hp s]
  cases q s with
  | error e => rfl
  | ok r => exact hg r.1 r.2

theorem pure {α β} {f : α → β} {a : α} {b : β} (h : b = f a) : Alters f (Pure.pure b) (Pure.pure a) := fun s => by rw [h]; rfl

theorem fail {α β} {f : α → β} {e : Fail} : Alters f (Rd.fail e) (Rd.fail e) := fun _ => rfl

theorem ite {α β} {f : α → β} {c : Prop} [Decidable c] {p p' : Rd β} {q q' : Rd α} (h : c → Alters f p q) (h' : ¬ c → Alters f p' q') :
    Alters f (if c then p else p') (if c then q else q') := by
  split
  · exact h ‹_›
  · exact h' ‹_›

end Alters

/-- Versions without an alpha test keep that of the object. -/
theorem loadFrom_alpha {μ} {mats : Nat → Rd (List μ)} {m x : Mrm μ} {s s' s1 : Rs} {v : BitVec 16} (hv : Rd.u16 s = .ok (v, s1)) (h1 : v ≠ 0x905) (h2 : v ≠ 0x805)
    (h : Mrm.loadFrom mats m s = .ok (x, s')) : x.alphaTest = m.alphaTest := by
  unfold Mrm.loadFrom at h
  rw [Rd.bind_ok hv] at h
  obtain ⟨_, _, -, h⟩ := Rd.bind_inv h
  obtain ⟨_, _, -, h⟩ := Rd.bind_inv h
  obtain ⟨_, _, -, h⟩ := Rd.bind_inv h
  obtain ⟨_, _, -, h⟩ := Rd.bind_inv h
  obtain ⟨_, _, -, h⟩ := Rd.bind_inv h
  obtain ⟨_, _, -, h⟩ := Rd.bind_inv h
  obtain ⟨_, _, -, h⟩ := Rd.bind_inv h
  obtain ⟨_, _, -, h⟩ := Rd.bind_inv h
  obtain ⟨al, _, ha, h⟩ := Rd.bind_inv h
  obtain ⟨_, _, -, h⟩ := Rd.bind_inv h
  obtain ⟨_, _, -, h⟩ := Rd.bind_inv h
  obtain ⟨_, _, -, h⟩ := Rd.bind_inv h
  obtain ⟨_, _, -, h⟩ := Rd.bind_inv h
  obtain ⟨_, _, -, h⟩ := Rd.bind_inv h
  obtain ⟨_, _, -, h⟩ := Rd.bind_inv h
  obtain ⟨_, _, -, h⟩ := Rd.bind_inv h
  obtain ⟨_, _, -, h⟩ := Rd.bind_inv h
  cases h
  unfold Mrm.loadAlpha at ha
  rw [if_neg (by rintro (h | h); exacts [h1 h, h2 h])] at ha
  cases ha
  rfl

end Verif
