import Verif.Spec.ChunkOrder
import Verif.Lemmas.ForeignChunks

/-! # Lemmas about chunks in another order -/

namespace Verif

open Spec

/-- The handler goes through a list of chunks without an end. -/
inductive Steps {σ} (cb : ChunkCb σ) : σ → List Seg → σ → Prop
  | nil (s) : Steps cb s [] s
  | cons {s s' s'' c cs} (h : HandlesSeg cb s c s' false) (hs : Steps cb s' cs s'') : Steps cb s (c :: cs) s''

theorem SegRun.steps {σ} {cb : ChunkCb σ} {s s' : σ} {cs : List Seg} {done : Bool} (h : SegRun cb s cs s' done) :
    ∀ {front e}, cs = front ++ [e] → ∃ m, Steps cb s front m ∧ HandlesSeg cb m e s' done := by
  induction h with
  | @last s s' c done hh =>
    intro front e he
    cases front with
    | nil => cases he; exact ⟨s, .nil s, hh⟩
    | cons x xs => simp at he
  | @step s s' s'' c cs done hh hs ih =>
    intro front e he
    cases front with
    | nil => simp at he; obtain ⟨-, rfl⟩ := he; cases hs
    | cons x xs =>
      simp only [List.cons_append, List.cons.injEq] at he
      obtain ⟨rfl, he⟩ := he
      obtain ⟨m, h1, h2⟩ := ih he
      exact ⟨m, .cons hh h1, h2⟩

theorem Steps.run {σ} {cb : ChunkCb σ} {s m s' : σ} {front : List Seg} {e : Seg} {done : Bool} (h : Steps cb s front m)
    (he : HandlesSeg cb m e s' done) : SegRun cb s (front ++ [e]) s' done := by
  induction h with
  | nil s => exact .last he
  | cons h1 _ ih => exact .step h1 (ih he)

theorem SegRun.all_steps {σ} {cb : ChunkCb σ} {s s' : σ} {cs : List Seg} (h : SegRun cb s cs s' false) : Steps cb s cs s' := by
  generalize hd : false = d at h
  induction h with
  | last hh => exact .cons (hd ▸ hh) (.nil _)
  | step hh _ ih => exact .cons hh (ih hd)

theorem Steps.all_run {σ} {cb : ChunkCb σ} {s s' : σ} {cs : List Seg} (h : Steps cb s cs s') (hn : cs ≠ []) : SegRun cb s cs s' false := by
  induction h with
  | nil s => exact absurd rfl hn
  | @cons s s' s'' c cs h1 h2 ih =>
    cases cs with
    | nil => cases h2; exact .last h1
    | cons d ds => exact .step h1 (ih (by simp))

/-- Chunks of the two types can be exchanged. -/
def Commutes {σ} (cb : ChunkCb σ) (t u : BitVec 16) : Prop :=
  ∀ s s1 s2 c d, c.type = t → d.type = u → HandlesSeg cb s c s1 false → HandlesSeg cb s1 d s2 false →
    ∃ m, HandlesSeg cb s d m false ∧ HandlesSeg cb m c s2 false

/-- A chunk can be moved behind others with which it can be exchanged. -/
theorem Steps.move {σ} {cb : ChunkCb σ} {c : Seg} {b : List Seg} {s2 : σ} : ∀ {a : List Seg} {s s1 : σ},
    (∀ x ∈ a, Commutes cb c.type x.type) → HandlesSeg cb s c s1 false → Steps cb s1 (a ++ b) s2 → Steps cb s (a ++ c :: b) s2 := by
  intro a
  induction a with
  | nil => intro s s1 _ h1 h2; exact .cons h1 h2
  | cons x a ih =>
    intro s s1 hc h1 h2
    cases h2 with
    | cons h3 h4 =>
      obtain ⟨m, h5, h6⟩ := hc x (List.mem_cons_self ..) s s1 _ c x rfl rfl h1 h3
      exact .cons h5 (ih (fun y hy => hc y (List.mem_cons_of_mem _ hy)) h6 h4)

/-- The list up to the first chunk of a type. -/
theorem split_first (t : BitVec 16) : ∀ {cs : List Seg} {c : Seg} {ds : List Seg}, projected t t cs = c :: ds →
    ∃ a b, cs = a ++ c :: b ∧ c.type = t ∧ ∀ x ∈ a, x.type ≠ t := by
  intro cs
  induction cs with
  | nil => intro c ds h; cases h
  | cons x cs ih =>
    intro c ds h
    unfold projected at h ih
    by_cases hx : x.type = t
    · rw [List.filter_cons_of_pos (by simp [hx])] at h
      cases h
      exact ⟨[], cs, rfl, hx, by simp⟩
    · rw [List.filter_cons_of_neg (by simp [hx])] at h
      obtain ⟨a, b, e, ht, ha⟩ := ih h
      refine ⟨x :: a, b, by rw [e]; rfl, ht, ?_⟩
      intro y hy
      rcases List.mem_cons.1 hy with rfl | hy
      · exact hx
      · exact ha y hy

/-- A chunk whose projection begins with another one is not before it. -/
theorem projected_front {t u : BitVec 16} {a b ds : List Seg} {c x : Seg} (h : projected t u (a ++ b) = c :: ds) (hx : x ∈ a)
    (hxt : x.type = t ∨ x.type = u) : c ∈ a := by
  unfold projected at h
  rw [List.filter_append] at h
  cases ha : a.filter (fun c => c.type == t || c.type == u) with
  | nil =>
    have := List.filter_eq_nil_iff.1 ha x hx
    simp only [Bool.or_eq_true, beq_iff_eq] at this
    exact absurd hxt this
  | cons y ys =>
    rw [ha] at h
    simp only [List.cons_append, List.cons.injEq] at h
    have := List.mem_filter.1 (ha ▸ List.mem_cons_self .. : y ∈ a.filter _)
    exact h.1 ▸ this.1

/-- In another order the same happens. -/
theorem Steps.reordered {σ} {cb : ChunkCb σ} {needs : List (BitVec 16 × BitVec 16)}
    (hc : ∀ t u, t ≠ u → (t, u) ∉ needs → (u, t) ∉ needs → Commutes cb t u) :
    ∀ {cs cs' : List Seg} {s s' : σ}, Reordered needs cs cs' → Steps cb s cs s' → Steps cb s cs' s' := by
  intro cs
  induction cs with
  | nil =>
    intro cs' s s' h hs
    have := h.perm.eq_nil
    subst this
    exact hs
  | cons c cs ih =>
    intro cs' s s' h hs
    cases hs with
    | @cons _ s1 _ _ _ h1 h2 =>
    obtain ⟨a, b, rfl, -, ha⟩ := split_first c.type (cs := cs') (c := c) (ds := projected c.type c.type cs) (by
      rw [h.same c.type]
      unfold projected
      rw [List.filter_cons_of_pos (by simp)])
    have free : ∀ x ∈ a, (c.type, x.type) ∉ needs ∧ (x.type, c.type) ∉ needs := by
      have no : c ∉ a := fun hx => ha c hx rfl
      intro x hx
      refine ⟨fun hn => ?_, fun hn => ?_⟩
      · have := h.order _ hn
        have e : projected c.type x.type (c :: cs) = c :: projected c.type x.type cs := by
          unfold projected; rw [List.filter_cons_of_pos (by simp)]
        exact no (projected_front (this.trans e) hx (.inr rfl))
      · have := h.order _ hn
        have e : projected x.type c.type (c :: cs) = c :: projected x.type c.type cs := by
          unfold projected; rw [List.filter_cons_of_pos (by simp)]
        exact no (projected_front (this.trans e) hx (.inl rfl))
    refine Steps.move (s1 := s1) ?_ h1 (ih ?_ h2)
    · intro x hx
      exact hc _ _ (ha x hx).symm (free x hx).1 (free x hx).2
    · -- a projection without the chunk
      have drop : ∀ t u, (∀ x ∈ a, (c.type = t ∨ c.type = u) → ¬(x.type = t ∨ x.type = u)) →
          projected t u (a ++ c :: b) = projected t u (c :: cs) → projected t u (a ++ b) = projected t u cs := by
        intro t u hx he
        unfold projected at he ⊢
        rw [List.filter_append] at he ⊢
        by_cases hcu : c.type = t ∨ c.type = u
        · have hcu' : (c.type == t || c.type == u) = true := by simpa using hcu
          rw [List.filter_cons_of_pos (by simpa using hcu), List.filter_cons_of_pos (by simpa using hcu)] at he
          have e0 : a.filter (fun c => c.type == t || c.type == u) = [] := by
            refine List.filter_eq_nil_iff.2 fun x hxa => ?_
            simpa using hx x hxa hcu
          rw [e0] at he ⊢
          simpa using he
        · rw [List.filter_cons_of_neg (by simpa using hcu), List.filter_cons_of_neg (by simpa using hcu)] at he
          exact he
      refine ⟨?_, fun t => drop t t ?_ (h.same t), fun p hp => drop p.1 p.2 ?_ (h.order p hp)⟩
      · have := (List.perm_middle (a := c) (l₁ := a) (l₂ := b)).symm.trans h.perm
        exact this.cons_inv
      · intro x hx hct hxt
        exact ha x hx (by rcases hct with e | e <;> rcases hxt with e' | e' <;> rw [e, e'])
      · intro x hx hct hxt
        obtain ⟨p1, p2⟩ := p
        dsimp only at hct hxt
        rcases hct with e | e <;> rcases hxt with e' | e'
        · exact ha x hx (e'.trans e.symm)
        · exact (free x hx).1 (by rw [e, e']; exact hp)
        · exact (free x hx).2 (by rw [e, e']; exact hp)
        · exact ha x hx (e'.trans e.symm)

/-! ## Handlers -/

theorem Rd.assoc {α β γ} (p : Rd α) (f : α → Rd β) (g : β → Rd γ) : ((p >>= f) >>= g) = (p >>= fun x => f x >>= g) := by
  funext s
  show (match (match p s with | .ok (x, s) => f x s | .error e => .error e) with | .ok (x, s) => g x s | .error e => .error e) =
    match p s with | .ok (x, s) => (match f x s with | .ok (x, s) => g x s | .error e => .error e) | .error e => .error e
  cases p s <;> rfl

theorem Rd.pure_next {α β} (x : α) (f : α → Rd β) : ((pure x : Rd α) >>= f) = f x := rfl

/-- What the handler does with a chunk of a type: it reads something, knowing some of the members, and sets others. -/
structure Form {σ} (cb : σ → BitVec 16 → Rd (σ × Bool)) (t : BitVec 16) where
  {α κ : Type}
  key : σ → κ
  parse : κ → Rd α
  upd : α → σ → σ
  eq : ∀ s, cb s t = (do let v ← parse (key s); pure (upd v s, false))
  inj : ∀ v v' s s', upd v s = upd v' s → upd v s' = upd v' s'

theorem Form.inv {σ} {cb : σ → BitVec 16 → Rd (σ × Bool)} {t : BitVec 16} (f : Form cb t) {s s1 : σ} {c : Seg} (hc : c.type = t)
    (h : HandlesSeg (simpleCb cb) s c s1 false) (pre post : Bytes) : pre.length + 6 + c.size.toNat = pre.length + 6 + c.payload.length ∧
    ∃ v pos', f.parse (f.key s) ⟨pre ++ c.bytes ++ post, pre.length + 6⟩ = .ok (v, ⟨pre ++ c.bytes ++ post, pos'⟩) ∧ f.upd v s = s1 := by
  obtain ⟨pos', e⟩ := h pre post
  unfold simpleCb at e
  rw [hc, f.eq s] at e
  cases hp : f.parse (f.key s) ⟨pre ++ c.bytes ++ post, pre.length + 6⟩ with
  | error x => rw [Rd.assoc, Rd.bind_err hp] at e; cases e
  | ok r =>
    obtain ⟨v, st⟩ := r
    rw [Rd.assoc, Rd.bind_ok hp] at e
    simp only [Rd.pure_next] at e
    have e := Except.ok.inj e
    simp only [Prod.mk.injEq] at e
    obtain ⟨⟨e1, -, e2⟩, e3⟩ := e
    exact ⟨e2, v, pos', by rw [e3], e1⟩

theorem Form.handles {σ} {cb : σ → BitVec 16 → Rd (σ × Bool)} {t : BitVec 16} (f : Form cb t) {s s1 : σ} {c : Seg} (hc : c.type = t)
    (h : ∀ pre post : Bytes, pre.length + 6 + c.size.toNat = pre.length + 6 + c.payload.length ∧
      ∃ v pos', f.parse (f.key s) ⟨pre ++ c.bytes ++ post, pre.length + 6⟩ = .ok (v, ⟨pre ++ c.bytes ++ post, pos'⟩) ∧ f.upd v s = s1) :
    HandlesSeg (simpleCb cb) s c s1 false := by
  intro pre post
  obtain ⟨hz, v, pos', e, hu⟩ := h pre post
  refine ⟨pos', ?_⟩
  unfold simpleCb
  rw [hc, f.eq s, Rd.assoc, Rd.bind_ok e, hz]
  show Except.ok _ = _
  rw [hu]

/-- Chunks of which neither sets what the other needs, and which set different members. -/
theorem Form.commutes {σ} {cb : σ → BitVec 16 → Rd (σ × Bool)} {t u : BitVec 16} (f : Form cb t) (g : Form cb u)
    (hf : ∀ w s, f.key (g.upd w s) = f.key s) (hg : ∀ v s, g.key (f.upd v s) = g.key s)
    (hfg : ∀ v w s, f.upd v (g.upd w s) = g.upd w (f.upd v s)) : Commutes (simpleCb cb) t u := by
  intro s s1 s2 c d hc hd h1 h2
  obtain ⟨-, v, -, -, hv⟩ := f.inv hc h1 [] []
  obtain ⟨-, w, -, -, hw⟩ := g.inv hd h2 [] []
  subst hv
  refine ⟨g.upd w s, g.handles hd fun pre post => ?_, f.handles hc fun pre post => ?_⟩
  · obtain ⟨hz, w', pos', e, hu⟩ := g.inv hd h2 pre post
    rw [hg] at e
    exact ⟨hz, w', pos', e, g.inj _ _ _ _ (hu.trans hw.symm)⟩
  · obtain ⟨hz, v', pos', e, hu⟩ := f.inv hc h1 pre post
    refine ⟨hz, v', pos', by rw [hf]; exact e, ?_⟩
    rw [f.inj _ _ _ (g.upd w s) hu, hfg, hw]

/-- A chunk that is skipped. -/
def Form.skip {σ} {cb : σ → BitVec 16 → Rd (σ × Bool)} {t : BitVec 16} (h : ∀ s, cb s t = pure (s, false)) : Form cb t where
  key := fun _ => ()
  parse := fun _ => pure ()
  upd := fun _ s => s
  eq := h
  inj := fun _ _ _ _ _ => rfl

/-- A chunk that is skipped can be exchanged with every other. -/
theorem Form.skip_left {σ} {cb : σ → BitVec 16 → Rd (σ × Bool)} {t u : BitVec 16} (h : ∀ s, cb s t = pure (s, false)) (g : Form cb u) :
    Commutes (simpleCb cb) t u := (Form.skip h).commutes g (fun _ _ => rfl) (fun _ _ => rfl) (fun _ _ _ => rfl)

theorem Form.skip_right {σ} {cb : σ → BitVec 16 → Rd (σ × Bool)} {t u : BitVec 16} (g : Form cb t) (h : ∀ s, cb s u = pure (s, false)) :
    Commutes (simpleCb cb) t u := g.commutes (Form.skip h) (fun _ _ => rfl) (fun _ _ => rfl) (fun _ _ _ => rfl)

/-- Handlers of end markers. -/
def Ends {σ} (cb : σ → BitVec 16 → Rd (σ × Bool)) (t : BitVec 16) : Prop := ∀ s x s' b r, cb s t x = .ok ((s', b), r) → b = true

theorem Ends.no {σ} {cb : σ → BitVec 16 → Rd (σ × Bool)} {t : BitVec 16} (h : Ends cb t) {s s1 : σ} {c : Seg} (hc : c.type = t)
    (hh : HandlesSeg (simpleCb cb) s c s1 false) : False := by
  obtain ⟨pos', e⟩ := hh [] []
  unfold simpleCb at e
  rw [hc] at e
  cases hp : cb s t ⟨[] ++ c.bytes ++ [], ([] : Bytes).length + 6⟩ with
  | error x => rw [Rd.bind_err hp] at e; cases e
  | ok r =>
    obtain ⟨⟨s', b⟩, st⟩ := r
    rw [Rd.bind_ok hp] at e
    have e := Except.ok.inj e
    simp only [Prod.mk.injEq] at e
    exact absurd (h _ _ _ _ _ hp) (by rw [e.1.2.1]; decide)

theorem Ends.left {σ} {cb : σ → BitVec 16 → Rd (σ × Bool)} {t u : BitVec 16} (h : Ends cb t) : Commutes (simpleCb cb) t u :=
  fun _ _ _ _ _ hc _ h1 _ => (h.no hc h1).elim

theorem Ends.right {σ} {cb : σ → BitVec 16 → Rd (σ × Bool)} {t u : BitVec 16} (h : Ends cb u) : Commutes (simpleCb cb) t u :=
  fun _ _ _ _ _ _ hd _ h2 => (h.no hd h2).elim

/-- Neither form sets what the other needs, and they set different members. -/
def Form.Apart {σ} {cb : σ → BitVec 16 → Rd (σ × Bool)} {t u : BitVec 16} (f : Form cb t) (g : Form cb u) : Prop :=
  (∀ w s, f.key (g.upd w s) = f.key s) ∧ (∀ v s, g.key (f.upd v s) = g.key s) ∧ ∀ v w s, f.upd v (g.upd w s) = g.upd w (f.upd v s)

/-- Chunks can be exchanged if those with a meaning can that do not need each other. -/
theorem Commutes.table {σ} {cb : σ → BitVec 16 → Rd (σ × Bool)} {needs : List (BitVec 16 × BitVec 16)} (fs : List ((t : BitVec 16) × Form cb t))
    (ends : List (BitVec 16)) (hs : ∀ t, t ∉ fs.map (·.1) → t ∉ ends → ∀ s, cb s t = pure (s, false)) (he : ∀ t ∈ ends, Ends cb t)
    (hf : ∀ f ∈ fs, ∀ g ∈ fs, f.1 ≠ g.1 → (f.1, g.1) ∉ needs → (g.1, f.1) ∉ needs → f.2.Apart g.2) (t u : BitVec 16) (hn : t ≠ u)
    (h1 : (t, u) ∉ needs) (h2 : (u, t) ∉ needs) : Commutes (simpleCb cb) t u := by
  by_cases t1 : t ∈ ends
  · exact (he t t1).left
  by_cases u1 : u ∈ ends
  · exact (he u u1).right
  by_cases u2 : u ∈ fs.map (·.1)
  · obtain ⟨g, hg, rfl⟩ := List.mem_map.1 u2
    by_cases t2 : t ∈ fs.map (·.1)
    · obtain ⟨f, hf', rfl⟩ := List.mem_map.1 t2
      obtain ⟨a, b, c⟩ := hf f hf' g hg hn h1 h2
      exact f.2.commutes g.2 a b c
    · exact Form.skip_left (hs t t2 t1) g.2
  · by_cases t2 : t ∈ fs.map (·.1)
    · obtain ⟨f, hf', rfl⟩ := List.mem_map.1 t2
      exact f.2.skip_right (hs u u2 u1)
    · exact Form.skip_left (hs t t2 t1) (Form.skip (hs u u2 u1))

end Verif
