import Verif.Spec.VfsDescriptor

namespace Verif.VfsDescriptor

/-- The value of the counter of a buffer with `k` descriptors. -/
def cnt (k : Nat) : Option Nat := if k = 0 then none else some k

/-- `ms` lists the buffers of the counters. -/
structure Inv (s : State) (a : Owners) (ms : List Nat) : Prop where
  vars : s.descs.map (Option.map Desc.memory) = a.vars
  readers : s.readers = a.readers
  len : s.buffers.length = a.owned.length
  inj : ∀ c c' m : Nat, ms[c]? = some m → ms[c']? = some m → c = c'
  mlen : ms.length = s.counters.length
  free : ∀ d, some d ∈ s.descs → d.refcnt = none → a.owned[d.memory]? = some false
  held : ∀ (d : Desc) (c : Nat), some d ∈ s.descs → d.refcnt = some c → ms[c]? = some d.memory
  own : ∀ m : Nat, a.owned[m]? = some true ↔ m ∈ ms
  counter : ∀ c m : Nat, ms[c]? = some m → s.counters[c]? = some (cnt (a.vars.count (some m)))
  plain : ∀ m : Nat, a.owned[m]? = some false → s.buffers[m]? = some true
  buf : ∀ m : Nat, a.owned[m]? = some true → s.buffers[m]? = some (decide (some m ∈ a.vars))

theorem Inv.empty : Inv {} {} [] where
  vars := rfl
  readers := rfl
  len := rfl
  inj := by simp
  mlen := rfl
  free := by simp
  held := by simp
  own := by simp
  counter := by simp
  plain := by simp
  buf := by simp

theorem get?_append {α : Type} (l : List α) (x : α) (i : Nat) :
    (l ++ [x])[i]? = if i < l.length then l[i]? else if i = l.length then some x else none := by
  split
  · exact List.getElem?_append_left (by assumption)
  · split
    · subst_vars; simp
    · rw [List.getElem?_eq_none]; simp; omega

theorem Inv.get {s : State} {a : Owners} {ms : List Nat} (h : Inv s a ms) {i m : Nat} (hi : a.vars[i]? = some (some m)) :
    ∃ d, s.get i = .ok d ∧ s.descs[i]? = some (some d) ∧ d.memory = m ∧ some d ∈ s.descs := by
  rw [← h.vars, List.getElem?_map] at hi
  cases hd : s.descs[i]? with
  | none => rw [hd] at hi; simp at hi
  | some o =>
    rw [hd] at hi
    cases o with
    | none => simp at hi
    | some d =>
      refine ⟨d, ?_, rfl, by simpa using hi, List.mem_of_getElem? hd⟩
      unfold State.get
      rw [hd]

theorem Inv.mem {s : State} {a : Owners} {ms : List Nat} (h : Inv s a ms) {m : Nat} (hm : some m ∈ a.vars) : m < a.owned.length := by
  rw [← h.vars, List.mem_map] at hm
  obtain ⟨o, ho, e⟩ := hm
  cases o with
  | none => simp at e
  | some d =>
    have e : d.memory = m := by simpa using e
    subst e
    cases hr : d.refcnt with
    | none =>
      have := h.free d ho hr
      exact (List.getElem?_eq_some_iff.1 this).1
    | some c =>
      have h1 := h.held d c ho hr
      have := (h.own d.memory).2 (List.mem_of_getElem? h1)
      exact (List.getElem?_eq_some_iff.1 this).1

theorem Inv.make {s : State} {a : Owners} {ms : List Nat} (h : Inv s a ms) (del : Bool) :
    ∃ ms', Inv (s.make del) ⟨a.owned ++ [del], a.vars ++ [some a.owned.length], a.readers⟩ ms' := by
  have hnew : some a.owned.length ∉ a.vars := fun hc => Nat.lt_irrefl _ (h.mem hc)
  have hms : ∀ m ∈ ms, m < a.owned.length := fun m hm => (List.getElem?_eq_some_iff.1 ((h.own m).2 hm)).1
  have hcount : ∀ m ∈ ms, (a.vars ++ [some a.owned.length]).count (some m) = a.vars.count (some m) := by
    intro m hm
    have := hms m hm
    rw [List.count_append, List.count_cons_of_ne (by simp; omega)]
    simp
  have hmem : ∀ m, m < a.owned.length → (some m ∈ a.vars ++ [some a.owned.length] ↔ some m ∈ a.vars) := by
    intro m hm
    simp
    omega
  refine ⟨if del then ms ++ [a.owned.length] else ms, ?_⟩
  constructor
  · simp [State.make, h.vars, h.len]
  · exact h.readers
  · simp [State.make, h.len]
  · cases del with
    | false => exact h.inj
    | true =>
      intro c c' m h1 h2
      simp only [if_true] at h1 h2
      rw [get?_append] at h1 h2
      by_cases g1 : c < ms.length
      · rw [if_pos g1] at h1
        have := hms m (List.mem_of_getElem? h1)
        by_cases g2 : c' < ms.length
        · rw [if_pos g2] at h2
          exact h.inj c c' m h1 h2
        · rw [if_neg g2] at h2
          by_cases g3 : c' = ms.length
          · rw [if_pos g3] at h2
            have := Option.some.inj h2
            omega
          · rw [if_neg g3] at h2; cases h2
      · rw [if_neg g1] at h1
        by_cases g3 : c = ms.length
        · rw [if_pos g3] at h1
          have hm := Option.some.inj h1
          by_cases g2 : c' < ms.length
          · rw [if_pos g2] at h2
            have := hms m (List.mem_of_getElem? h2)
            omega
          · rw [if_neg g2] at h2
            by_cases g4 : c' = ms.length
            · omega
            · rw [if_neg g4] at h2; cases h2
        · rw [if_neg g3] at h1; cases h1
  · cases del <;> simp [State.make, h.mlen]
  · intro d hd hr
    simp only [State.make, List.mem_append, List.mem_singleton, Option.some.injEq] at hd
    rcases hd with hd | hd
    · have := h.free d hd hr
      rw [List.getElem?_append_left (List.getElem?_eq_some_iff.1 this).1]
      exact this
    · subst hd
      cases del with
      | true => cases hr
      | false => simp [h.len]
  · intro d c hd hr
    simp only [State.make, List.mem_append, List.mem_singleton, Option.some.injEq] at hd
    rcases hd with hd | hd
    · have := h.held d c hd hr
      cases del with
      | false => exact this
      | true =>
        rw [if_pos rfl, List.getElem?_append_left (List.getElem?_eq_some_iff.1 this).1]
        exact this
    · subst hd
      cases del with
      | false => cases hr
      | true =>
        simp only [if_true, Option.some.injEq] at hr
        subst hr
        rw [← h.mlen]
        simp [h.len]
  · intro m
    rw [get?_append]
    by_cases g : m < a.owned.length
    · rw [if_pos g, h.own m]
      cases del with
      | false => simp
      | true => simp; omega
    · rw [if_neg g]
      have hn : m ∉ ms := fun hc => g (hms m hc)
      by_cases g2 : m = a.owned.length
      · rw [if_pos g2]
        cases del with
        | false => simp [hn]
        | true => simp [g2]
      · rw [if_neg g2]
        cases del with
        | false => simp [hn]
        | true => simp [hn, g2]
  · intro c m hc
    cases del with
    | false =>
      simp only [State.make, if_neg Bool.false_ne_true] at hc ⊢
      rw [hcount m (List.mem_of_getElem? hc)]
      exact h.counter c m hc
    | true =>
      simp only [State.make, if_true] at hc ⊢
      rw [get?_append] at hc ⊢
      rw [← h.mlen]
      by_cases g1 : c < ms.length
      · rw [if_pos g1] at hc ⊢
        rw [hcount m (List.mem_of_getElem? hc)]
        exact h.counter c m hc
      · rw [if_neg g1] at hc ⊢
        by_cases g2 : c = ms.length
        · rw [if_pos g2] at hc ⊢
          have hm := Option.some.inj hc
          subst hm
          rw [List.count_append, List.count_eq_zero.2 hnew]
          simp [cnt]
        · rw [if_neg g2] at hc; cases hc
  · intro m hm
    simp only [State.make]
    rw [get?_append] at hm ⊢
    rw [h.len]
    by_cases g : m < a.owned.length
    · rw [if_pos g] at hm ⊢
      exact h.plain m hm
    · rw [if_neg g] at hm ⊢
      by_cases g2 : m = a.owned.length
      · rw [if_pos g2]
      · rw [if_neg g2] at hm; cases hm
  · intro m hm
    simp only [State.make]
    rw [get?_append] at hm ⊢
    rw [h.len]
    by_cases g : m < a.owned.length
    · rw [if_pos g] at hm ⊢
      rw [h.buf m hm]
      simp only [hmem m g]
    · rw [if_neg g] at hm ⊢
      by_cases g2 : m = a.owned.length
      · rw [if_pos g2]
        simp [g2]
      · rw [if_neg g2] at hm; cases hm

theorem Inv.copy {s : State} {a : Owners} {ms : List Nat} (h : Inv s a ms) {d : Desc} (hd : some d ∈ s.descs) :
    ∃ s', s.copyOf d = .ok s' ∧ Inv s' { a with vars := a.vars ++ [some d.memory] } ms := by
  have hv : some d.memory ∈ a.vars := by
    rw [← h.vars, List.mem_map]
    exact ⟨some d, hd, rfl⟩
  have hmem : ∀ m, some m ∈ a.vars ++ [some d.memory] ↔ some m ∈ a.vars := by
    intro m
    rw [List.mem_append, List.mem_singleton]
    constructor
    · rintro (g | g)
      · exact g
      · rw [g]; exact hv
    · exact Or.inl
  unfold State.copyOf
  cases hr : d.refcnt with
  | none =>
    have hn : ∀ m ∈ ms, m ≠ d.memory := by
      intro m hm e
      have := (h.own m).2 hm
      rw [e, h.free d hd hr] at this
      cases this
    refine ⟨_, rfl, ⟨by simp [h.vars], h.readers, h.len, h.inj, h.mlen, ?_, ?_, h.own, ?_, h.plain, ?_⟩⟩
    · intro d' hd' hr'
      simp only [List.mem_append, List.mem_singleton, Option.some.injEq] at hd'
      rcases hd' with g | g
      · exact h.free d' g hr'
      · subst g; exact h.free d' hd hr'
    · intro d' c hd' hr'
      simp only [List.mem_append, List.mem_singleton, Option.some.injEq] at hd'
      rcases hd' with g | g
      · exact h.held d' c g hr'
      · subst g; exact h.held d' c hd hr'
    · intro c m hc
      rw [List.count_append, List.count_cons_of_ne (by simpa using (hn m (List.mem_of_getElem? hc)).symm)]
      simpa using h.counter c m hc
    · intro m hm
      rw [h.buf m hm]
      simp only [hmem]
  | some c =>
    have hms := h.held d c hd hr
    have hc := h.counter c d.memory hms
    have hpos : 0 < a.vars.count (some d.memory) := List.count_pos_iff.2 hv
    have hcn : cnt (a.vars.count (some d.memory)) = some (a.vars.count (some d.memory)) := by
      unfold cnt; rw [if_neg (by omega)]
    rw [hcn] at hc
    simp only [hc]
    have hlt := (List.getElem?_eq_some_iff.1 hc).1
    refine ⟨_, rfl, ⟨by simp [h.vars], h.readers, h.len, h.inj, by simp [h.mlen], ?_, ?_, h.own, ?_, h.plain, ?_⟩⟩
    · intro d' hd' hr'
      simp only [List.mem_append, List.mem_singleton, Option.some.injEq] at hd'
      rcases hd' with g | g
      · exact h.free d' g hr'
      · subst g; exact h.free d' hd hr'
    · intro d' c' hd' hr'
      simp only [List.mem_append, List.mem_singleton, Option.some.injEq] at hd'
      rcases hd' with g | g
      · exact h.held d' c' g hr'
      · subst g; exact h.held d' c' hd hr'
    · intro c' m hc'
      by_cases e : c' = c
      · subst e
        rw [hms] at hc'
        have := Option.some.inj hc'
        subst this
        rw [List.getElem?_set_self hlt, List.count_append]
        simp [cnt]
      · rw [List.getElem?_set_ne (Ne.symm e), h.counter c' m hc', List.count_append, List.count_cons_of_ne]
        · simp
        · intro g
          have g : d.memory = m := by simpa using g
          subst g
          exact e (h.inj _ _ _ hc' hms)
    · intro m hm
      rw [h.buf m hm]
      simp only [hmem]

theorem Inv.destroy {s : State} {a : Owners} {ms : List Nat} (h : Inv s a ms) {i : Nat} {d : Desc} (hi : s.descs[i]? = some (some d)) :
    ∃ s', State.release { s with descs := s.descs.set i none } d = .ok s' ∧ Inv s' { a with vars := a.vars.set i none } ms := by
  have hd : some d ∈ s.descs := List.mem_of_getElem? hi
  have hvi : a.vars[i]? = some (some d.memory) := by rw [← h.vars, List.getElem?_map, hi]; rfl
  obtain ⟨hlt, hge⟩ := List.getElem?_eq_some_iff.1 hvi
  have hv : some d.memory ∈ a.vars := List.mem_of_getElem? hvi
  have hvars : (s.descs.set i none).map (Option.map Desc.memory) = a.vars.set i none := by
    rw [List.map_set, h.vars]; rfl
  have hcount : ∀ m, (a.vars.set i none).count (some m) = a.vars.count (some m) - if d.memory = m then 1 else 0 := by
    intro m
    rw [List.count_set hlt, hge]
    by_cases e : d.memory = m <;> simp [e]
  have hmem : ∀ m, some m ∈ a.vars.set i none ↔ 0 < a.vars.count (some m) - if d.memory = m then 1 else 0 := by
    intro m
    rw [← hcount, List.count_pos_iff]
  have hsub : ∀ d', some d' ∈ s.descs.set i none → some d' ∈ s.descs := by
    intro d' hd'
    rcases List.mem_or_eq_of_mem_set hd' with g | g
    · exact g
    · cases g
  have hbuf : ∀ m, d.memory ≠ m → (some m ∈ a.vars.set i none ↔ some m ∈ a.vars) := by
    intro m e
    rw [hmem, if_neg e, Nat.sub_zero, List.count_pos_iff]
  unfold State.release
  cases hr : d.refcnt with
  | none =>
    have hf := h.free d hd hr
    have hn : ∀ m, a.owned[m]? = some true → d.memory ≠ m := by
      intro m hm e
      subst e
      rw [hf] at hm; cases hm
    refine ⟨_, rfl, ⟨hvars, h.readers, h.len, h.inj, h.mlen, fun d' g => h.free d' (hsub d' g), fun d' c g => h.held d' c (hsub d' g),
      h.own, ?_, h.plain, ?_⟩⟩
    · intro c m hc
      have := hn m ((h.own m).2 (List.mem_of_getElem? hc))
      rw [hcount, if_neg this, Nat.sub_zero]
      exact h.counter c m hc
    · intro m hm
      rw [h.buf m hm]
      simp only [hbuf m (hn m hm)]
  | some c =>
    have hms := h.held d c hd hr
    have hc := h.counter c d.memory hms
    have hpos : 0 < a.vars.count (some d.memory) := List.count_pos_iff.2 hv
    have hcn : cnt (a.vars.count (some d.memory)) = some (a.vars.count (some d.memory)) := by
      unfold cnt; rw [if_neg (by omega)]
    rw [hcn] at hc
    have how := (h.own d.memory).2 (List.mem_of_getElem? hms)
    have hb := h.buf d.memory how
    rw [decide_eq_true hv] at hb
    have hltc := (List.getElem?_eq_some_iff.1 hc).1
    have hltb := (List.getElem?_eq_some_iff.1 hb).1
    have hne : ∀ c' m, ms[c']? = some m → c' ≠ c → d.memory ≠ m := by
      intro c' m hc' e g
      subst g
      exact e (h.inj _ _ _ hc' hms)
    simp only [hc]
    by_cases h1 : a.vars.count (some d.memory) - 1 = 0
    · rw [if_pos h1, if_pos hb]
      refine ⟨_, rfl, ⟨hvars, h.readers, by simp [h.len], h.inj, by simp [h.mlen], fun d' g => h.free d' (hsub d' g),
        fun d' c g => h.held d' c (hsub d' g), h.own, ?_, ?_, ?_⟩⟩
      · intro c' m hc'
        rw [hcount]
        by_cases e : c' = c
        · subst e
          rw [hms] at hc'
          have := Option.some.inj hc'
          subst this
          rw [List.getElem?_set_self hltc, if_pos rfl, h1]
          rfl
        · rw [List.getElem?_set_ne (Ne.symm e), if_neg (hne c' m hc' e), Nat.sub_zero]
          exact h.counter c' m hc'
      · intro m hm
        have : d.memory ≠ m := by
          intro e; subst e
          rw [how] at hm; cases hm
        rw [List.getElem?_set_ne this]
        exact h.plain m hm
      · intro m hm
        by_cases e : d.memory = m
        · subst e
          rw [List.getElem?_set_self hltb, decide_eq_false]
          rw [hmem, if_pos rfl]
          omega
        · rw [List.getElem?_set_ne e, h.buf m hm]
          simp only [hbuf m e]
    · rw [if_neg h1]
      refine ⟨_, rfl, ⟨hvars, h.readers, h.len, h.inj, by simp [h.mlen], fun d' g => h.free d' (hsub d' g),
        fun d' c g => h.held d' c (hsub d' g), h.own, ?_, h.plain, ?_⟩⟩
      · intro c' m hc'
        rw [hcount]
        by_cases e : c' = c
        · subst e
          rw [hms] at hc'
          have := Option.some.inj hc'
          subst this
          rw [List.getElem?_set_self hltc, if_pos rfl]
          unfold cnt
          rw [if_neg h1]
        · rw [List.getElem?_set_ne (Ne.symm e), if_neg (hne c' m hc' e), Nat.sub_zero]
          exact h.counter c' m hc'
      · intro m hm
        rw [h.buf m hm]
        by_cases e : d.memory = m
        · subst e
          rw [decide_eq_true hv, decide_eq_true]
          rw [hmem, if_pos rfl]
          omega
        · simp only [hbuf m e]

/-- `open_read` leaves the descriptors as they are. -/
theorem Inv.open_ {s : State} {a : Owners} {ms : List Nat} (h : Inv s a ms) {i : Nat} {d : Desc} (hi : s.get i = .ok d) (hd : some d ∈ s.descs) :
    s.step (.open_ i) = .ok { s with readers := s.readers ++ [d.memory] } := by
  have hv : some d.memory ∈ a.vars := by
    rw [← h.vars, List.mem_map]
    exact ⟨some d, hd, rfl⟩
  show (do
    let d ← s.get i
    let s ← s.copyOf d
    State.release { s with descs := s.descs.dropLast, readers := s.readers ++ [d.memory] } d : Except Fail State) = _
  rw [hi]
  show (do
    let s ← s.copyOf d
    State.release { s with descs := s.descs.dropLast, readers := s.readers ++ [d.memory] } d : Except Fail State) = _
  unfold State.copyOf
  cases hr : d.refcnt with
  | none =>
    show State.release _ d = _
    unfold State.release
    simp [hr]
  | some c =>
    have hms := h.held d c hd hr
    have hc := h.counter c d.memory hms
    have hpos : 0 < a.vars.count (some d.memory) := List.count_pos_iff.2 hv
    have hcn : cnt (a.vars.count (some d.memory)) = some (a.vars.count (some d.memory)) := by
      unfold cnt; rw [if_neg (by omega)]
    rw [hcn] at hc
    have hltc := (List.getElem?_eq_some_iff.1 hc).1
    simp only [hc]
    show State.release _ d = _
    unfold State.release
    simp only [hr, List.getElem?_set_self hltc]
    rw [if_neg (by omega)]
    congr 1
    have : s.counters.set c (some (a.vars.count (some d.memory))) = s.counters := by
      apply List.ext_getElem?
      intro j
      by_cases e : c = j
      · subst e
        rw [List.getElem?_set_self hltc, hc]
      · rw [List.getElem?_set_ne e]
    simp [this]

theorem Inv.run {a b : Owners} {os : List Op} (H : History a os b) : ∀ {s : State} {ms : List Nat}, Inv s a ms →
    ∃ s' ms', s.run os = .ok s' ∧ Inv s' b ms' := by
  induction H with
  | nil a => intro s ms h; exact ⟨s, ms, rfl, h⟩
  | make del _ ih =>
    intro s ms h
    obtain ⟨ms', h'⟩ := h.make del
    exact ih h'
  | copy hi _ ih =>
    intro s ms h
    obtain ⟨d, g1, g2, g3, g4⟩ := h.get hi
    obtain ⟨s', e, h'⟩ := h.copy g4
    rw [g3] at h'
    obtain ⟨s2, ms2, e2, h2⟩ := ih h'
    refine ⟨s2, ms2, ?_, h2⟩
    show (do State.run (← (do s.copyOf (← s.get _))) _ : Except Fail State) = _
    rw [g1]
    show (do State.run (← s.copyOf d) _ : Except Fail State) = _
    rw [e]
    exact e2
  | destroy hi _ ih =>
    intro s ms h
    obtain ⟨d, g1, g2, g3, g4⟩ := h.get hi
    obtain ⟨s', e, h'⟩ := h.destroy g2
    obtain ⟨s2, ms2, e2, h2⟩ := ih h'
    refine ⟨s2, ms2, ?_, h2⟩
    show (do State.run (← (do State.release { s with descs := s.descs.set _ none } (← s.get _))) _ : Except Fail State) = _
    rw [g1]
    show (do State.run (← State.release { s with descs := s.descs.set _ none } d) _ : Except Fail State) = _
    rw [e]
    exact e2
  | open_ hi _ ih =>
    intro s ms h
    obtain ⟨d, g1, g2, g3, g4⟩ := h.get hi
    have e := h.open_ g1 g4
    rw [g3] at e
    obtain ⟨s2, ms2, e2, h2⟩ := ih (s := { s with readers := s.readers ++ [_] }) (ms := ms)
      ⟨h.vars, by rw [h.readers], h.len, h.inj, h.mlen, h.free, h.held, h.own, h.counter, h.plain, h.buf⟩
    refine ⟨s2, ms2, ?_, h2⟩
    unfold State.run
    rw [e]
    exact e2
  | @read a b os r m hr ha _ ih =>
    intro s ms h
    obtain ⟨s2, ms2, e2, h2⟩ := ih h
    refine ⟨s2, ms2, ?_, h2⟩
    have hb : s.buffers[m]? = some true := by
      rcases ha with ha | ⟨ha, hm⟩
      · exact h.plain _ ha
      · rw [h.buf _ ha, decide_eq_true hm]
    unfold State.run State.step
    rw [h.readers]
    simp only [hr, hb, if_true]
    exact e2

end Verif.VfsDescriptor
