import Verif.Spec.ArchiveGraph

/-! # Reading a known sequence of values and objects -/

namespace Verif.Ar

variable {σ : Type} {r : Reader σ} {ptr : σ → GRd → Except Fail (Option Nat × σ × GRd)} {S : Schema}

/-- The calls of a list one after the other. -/
def readAs (r : Reader σ) (ptr : σ → GRd → Except Fail (Option Nat × σ × GRd)) :
    List Want → σ → GRd → Except Fail (List Got × σ × GRd)
  | [], s, g => .ok ([], s, g)
  | .val k :: ws, s, g => do
    let (v, s) ← r.val k s
    let (o, s, g) ← readAs r ptr ws s g
    return (.val v :: o, s, g)
  | .ptr :: ws, s, g => do
    let (p, s, g) ← ptr s g
    let (o, s, g) ← readAs r ptr ws s g
    return (.ptr p :: o, s, g)

/-- A `load` that makes the calls of a list, whatever it reads. -/
def listed (ws : List Want) : List Seen → Option Want := fun l => ws[l.length]?

theorem follows_listed (fs : List Field) : Follows (listed (fs.map Field.want)) fs := by
  intro k hk
  simp [listed, Nat.min_eq_left hk]

theorem readFields_listed (ws : List Want) : ∀ (pre : List Want) (acc : List Got) (fuel : Nat) (s : σ) (g : GRd), acc.length = pre.length →
    ws.length < fuel → readFields r ptr (listed (pre ++ ws)) fuel acc s g =
      (readAs r ptr ws s g).map fun o => (acc ++ o.1, o.2) := by
  induction ws with
  | nil =>
    intro pre acc fuel s g hl hf
    obtain ⟨fuel, rfl⟩ : ∃ k, fuel = k + 1 := ⟨fuel - 1, by simp at hf; omega⟩
    simp [readFields, listed, hl, readAs, Except.map]
  | cons w ws ih =>
    intro pre acc fuel s g hl hf
    obtain ⟨fuel, rfl⟩ : ∃ k, fuel = k + 1 := ⟨fuel - 1, by simp at hf; omega⟩
    have hw : listed (pre ++ w :: ws) (acc.map Got.seen) = some w := by simp [listed, hl]
    have hpre : pre ++ w :: ws = (pre ++ [w]) ++ ws := by simp
    unfold readFields
    rw [hw]
    cases w with
    | val k =>
      dsimp only
      cases hv : r.val k s with
      | error e => simp only [readAs, hv]; rfl
      | ok o =>
        obtain ⟨v, s1⟩ := o
        simp only [readAs, hv]
        show readFields r ptr _ fuel (acc ++ [.val v]) s1 g = _
        rw [hpre, ih (pre ++ [Want.val k]) (acc ++ [Got.val v]) fuel s1 g (by simp [hl]) (by simp at hf ⊢; omega)]
        cases hr : readAs r ptr ws s1 g with
        | error e => simp [Except.map, bind, Except.bind, hr]
        | ok o => simp [Except.map, bind, Except.bind, pure, Except.pure, hr]
    | ptr =>
      dsimp only
      cases hv : ptr s g with
      | error e => simp only [readAs, hv]; rfl
      | ok o =>
        obtain ⟨p, s1, g1⟩ := o
        simp only [readAs, hv]
        show readFields r ptr _ fuel (acc ++ [.ptr p]) s1 g1 = _
        rw [hpre, ih (pre ++ [Want.ptr]) (acc ++ [Got.ptr p]) fuel s1 g1 (by simp [hl]) (by simp at hf ⊢; omega)]
        cases hr : readAs r ptr ws s1 g1 with
        | error e => simp [Except.map, bind, Except.bind, hr]
        | ok o => simp [Except.map, bind, Except.bind, pure, Except.pure, hr]

theorem readAs_val {k : Kind} {ws : List Want} {s s' : σ} {g g' : GRd} {o : List Got}
    (h : readAs r ptr (.val k :: ws) s g = .ok (o, s', g')) :
    ∃ v s1 o', r.val k s = .ok (v, s1) ∧ readAs r ptr ws s1 g = .ok (o', s', g') ∧ o = .val v :: o' := by
  unfold readAs at h
  cases hv : r.val k s with
  | error e => rw [hv] at h; cases h
  | ok x =>
    obtain ⟨v, s1⟩ := x
    rw [hv] at h
    change (readAs r ptr ws s1 g >>= _) = _ at h
    cases hr : readAs r ptr ws s1 g with
    | error e => rw [hr] at h; cases h
    | ok x =>
      obtain ⟨o', s2, g2⟩ := x
      rw [hr] at h
      cases h
      exact ⟨v, s1, o', rfl, hr, rfl⟩

theorem readAs_ptr {ws : List Want} {s s' : σ} {g g' : GRd} {o : List Got}
    (h : readAs r ptr (.ptr :: ws) s g = .ok (o, s', g')) :
    ∃ p s1 g1 o', ptr s g = .ok (p, s1, g1) ∧ readAs r ptr ws s1 g1 = .ok (o', s', g') ∧ o = .ptr p :: o' := by
  unfold readAs at h
  cases hv : ptr s g with
  | error e => rw [hv] at h; cases h
  | ok x =>
    obtain ⟨p, s1, g1⟩ := x
    rw [hv] at h
    change (readAs r ptr ws s1 g1 >>= _) = _ at h
    cases hr : readAs r ptr ws s1 g1 with
    | error e => rw [hr] at h; cases h
    | ok x =>
      obtain ⟨o', s2, g2⟩ := x
      rw [hr] at h
      cases h
      exact ⟨p, s1, g1, o', rfl, hr, rfl⟩

theorem readAs_append {ws vs : List Want} {s s' : σ} {g g' : GRd} {o : List Got}
    (h : readAs r ptr (ws ++ vs) s g = .ok (o, s', g')) :
    ∃ o1 s1 g1 o2, readAs r ptr ws s g = .ok (o1, s1, g1) ∧ readAs r ptr vs s1 g1 = .ok (o2, s', g') ∧ o = o1 ++ o2 ∧
      o1.length = ws.length := by
  induction ws generalizing s g o with
  | nil => exact ⟨[], s, g, o, rfl, h, rfl, rfl⟩
  | cons w ws ih =>
    cases w with
    | val k =>
      obtain ⟨v, s1, o', h1, h2, rfl⟩ := readAs_val h
      obtain ⟨o1, s2, g2, o2, h3, h4, rfl, hl⟩ := ih h2
      exact ⟨.val v :: o1, s2, g2, o2, by simp only [readAs, h1, bind, Except.bind, h3]; rfl, h4, rfl, by simp [hl]⟩
    | ptr =>
      obtain ⟨v, s1, g1, o', h1, h2, rfl⟩ := readAs_ptr h
      obtain ⟨o1, s2, g2, o2, h3, h4, rfl, hl⟩ := ih h2
      exact ⟨.ptr v :: o1, s2, g2, o2, by simp only [readAs, h1, bind, Except.bind, h3]; rfl, h4, rfl, by simp [hl]⟩

/-! ## What reading does to the objects read before -/

/-- How often an object is in the cache. -/
def cached (g : GRd) (n : Nat) : Nat := g.cache.countP fun p => p.2 == n

/-- No object is in the cache twice, and the cache has no objects that do not exist. -/
structure GRd.Inv (g : GRd) : Prop where
  once : ∀ n, cached g n ≤ 1
  exist : ∀ n, g.heap.length ≤ n → cached g n = 0

theorem GRd.Inv.new : GRd.Inv ⟨[], []⟩ := ⟨by simp [cached], by simp [cached]⟩

structure Grow (g g' : GRd) : Prop where
  pre : g.heap <+: g'.heap
  cnt : ∀ n < g.heap.length, cached g' n ≤ cached g n
  inv : g'.Inv

theorem Grow.refl {g : GRd} (h : g.Inv) : Grow g g := ⟨List.prefix_refl _, fun _ _ => Nat.le_refl _, h⟩

theorem Grow.trans {a b c : GRd} (h1 : Grow a b) (h2 : Grow b c) : Grow a c :=
  ⟨h1.pre.trans h2.pre, fun n hn => Nat.le_trans (h2.cnt n (Nat.lt_of_lt_of_le hn h1.pre.length_le)) (h1.cnt n hn), h2.inv⟩

theorem lookup_countP {l : List (BitVec 32 × Nat)} {k : BitVec 32} {n : Nat} (h : l.lookup k = some n) :
    0 < l.countP fun p => p.2 == n := by
  induction l with
  | nil => cases h
  | cons p l ih =>
    obtain ⟨a, b⟩ := p
    rw [List.lookup_cons] at h
    rw [List.countP_cons]
    split at h
    · cases h; simp
    · have := ih h; omega

theorem Grow.new {g : GRd} (h : g.Inv) (i : BitVec 32) (t : ObjectType) (fs : List Got) :
    Grow g ⟨g.heap ++ [(t, fs)], insertOrAssign g.cache i g.heap.length⟩ := by
  have hc : ∀ n, cached ⟨g.heap ++ [(t, fs)], insertOrAssign g.cache i g.heap.length⟩ n ≤
      cached g n + if g.heap.length = n then 1 else 0 := by
    intro n
    simp only [cached, insertOrAssign, List.countP_append, List.countP_cons, List.countP_nil, Nat.zero_add, beq_iff_eq]
    exact Nat.add_le_add_right List.filter_sublist.countP_le _
  refine ⟨List.prefix_append _ _, ?_, ?_, ?_⟩
  · intro n hn
    have := hc n
    rw [if_neg (by omega)] at this
    exact this
  · intro n
    have := hc n
    by_cases hn : g.heap.length = n
    · rw [if_pos hn, h.exist n (by omega)] at this; exact this
    · rw [if_neg hn] at this; exact Nat.le_trans this (h.once n)
  · intro n hn
    simp only [List.length_append, List.length_cons, List.length_nil] at hn
    have := hc n
    rw [if_neg (by omega), h.exist n (by omega)] at this
    omega

/-- What is to be shown about a call of `read_object`. -/
def GrowPtr (ptr : σ → GRd → Except Fail (Option Nat × σ × GRd)) : Prop :=
  ∀ s g p s' g', g.Inv → ptr s g = .ok (p, s', g') → Grow g g' ∧ ∀ n, p = some n → n < g'.heap.length

theorem readFields_grow (hp : GrowPtr ptr) (Sx : List Seen → Option Want) (fuel : Nat) :
    ∀ acc s g o s' g', g.Inv → readFields r ptr Sx fuel acc s g = .ok (o, s', g') → Grow g g' := by
  induction fuel with
  | zero => intro acc s g o s' g' _ h; cases h
  | succ fuel ih =>
    intro acc s g o s' g' hg h
    unfold readFields at h
    split at h
    · cases h; exact .refl hg
    · rename_i k _
      cases hv : r.val k s with
      | error e => rw [hv] at h; cases h
      | ok x =>
        obtain ⟨v, s1⟩ := x
        rw [hv] at h
        exact ih _ _ _ _ _ _ hg h
    · cases hv : ptr s g with
      | error e => rw [hv] at h; cases h
      | ok x =>
        obtain ⟨p, s1, g1⟩ := x
        rw [hv] at h
        have h1 := (hp _ _ _ _ _ hg hv).1
        exact h1.trans (ih _ _ _ _ _ _ h1.inv h)

theorem readPtr_grow (r : Reader σ) (S : Schema) (fuel : Nat) : GrowPtr (readPtr r S fuel) := by
  induction fuel with
  | zero => intro s g p s' g' _ h; cases h
  | succ fuel ih =>
    intro s g p s' g' hg h
    unfold readPtr at h
    cases hb : r.objBegin s with
    | error e => rw [hb] at h; cases h
    | ok x =>
      obtain ⟨o, s1⟩ := x
      rw [hb] at h
      simp only [bind, Except.bind] at h
      cases o with
      | none => cases h; exact ⟨.refl hg, by simp⟩
      | some hd =>
        dsimp only at h
        by_cases h1 : hd.cls = refClass
        · rw [if_pos h1] at h
          cases he : endOrSkip r s1 with
          | error e => rw [he] at h; cases h
          | ok x =>
            rw [he] at h
            cases h
            refine ⟨.refl hg, ?_⟩
            intro n hn
            have h3 := lookup_countP hn
            rcases Nat.lt_or_ge n g.heap.length with h4 | h4
            · exact h4
            · have := hg.exist n h4
              unfold cached at this
              omega
        · rw [if_neg h1] at h
          by_cases h2 : hd.cls = nullClass
          · rw [if_pos h2] at h
            cases he : r.skipObj true s1 with
            | error e => rw [he] at h; cases h
            | ok x => rw [he] at h; cases h; exact ⟨.refl hg, by simp⟩
          · rw [if_neg h2] at h
            cases hc : classFor hd.cls with
            | none =>
              rw [hc] at h
              dsimp only at h
              cases he : endOrSkip r s1 with
              | error e => rw [he] at h; cases h
              | ok x => rw [he] at h; cases h; exact ⟨.refl hg, by simp⟩
            | some c =>
              rw [hc] at h
              dsimp only at h
              have hg1 := Grow.new hg hd.index c.type []
              have hlen : g.heap.length < (⟨g.heap ++ [(c.type, [])], insertOrAssign g.cache hd.index g.heap.length⟩ : GRd).heap.length := by
                simp
              generalize (⟨g.heap ++ [(c.type, [])], insertOrAssign g.cache hd.index g.heap.length⟩ : GRd) = g1 at h hg1 hlen
              cases hf : readFields r (readPtr r S fuel) (S c.type) fuel [] s1 g1 with
              | error e => rw [hf] at h; cases h
              | ok x =>
                obtain ⟨fs, s2, g2⟩ := x
                rw [hf] at h
                dsimp only at h
                have hg12 := readFields_grow ih _ _ _ _ _ _ _ _ hg1.inv hf
                have hg2 := hg1.trans hg12
                have hlen2 := Nat.lt_of_lt_of_le hlen hg12.pre.length_le
                cases he : endOrSkip r s2 with
                | error e => rw [he] at h; cases h
                | ok x =>
                  rw [he] at h
                  cases h
                  refine ⟨⟨?_, hg2.cnt, hg2.inv.once, ?_⟩, ?_⟩
                  · obtain ⟨t, ht⟩ := hg2.pre
                    show g.heap <+: g2.heap.set g.heap.length _
                    rw [← ht, List.set_append_right _ _ (Nat.le_refl _)]
                    exact List.prefix_append _ _
                  · intro n hn
                    simp only [List.length_set] at hn
                    exact hg2.inv.exist n hn
                  · intro n hn
                    cases hn
                    simpa using hlen2

theorem readAs_grow (hp : GrowPtr ptr) (ws : List Want) :
    ∀ s g o s' g', g.Inv → readAs r ptr ws s g = .ok (o, s', g') → Grow g g' := by
  induction ws with
  | nil => intro s g o s' g' hg h; cases h; exact .refl hg
  | cons w ws ih =>
    intro s g o s' g' hg h
    cases w with
    | val k =>
      obtain ⟨v, s1, o', h1, h2, _⟩ := readAs_val h
      exact ih _ _ _ _ _ hg h2
    | ptr =>
      obtain ⟨p, s1, g1, o', h1, h2, _⟩ := readAs_ptr h
      have h3 := (hp _ _ _ _ _ hg h1).1
      exact h3.trans (ih _ _ _ _ _ h3.inv h2)

end Verif.Ar
