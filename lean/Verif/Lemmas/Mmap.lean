import Verif.Spec.Mmap

/-!
# Lemmas about mapped files
-/

namespace Verif.Mmap

open Verif.Spec

/-- An object and what it holds. -/
inductive Holds (files : List Bytes) : Obj → Option Nat → Prop
  | null : Holds files ⟨.null, 0⟩ none
  | failed : Holds files ⟨.failed, 0⟩ none
  | some {f : Nat} {b : Bytes} : files[f]? = some b → Holds files ⟨.at f, b.length⟩ (some f)

theorem Holds.mono {files : List Bytes} {o : Obj} {h : Option Nat} (x : Bytes) (hh : Holds files o h) : Holds (files ++ [x]) o h := by
  cases hh with
  | null => exact .null
  | failed => exact .failed
  | some hf =>
    refine .some ?_
    rw [List.getElem?_append_left (List.getElem?_eq_some_iff.1 hf).1]
    exact hf

/-- Two lists, element by element. -/
def Pairs {α β : Type} (R : α → β → Prop) (as : List α) (bs : List β) : Prop :=
  as.length = bs.length ∧ ∀ (i : Nat) (x : α) (y : β), as[i]? = some x → bs[i]? = some y → R x y

theorem Pairs.left {α β : Type} {R : α → β → Prop} {as : List α} {bs : List β} (h : Pairs R as bs) {i : Nat} {y : β} (hy : bs[i]? = some y) :
    ∃ x, as[i]? = some x ∧ R x y := by
  have hi : i < as.length := by rw [h.1]; exact (List.getElem?_eq_some_iff.1 hy).1
  exact ⟨as[i], List.getElem?_eq_getElem hi, h.2 i _ y (List.getElem?_eq_getElem hi) hy⟩

theorem Pairs.mono {α β : Type} {R S : α → β → Prop} {as : List α} {bs : List β} (h : Pairs R as bs) (hm : ∀ x y, R x y → S x y) :
    Pairs S as bs := ⟨h.1, fun i x y hx hy => hm x y (h.2 i x y hx hy)⟩

theorem Pairs.snoc {α β : Type} {R : α → β → Prop} {as : List α} {bs : List β} {a : α} {b : β} (h : Pairs R as bs) (hab : R a b) :
    Pairs R (as ++ [a]) (bs ++ [b]) := by
  refine ⟨by simp [h.1], ?_⟩
  intro i x y hx hy
  by_cases hi : i < as.length
  · rw [List.getElem?_append_left hi] at hx
    rw [List.getElem?_append_left (h.1 ▸ hi)] at hy
    exact h.2 i x y hx hy
  · rw [List.getElem?_append_right (by omega)] at hx
    rw [List.getElem?_append_right (by have := h.1; omega), ← h.1] at hy
    rcases hk : i - as.length with _ | k
    · rw [hk] at hx hy
      simp only [List.getElem?_cons_zero, Option.some.injEq] at hx hy
      subst hx hy
      exact hab
    · rw [hk] at hx
      simp at hx

theorem Pairs.set {α β : Type} {R : α → β → Prop} {as : List α} {bs : List β} {a : α} {b : β} (h : Pairs R as bs) (i : Nat) (hab : R a b) :
    Pairs R (as.set i a) (bs.set i b) := by
  refine ⟨by simp [h.1], ?_⟩
  intro j x y hx hy
  rw [List.getElem?_set] at hx hy
  by_cases hij : i = j
  · subst hij
    by_cases hl : i < as.length
    · rw [if_pos rfl, if_pos hl] at hx
      rw [if_pos rfl, if_pos (h.1 ▸ hl)] at hy
      cases hx
      cases hy
      exact hab
    · rw [if_pos rfl, if_neg hl] at hx
      cases hx
  · rw [if_neg hij] at hx hy
    exact h.2 j x y hx hy

/-- A variable and what it holds. -/
inductive HoldsVar (files : List Bytes) : Option Obj → Option (Option Nat) → Prop
  | gone : HoldsVar files none none
  | live {o : Obj} {h : Option Nat} : Holds files o h → HoldsVar files (some o) (some h)

/-- The state of the machine and who holds what. -/
structure Match (w : World) (a : Holders) : Prop where
  closed : w.fds = 0
  length : w.maps.length = a.files.length
  filled : ∀ (f : Nat) (b : Bytes), a.files[f]? = some b → b ≠ []
  held : ∀ (f : Nat) (b : Bytes), a.files[f]? = some b → a.Held f → w.maps[f]? = some (some b)
  free : ∀ (f : Nat) (b : Bytes), a.files[f]? = some b → ¬ a.Held f → w.maps[f]? = some none
  bound : ∀ f, a.Held f → f < a.files.length
  once : ∀ (i j f : Nat), a.vars[i]? = some (some (some f)) → a.vars[j]? = some (some (some f)) → i = j
  vars : Pairs (HoldsVar a.files) w.vars a.vars
  ptrs : Pairs (Holds a.files) w.ptrs a.ptrs

theorem match_empty : Match {} {} := by
  refine ⟨rfl, rfl, by simp, by simp, by simp, ?_, by simp, ⟨rfl, by simp⟩, ⟨rfl, by simp⟩⟩
  intro f h
  simp [Holders.Held] at h

theorem Match.get {w : World} {a : Holders} (m : Match w a) {i : Nat} {h : Option Nat} (hi : a.vars[i]? = some (some h)) :
    ∃ o, w.vars[i]? = some (some o) ∧ w.get i = .ok o ∧ Holds a.files o h := by
  obtain ⟨x, hx, hr⟩ := m.vars.left hi
  cases hr with
  | live hh => exact ⟨_, hx, by simp [World.get, hx], hh⟩

theorem held_iff {a : Holders} {f : Nat} : a.Held f ↔ ∃ i : Nat, a.vars[i]? = some (some (some f)) := by
  simp [Holders.Held, List.mem_iff_getElem?]

theorem get_snoc {α : Type} {l : List α} {x y : α} {i : Nat} :
    (l ++ [x])[i]? = some y ↔ l[i]? = some y ∨ i = l.length ∧ x = y := by
  by_cases hi : i < l.length
  · rw [List.getElem?_append_left hi]
    constructor
    · exact .inl
    · rintro (h | ⟨h, -⟩)
      · exact h
      · omega
  · rw [List.getElem?_append_right (by omega), List.getElem?_eq_none (by omega : l.length ≤ i)]
    rcases hk : i - l.length with _ | k
    · have : i = l.length := by omega
      simp [this]
    · have : i ≠ l.length := by omega
      simp [this]

theorem get_set {α : Type} {l : List α} {x y : α} {i j : Nat} (hi : i < l.length) :
    (l.set i x)[j]? = some y ↔ (i ≠ j ∧ l[j]? = some y) ∨ (i = j ∧ x = y) := by
  rw [List.getElem?_set]
  by_cases h : i = j
  · subst h; simp [hi]
  · simp [h]

theorem step_match {w : World} {a a' : Holders} {o : Op} {b : Bytes} (m : Match w a) (h : a.Step o b a') :
    ∃ w', w.step o = (w', .ok b) ∧ Match w' a' := by
  cases h with
  | empty =>
    refine ⟨{ w with vars := w.vars ++ [some ⟨.failed, 0⟩] }, rfl, ⟨m.closed, m.length, m.filled, ?_, ?_, ?_, ?_, m.vars.snoc (.live .failed), m.ptrs⟩⟩
    · intro f b hf hh
      exact m.held f b hf (by simpa [Holders.Held] using hh)
    · intro f b hf hh
      exact m.free f b hf (by simpa [Holders.Held] using hh)
    · intro f hh
      exact m.bound f (by simpa [Holders.Held] using hh)
    · intro i j f hi hj
      rcases get_snoc.1 hi with hi | ⟨-, hi⟩
      · rcases get_snoc.1 hj with hj | ⟨-, hj⟩
        · exact m.once i j f hi hj
        · cases hj
      · cases hi
  | new b hb =>
    have hlen : b.length ≠ 0 := by simpa using hb
    have hs : w.step (.new (regular b)) =
        ({ w with maps := w.maps ++ [some b], vars := w.vars ++ [some ⟨.at w.maps.length, b.length⟩] }, .ok []) := by
      simp [World.step, World.new, regular, hlen]
    have hnot : ¬ a.Held a.files.length := fun hh => Nat.lt_irrefl _ (m.bound _ hh)
    have hheld : ∀ f, Holders.Held { a with files := a.files ++ [b], vars := a.vars ++ [some (some a.files.length)] } f ↔
        a.Held f ∨ f = a.files.length := by
      intro f
      simp [Holders.Held]
    refine ⟨_, hs, ⟨m.closed, by simp [m.length], ?_, ?_, ?_, ?_, ?_, ?_, m.ptrs.mono fun x y => .mono b⟩⟩
    · intro f c hf
      rcases get_snoc.1 hf with hf | ⟨-, rfl⟩
      · exact m.filled f c hf
      · exact hb
    · intro f c hf hh
      rcases get_snoc.1 hf with hf | ⟨rfl, rfl⟩
      · have hlt := (List.getElem?_eq_some_iff.1 hf).1
        refine get_snoc.2 (.inl (m.held f c hf ?_))
        rcases (hheld f).1 hh with hh | hh
        · exact hh
        · omega
      · exact get_snoc.2 (.inr ⟨m.length.symm, rfl⟩)
    · intro f c hf hh
      rcases get_snoc.1 hf with hf | ⟨rfl, rfl⟩
      · exact get_snoc.2 (.inl (m.free f c hf fun hx => hh ((hheld f).2 (.inl hx))))
      · exact absurd ((hheld _).2 (.inr rfl)) hh
    · intro f hh
      rcases (hheld f).1 hh with hh | rfl
      · have := m.bound f hh
        simp only [List.length_append, List.length_singleton]
        omega
      · simp
    · intro i j f hi hj
      have hno : ∀ (k : Nat), a.vars[k]? ≠ some (some (some a.files.length)) := fun k hk => hnot (held_iff.2 ⟨k, hk⟩)
      rcases get_snoc.1 hi with hi | ⟨rfl, hi'⟩
      · rcases get_snoc.1 hj with hj | ⟨rfl, hj'⟩
        · exact m.once i j f hi hj
        · cases hj'
          exact absurd hi (hno i)
      · rcases get_snoc.1 hj with hj | ⟨rfl, hj'⟩
        · cases hi'
          exact absurd hj (hno j)
        · rfl
    · refine Pairs.snoc (m.vars.mono ?_) (.live ?_)
      · intro x y hxy
        cases hxy with
        | gone => exact .gone
        | live h => exact .live (h.mono b)
      · rw [m.length]
        exact .some (get_snoc.2 (.inr ⟨rfl, rfl⟩))
  | move i h hi =>
    obtain ⟨o, ho, hg, hh⟩ := m.get hi
    have hil : i < a.vars.length := (List.getElem?_eq_some_iff.1 hi).1
    have hheld : ∀ f, Holders.Held { a with vars := a.vars.set i (some none) ++ [some h] } f ↔ a.Held f := by
      intro f
      rw [held_iff, held_iff]
      constructor
      · rintro ⟨j, hj⟩
        rcases get_snoc.1 hj with hj | ⟨-, hj⟩
        · rcases (get_set hil).1 hj with ⟨-, hj⟩ | ⟨-, hj⟩
          · exact ⟨j, hj⟩
          · cases hj
        · cases hj
          exact ⟨i, hi⟩
      · rintro ⟨j, hj⟩
        by_cases hij : i = j
        · subst hij
          rw [hi] at hj
          cases hj
          exact ⟨_, get_snoc.2 (.inr ⟨rfl, rfl⟩)⟩
        · exact ⟨j, get_snoc.2 (.inl ((get_set hil).2 (.inl ⟨hij, hj⟩)))⟩
    refine ⟨{ w with vars := w.vars.set i (some ⟨.null, 0⟩) ++ [some o] }, by simp [World.step, hg], ⟨m.closed, m.length, m.filled, ?_, ?_, ?_, ?_,
      (m.vars.set i (.live .null)).snoc (.live hh), m.ptrs⟩⟩
    · intro f b hf hx
      exact m.held f b hf ((hheld f).1 hx)
    · intro f b hf hx
      exact m.free f b hf fun hy => hx ((hheld f).2 hy)
    · intro f hx
      exact m.bound f ((hheld f).1 hx)
    · have hno : ∀ (j f : Nat), (a.vars.set i (some none))[j]? = some (some (some f)) → some f ≠ h := by
        intro j f hj hf
        subst hf
        rcases (get_set hil).1 hj with ⟨hij, hj⟩ | ⟨-, hj⟩
        · exact hij (m.once i j f hi hj)
        · cases hj
      intro j k f hj hk
      rcases get_snoc.1 hj with hj1 | ⟨rfl, hj'⟩
      · rcases get_snoc.1 hk with hk1 | ⟨rfl, hk'⟩
        · rcases (get_set hil).1 hj1 with ⟨-, hj⟩ | ⟨-, hj⟩
          · rcases (get_set hil).1 hk1 with ⟨-, hk⟩ | ⟨-, hk⟩
            · exact m.once j k f hj hk
            · cases hk
          · cases hj
        · cases hk'
          exact absurd rfl (hno j f hj1)
      · rcases get_snoc.1 hk with hk1 | ⟨rfl, hk'⟩
        · cases hj'
          exact absurd rfl (hno k f hk1)
        · rfl
  | destroy i h hi =>
    obtain ⟨o, ho, hg, hh⟩ := m.get hi
    have hil : i < a.vars.length := (List.getElem?_eq_some_iff.1 hi).1
    have hheld : ∀ f, Holders.Held { a with vars := a.vars.set i none } f ↔ a.Held f ∧ some f ≠ h := by
      intro f
      rw [held_iff, held_iff]
      constructor
      · rintro ⟨j, hj⟩
        rcases (get_set hil).1 hj with ⟨hij, hj⟩ | ⟨-, hj⟩
        · refine ⟨⟨j, hj⟩, ?_⟩
          rintro rfl
          exact hij (m.once i j f hi hj)
        · cases hj
      · rintro ⟨⟨j, hj⟩, hf⟩
        refine ⟨j, (get_set hil).2 (.inl ⟨?_, hj⟩)⟩
        rintro rfl
        rw [hi] at hj
        cases hj
        exact hf rfl
    have honce : ∀ (j k f : Nat), (a.vars.set i none)[j]? = some (some (some f)) → (a.vars.set i none)[k]? = some (some (some f)) → j = k := by
      intro j k f hj hk
      rcases (get_set hil).1 hj with ⟨-, hj⟩ | ⟨-, hj⟩
      · rcases (get_set hil).1 hk with ⟨-, hk⟩ | ⟨-, hk⟩
        · exact m.once j k f hj hk
        · cases hk
      · cases hj
    have hnone : h = none → w.unmap o = .ok w → ∃ w', w.step (.destroy i) = (w', .ok []) ∧ Match w' { a with vars := a.vars.set i none } := by
      rintro rfl hu
      refine ⟨{ w with vars := w.vars.set i none }, by simp [World.step, hg, hu], ⟨m.closed, m.length, m.filled, ?_, ?_, ?_, honce,
        m.vars.set i .gone, m.ptrs⟩⟩
      · intro f b hf hx
        exact m.held f b hf ((hheld f).1 hx).1
      · intro f b hf hx
        exact m.free f b hf fun hy => hx ((hheld f).2 ⟨hy, by simp⟩)
      · intro f hx
        exact m.bound f ((hheld f).1 hx).1
    cases hh with
    | null => exact hnone rfl rfl
    | failed => exact hnone rfl rfl
    | @some f b hf =>
      have hm := m.held f b hf (held_iff.2 ⟨i, hi⟩)
      have hfl : f < w.maps.length := (List.getElem?_eq_some_iff.1 hm).1
      refine ⟨{ w with maps := w.maps.set f none, vars := w.vars.set i none }, by simp [World.step, hg, World.unmap, hm],
        ⟨m.closed, by simp [m.length], m.filled, ?_, ?_, ?_, honce, m.vars.set i .gone, m.ptrs⟩⟩
      · intro g c hgf hx
        have hx' := (hheld g).1 hx
        refine (get_set hfl).2 (.inl ⟨?_, m.held g c hgf hx'.1⟩)
        rintro rfl
        exact hx'.2 rfl
      · intro g c hgf hx
        by_cases hfg : f = g
        · subst hfg
          exact (get_set hfl).2 (.inr ⟨rfl, rfl⟩)
        · refine (get_set hfl).2 (.inl ⟨hfg, m.free g c hgf fun hy => hx ((hheld g).2 ⟨hy, ?_⟩)⟩)
          intro hc
          cases hc
          exact hfg rfl
      · intro g hx
        exact m.bound g ((hheld g).1 hx).1
  | take i h hi =>
    obtain ⟨o, ho, hg, hh⟩ := m.get hi
    exact ⟨{ w with ptrs := w.ptrs ++ [o] }, by simp [World.step, hg],
      ⟨m.closed, m.length, m.filled, m.held, m.free, m.bound, m.once, m.vars, m.ptrs.snoc hh⟩⟩
  | read k h b hk hs =>
    obtain ⟨o, ho, hh⟩ := m.ptrs.left hk
    refine ⟨w, ?_, m⟩
    have hb : w.bytes o = .ok b := by
      cases hs with
      | none => cases hh <;> rfl
      | some hx hf =>
        cases hh with
        | some hf' =>
          rw [hf] at hf'
          cases hf'
          simp [World.bytes, m.held _ _ hf hx]
    simp [World.step, ho, hb]

theorem run_match {a a' : Holders} {os : List Op} {bs : List Bytes} (h : Holders.Run a os bs a') :
    ∀ {w : World}, Match w a → ∃ w', w.run os = (w', .ok bs) ∧ Match w' a' := by
  induction h with
  | nil a => exact fun {w} m => ⟨w, rfl, m⟩
  | cons hs _ ih =>
    intro w m
    obtain ⟨w1, h1, m1⟩ := step_match m hs
    obtain ⟨w2, h2, m2⟩ := ih m1
    exact ⟨w2, by simp [World.run, h1, h2], m2⟩

end Verif.Mmap
