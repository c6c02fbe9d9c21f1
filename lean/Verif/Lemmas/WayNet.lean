import Verif.Spec.WayNet
import Verif.Lemmas.ReadSeq

/-! # Loading way nets -/

namespace Verif

open Ar

variable {σ : Type} {r : Reader σ} {S : Schema} {fuel : Nat}

/-- The objects of a way net: way points, which own nothing. -/
def WpObjects (heap : List (ObjectType × List Got)) : Prop :=
  ∀ o ∈ heap, o.1 = .zCWaypoint ∧ ∀ p, Got.ptr p ∉ o.2

/-- What is known at the end of reading. -/
structure Final (g : GRd) : Prop where
  objects : WpObjects g.heap
  cached : ∀ n < g.heap.length, cached g n = 1

theorem readObjectOf_ok {s s1 : σ} {g g1 gf : GRd} {p : Option Nat} (hg : g.Inv) (h : readPtr r S fuel s g = .ok (p, s1, g1))
    (hf : Grow g1 gf) (hfin : Final gf) : readObjectOf r S .zCWaypoint fuel s g = .ok (p, s1, g1) := by
  unfold readObjectOf
  rw [h]
  cases p with
  | none => rfl
  | some n =>
    have hn := (readPtr_grow r S fuel s g _ _ _ hg h).2 n rfl
    have hm := hfin.objects _ (hf.pre.subset (List.getElem_mem hn))
    simp only [bind, Except.bind]
    rw [List.getElem?_eq_getElem hn]
    simp only [Option.map_some, hm.1]
    rfl

theorem loadPoints_ok {gf : GRd} (hfin : Final gf) : ∀ (F : List Nat) (net : LoadedNet) (s s' : σ) (g g' : GRd), g.Inv →
    readAs r (readPtr r S fuel) (F.map fun _ => .ptr) s g = .ok (F.map fun n => .ptr (some n), s', g') → Grow g' gf →
    WayNet.loadPoints r S fuel F.length net s g =
      .ok ({ net with points := net.points ++ F.map some, free := net.free ++ F }, s', g') := by
  intro F
  induction F with
  | nil => intro net s s' g g' _ h _; cases h; simp [WayNet.loadPoints]
  | cons n F ih =>
    intro net s s' g g' hg h hf
    obtain ⟨p, s1, g1, o', h1, h2, h3⟩ := readAs_ptr h
    simp only [List.map_cons, List.cons.injEq, Got.ptr.injEq] at h3
    obtain ⟨rfl, rfl⟩ := h3
    have hg1 := (readPtr_grow r S fuel _ _ _ _ _ hg h1).1
    have hgr := readAs_grow (readPtr_grow r S fuel) _ _ _ _ _ _ hg1.inv h2
    have := readObjectOf_ok hg h1 (hgr.trans hf) hfin
    simp only [List.length_cons, WayNet.loadPoints, this, bind, Except.bind]
    rw [ih _ s1 s' g1 g' hg1.inv h2 hf]
    simp

/-- The number of owners of a way point that is in the cache. -/
def owners (net : WayNet) (vars : List (Option Nat)) (n : Nat) : Nat :=
  1 + ownersIn n net.points + ownersEdges n net.edges + ownersIn n vars

theorem useCount_eq {g gf : GRd} (hg : g.Inv) (hf : Grow g gf) (hfin : Final gf) (net : WayNet) (vars : List (Option Nat)) (n : Nat)
    (hn : n < g.heap.length) : useCount g net vars (some n) = owners net vars n := by
  have h1 : ownersCache n g.cache = 1 := by
    have a := hf.cnt n hn
    rw [hfin.cached n (Nat.lt_of_lt_of_le hn hf.pre.length_le)] at a
    have b := hg.once n
    simp only [cached] at a b
    unfold ownersCache
    omega
  have h2 : ownersHeap n g.heap = 0 := by
    unfold ownersHeap
    rw [List.sum_eq_zero_iff_forall_eq_nat]
    intro x hx
    obtain ⟨o, ho, rfl⟩ := List.mem_map.1 hx
    rw [List.count_eq_zero]
    exact (hfin.objects o (hf.pre.subset ho)).2 _
  simp only [useCount, owners, h1, h2]

/-- One round of the second loop. -/
def addEdge (net : LoadedNet) (e : Nat × Nat) : LoadedNet :=
  let net := if owners net.toWayNet [some e.1, some e.2] e.1 < 3 then { net with points := net.points ++ [some e.1] } else net
  let net := if owners net.toWayNet [some e.1, some e.2] e.2 < 3 then { net with points := net.points ++ [some e.2] } else net
  { net with edges := net.edges ++ [(some e.1, some e.2)] }

theorem loadEdges_ok {gf : GRd} (hfin : Final gf) : ∀ (E : List (Nat × Nat)) (net : LoadedNet) (s s' : σ) (g g' : GRd), g.Inv →
    readAs r (readPtr r S fuel) (E.flatMap fun _ => [.ptr, .ptr]) s g =
      .ok (E.flatMap fun e => [.ptr (some e.1), .ptr (some e.2)], s', g') → Grow g' gf →
    WayNet.loadEdges r S fuel E.length net s g = .ok (E.foldl addEdge net, s', g') := by
  intro E
  induction E with
  | nil => intro net s s' g g' _ h _; cases h; rfl
  | cons e E ih =>
    intro net s s' g g' hg h hf
    rw [List.flatMap_cons] at h
    obtain ⟨p, s1, g1, o', h1, h2, h3⟩ := readAs_ptr h
    obtain ⟨q, s2, g2, o'', h4, h5, rfl⟩ := readAs_ptr h2
    simp only [List.flatMap_cons, List.cons_append, List.nil_append, List.cons.injEq, Got.ptr.injEq] at h3
    obtain ⟨rfl, rfl, rfl⟩ := h3
    have hg1 := (readPtr_grow r S fuel _ _ _ _ _ hg h1)
    have hg2 := (readPtr_grow r S fuel _ _ _ _ _ hg1.1.inv h4)
    have hgr := (readAs_grow (readPtr_grow r S fuel) _ _ _ _ _ _ hg2.1.inv h5).trans hf
    have e1 := readObjectOf_ok hg h1 (hg2.1.trans hgr) hfin
    have e2 := readObjectOf_ok hg1.1.inv h4 hgr hfin
    have hl := Nat.lt_of_lt_of_le (hg1.2 _ rfl) hg2.1.pre.length_le
    have hr := hg2.2 _ rfl
    simp only [List.length_cons, WayNet.loadEdges, e1, e2, bind, Except.bind, List.foldl_cons]
    rw [useCount_eq hg2.1.inv hgr hfin _ _ _ hl, useCount_eq hg2.1.inv hgr hfin _ _ _ hr]
    exact ih _ s2 s' g2 g' hg2.1.inv h5 hf

/-- Every end of an edge is a point. -/
def Closed (net : WayNet) : Prop := ∀ n, 0 < ownersEdges n net.edges → some n ∈ net.points

theorem ownersIn_pos {n : Nat} {l : List (Option Nat)} : 0 < ownersIn n l ↔ some n ∈ l := List.count_pos_iff

theorem ownersEdges_snoc (n : Nat) (l : List (Option Nat × Option Nat)) (e : Option Nat × Option Nat) :
    ownersEdges n (l ++ [e]) = ownersEdges n l + ownersIn n [e.1, e.2] := by
  simp only [ownersEdges, ownersIn, List.map_append, List.map_cons, List.map_nil, List.count_append, List.count_cons, List.count_nil]
  omega

theorem addEdge_spec (net : LoadedNet) (e : Nat × Nat) (hc : Closed net.toWayNet) (hself : e.1 = e.2 → some e.1 ∈ net.points) :
    ∃ extra : List Nat, (addEdge net e).points = net.points ++ extra.map some ∧ extra.Nodup ∧ (∀ n ∈ extra, some n ∉ net.points) ∧
      (∀ n ∈ extra, n = e.1 ∨ n = e.2) ∧ some e.1 ∈ (addEdge net e).points ∧ some e.2 ∈ (addEdge net e).points ∧
      Closed (addEdge net e).toWayNet ∧ (addEdge net e).edges = net.edges ++ [(some e.1, some e.2)] ∧
      (addEdge net e).free = net.free := by
  obtain ⟨l, q⟩ := e
  have fresh : ∀ n, some n ∉ net.points → ownersIn n net.points = 0 ∧ ownersEdges n net.edges = 0 := by
    intro n hn
    refine ⟨List.count_eq_zero.2 hn, ?_⟩
    rcases Nat.eq_zero_or_pos (ownersEdges n net.edges) with h | h
    · exact h
    · exact absurd (hc n h) hn
  have old : ∀ n, some n ∈ net.points → 0 < ownersIn n net.points := fun n hn => ownersIn_pos.2 hn
  have v1 : 0 < ownersIn l [some l, some q] := ownersIn_pos.2 (by simp)
  have v2 : 0 < ownersIn q [some l, some q] := ownersIn_pos.2 (by simp)
  have one : ∀ {a b : Nat}, a ≠ b → ownersIn a [some a, some b] = 1 ∧ ownersIn b [some a, some b] = 1 := by
    intro a b h
    have h' : ¬ b = a := fun e => h e.symm
    simp [ownersIn, h, h']
  have key : ∃ extra : List Nat, (addEdge net (l, q)).points = net.points ++ extra.map some ∧ extra.Nodup ∧
      (∀ n ∈ extra, some n ∉ net.points) ∧ (∀ n ∈ extra, n = l ∨ n = q) ∧
      (some l ∈ net.points ∨ l ∈ extra) ∧ (some q ∈ net.points ∨ q ∈ extra) := by
    by_cases hl : some l ∈ net.points
    · have hno : ¬ owners net.toWayNet [some l, some q] l < 3 := by
        unfold owners; have := old l hl; omega
      by_cases hq : some q ∈ net.points
      · have hno2 : ¬ owners net.toWayNet [some l, some q] q < 3 := by
          unfold owners; have := old q hq; omega
        refine ⟨[], ?_, by simp, by simp, by simp, .inl hl, .inl hq⟩
        simp only [addEdge, if_neg hno, if_neg hno2]; simp
      · have hne : l ≠ q := by intro e; subst e; exact hq hl
        have hyes : owners net.toWayNet [some l, some q] q < 3 := by
          unfold owners; have := fresh q hq; have := one hne; omega
        refine ⟨[q], ?_, by simp, by simpa using hq, by simp, .inl hl, .inr (by simp)⟩
        simp only [addEdge, if_neg hno, if_pos hyes]; simp
    · have hne : l ≠ q := by intro e; exact hl (hself e)
      have hyes : owners net.toWayNet [some l, some q] l < 3 := by
        unfold owners; have := fresh l hl; have := one hne; omega
      by_cases hq : some q ∈ net.points
      · have hno2 : ¬ owners ⟨net.points ++ [some l], net.edges⟩ [some l, some q] q < 3 := by
          unfold owners
          have := old q hq
          simp only [ownersIn, List.count_append] at this ⊢
          simp only [ownersIn] at v2
          omega
        refine ⟨[l], ?_, by simp, by simpa using hl, by simp, .inr (by simp), .inl hq⟩
        simp only [addEdge, if_pos hyes, if_neg hno2]; simp
      · have hyes2 : owners ⟨net.points ++ [some l], net.edges⟩ [some l, some q] q < 3 := by
          unfold owners
          have h1 := fresh q hq
          have h2 := (one hne).2
          have h3 : ownersIn q (net.points ++ [some l]) = 0 := by
            refine List.count_eq_zero.2 ?_
            simp only [List.mem_append, List.mem_singleton, Option.some.injEq, not_or]
            exact ⟨hq, fun e => hne e.symm⟩
          simp only [h3, h1.2, h2]
          omega
        refine ⟨[l, q], ?_, by simp [hne], ?_, by simp, .inr (by simp), .inr (by simp)⟩
        · simp only [addEdge, if_pos hyes, if_pos hyes2]; simp
        · intro n hn
          simp only [List.mem_cons, List.not_mem_nil, or_false] at hn
          rcases hn with rfl | rfl <;> assumption
  have hedges : (addEdge net (l, q)).edges = net.edges ++ [(some l, some q)] := by
    simp only [addEdge]; split <;> split <;> rfl
  obtain ⟨extra, h1, h2, h3, h4, h5, h6⟩ := key
  have m1 : some l ∈ (addEdge net (l, q)).points := by rw [h1]; simpa using h5
  have m2 : some q ∈ (addEdge net (l, q)).points := by rw [h1]; simpa using h6
  refine ⟨extra, h1, h2, h3, h4, m1, m2, ?_, hedges, ?_⟩
  · intro n hn
    rw [hedges, ownersEdges_snoc] at hn
    by_cases hn2 : 0 < ownersEdges n net.edges
    · rw [h1]; exact List.mem_append_left _ (hc n hn2)
    · have : 0 < ownersIn n [some l, some q] := by dsimp only at hn; omega
      have := ownersIn_pos.1 this
      simp only [List.mem_cons, Option.some.injEq, List.not_mem_nil, or_false] at this
      rcases this with rfl | rfl <;> assumption
  · simp only [addEdge]; split <;> split <;> rfl

theorem addEdges_spec : ∀ (E : List (Nat × Nat)) (net : LoadedNet), Closed net.toWayNet →
    (∀ (i n : Nat), E[i]? = some (n, n) → some n ∈ net.points ∨ ∃ j < i, ∃ e, E[j]? = some e ∧ (e.1 = n ∨ e.2 = n)) →
    ∃ extra : List Nat, (E.foldl addEdge net).points = net.points ++ extra.map some ∧ extra.Nodup ∧
      (∀ n ∈ extra, some n ∉ net.points) ∧ (∀ n ∈ extra, ∃ e ∈ E, n = e.1 ∨ n = e.2) ∧
      (∀ e ∈ E, some e.1 ∈ (E.foldl addEdge net).points ∧ some e.2 ∈ (E.foldl addEdge net).points) ∧
      (E.foldl addEdge net).edges = net.edges ++ E.map (fun e => (some e.1, some e.2)) ∧ (E.foldl addEdge net).free = net.free := by
  intro E
  induction E with
  | nil => intro net _ _; exact ⟨[], by simp, by simp, by simp, by simp, by simp, by simp, rfl⟩
  | cons e E ih =>
    intro net hc hself
    obtain ⟨x1, a1, a2, a3, a4, a5, a6, a7, a8, a9⟩ := addEdge_spec net e hc (by
      intro he
      rcases hself 0 e.1 (by simp [Prod.ext_iff, he]) with h | ⟨j, hj, _⟩
      · exact h
      · omega)
    obtain ⟨x2, b1, b2, b3, b4, b5, b6, b7⟩ := ih (addEdge net e) a7 (by
      intro i n hi
      rcases hself (i + 1) n (by simpa using hi) with h | ⟨j, hj, f, hf, hfn⟩
      · exact .inl (by rw [a1]; exact List.mem_append_left _ h)
      · cases j with
        | zero =>
          simp only [List.getElem?_cons_zero, Option.some.injEq] at hf
          subst hf
          rcases hfn with rfl | rfl
          · exact .inl a5
          · exact .inl a6
        | succ j => exact .inr ⟨j, by omega, f, by simpa using hf, hfn⟩)
    refine ⟨x1 ++ x2, ?_, ?_, ?_, ?_, ?_, ?_, ?_⟩
    · rw [List.foldl_cons, b1, a1]; simp
    · rw [List.nodup_append]
      refine ⟨a2, b2, ?_⟩
      intro x hx y hy e
      subst e
      refine b3 x hy ?_
      rw [a1]
      exact List.mem_append_right _ (List.mem_map.2 ⟨x, hx, rfl⟩)
    · intro n hn
      rcases List.mem_append.1 hn with h | h
      · exact a3 n h
      · intro h2
        refine b3 n h ?_
        rw [a1]
        exact List.mem_append_left _ h2
    · intro n hn
      rcases List.mem_append.1 hn with h | h
      · exact ⟨e, List.mem_cons_self, a4 n h⟩
      · obtain ⟨f, hf, hfn⟩ := b4 n h
        exact ⟨f, List.mem_cons_of_mem _ hf, hfn⟩
    · intro f hf
      rcases List.mem_cons.1 hf with rfl | hf
      · rw [List.foldl_cons, b1]
        exact ⟨List.mem_append_left _ a5, List.mem_append_left _ a6⟩
      · exact b5 f hf
    · rw [List.foldl_cons, b6, a8]; simp
    · rw [List.foldl_cons, b7, a9]

end Verif
