import Verif.Spec.VobTree
import Verif.Lemmas.WayNetGraph

/-! # Saving and loading trees of virtual objects -/

namespace Verif.VobTree

open Ar

/-- What is written of the trees, when the counter is `n`. -/
def fieldsOf (kids : Kids) : Forest → Nat → List Field
  | .nil, _ => []
  | .cons a k r, n =>
    .ptr nullClass (some a) :: .val (b!"childs" ++ dec (n % 2 ^ 32)) (.int (BitVec.ofNat 32 (kids a).length)) ::
      (fieldsOf kids k (n + 1) ++ fieldsOf kids r (n + 1 + k.nodes.length))

theorem saveAll_eq (kids : Kids) (f : Forest) : ∀ (l : List (Option Nat)) (n fuel : Nat), f.On kids l → 2 * f.nodes.length < fuel →
    saveAll kids fuel l n = .ok (fieldsOf kids f n, n + f.nodes.length) := by
  induction f with
  | nil =>
    intro l n fuel h hf
    obtain ⟨fuel, rfl⟩ : ∃ k, fuel = k + 1 := ⟨fuel - 1, by omega⟩
    cases h
    simp [saveAll, fieldsOf, Forest.nodes]
  | cons a k r ihk ihr =>
    intro l n fuel h hf
    obtain ⟨m, rfl, hk, hr⟩ := h
    simp only [Forest.nodes, List.length_cons, List.length_append] at hf ⊢
    obtain ⟨fuel, rfl⟩ : ∃ k, fuel = k + 2 := ⟨fuel - 2, by omega⟩
    rw [saveAll, save, ihk _ (n + 1) fuel hk (by omega)]
    simp only [bind, Except.bind, pure, Except.pure]
    rw [ihr m _ (fuel + 1) hr (by omega)]
    simp only [fieldsOf, List.cons_append, Except.ok.injEq, Prod.mk.injEq, true_and]
    omega

theorem save_eq (kids : Kids) (a : Nat) (f : Forest) (h : f.On kids (kids a)) (fuel : Nat) (hf : 2 * f.nodes.length + 1 < fuel) :
    save kids fuel (some a) 0 = .ok (fieldsOf kids (.cons a f .nil) 0, f.nodes.length + 1) := by
  obtain ⟨fuel, rfl⟩ : ∃ k, fuel = k + 1 := ⟨fuel - 1, by omega⟩
  rw [save, saveAll_eq kids f _ _ _ h (by omega)]
  simp [bind, Except.bind, pure, Except.pure, fieldsOf]
  omega

/-- Who gets which child. -/
def pushes (φ : Nat → Nat) : Nat → Forest → Pushes
  | _, .nil => []
  | p, .cons a k r => pushes φ (φ a) k ++ (p, φ a) :: pushes φ p r

/-- The objects of the trees are virtual objects. -/
def VobsIn (gf : GRd) (φ : Nat → Nat) (l : List Nat) : Prop :=
  ∀ a ∈ l, (gf.heap[φ a]?).any (fun o => o.1.isVobject) = true

theorem parse_ok {σ} {r : Reader σ} {S : Schema} {pf : Nat} {kids : Kids} {φ : Nat → Nat} {gf : GRd} {a : Nat} {k : Forest}
    {cn : Bytes} {fs : List Field} {fuel : Nat} {s s' : σ} {g g' : GRd} {K : Pushes} (hfew : (kids a).length < 2 ^ 31)
    (hg : g.Inv) (hv : VobsIn gf φ [a]) (hgf : Grow g' gf)
    (ih : ∀ s g, g.Inv → readAs r (readPtr r S pf) (fs.map Field.want) s g = .ok (fs.map (Field.got φ), s', g') →
      parseAll r S pf (φ a) fuel (kids a).length s g K = .ok (s', g', K ++ pushes φ (φ a) k))
    (h : readAs r (readPtr r S pf) ((.ptr nullClass (some a) :: .val cn (.int (BitVec.ofNat 32 (kids a).length)) :: fs).map Field.want) s g =
      .ok ((.ptr nullClass (some a) :: .val cn (.int (BitVec.ofNat 32 (kids a).length)) :: fs).map (Field.got φ), s', g')) :
    parse r S pf (fuel + 1) s g K = .ok (some (φ a), s', g', K ++ pushes φ (φ a) k) := by
  simp only [List.map_cons, Field.want, Field.got, Val.kind, Option.map_some] at h
  obtain ⟨p, s1, g1, o1, a1, a2, a3⟩ := readAs_ptr h
  obtain ⟨v, s2, o2, b1, b2, rfl⟩ := readAs_val a2
  simp only [List.cons.injEq, Got.ptr.injEq, Got.val.injEq] at a3
  obtain ⟨rfl, rfl, rfl⟩ := a3
  have hg1 := readPtr_grow r S pf _ _ _ _ _ hg a1
  have hg2 := readAs_grow (readPtr_grow r S pf) _ _ _ _ _ _ hg1.1.inv b2
  have hlt := hg1.2 _ rfl
  have hheap : g1.heap[φ a]? = gf.heap[φ a]? := by
    obtain ⟨t, ht⟩ := hg2.pre.trans hgf.pre
    rw [← ht, List.getElem?_append_left hlt]
  rw [parse, a1]
  simp only [bind, Except.bind]
  rw [readInt_ok b1]
  simp only [Option.filter, hheap, hv a (by simp), if_true]
  rw [reserve_ok _ hfew]
  simp only
  rw [ih s2 g1 hg1.1.inv b2]
  rfl

theorem parseAll_ok {σ} {r : Reader σ} {S : Schema} {pf : Nat} {kids : Kids} {φ : Nat → Nat} {gf : GRd} (f : Forest) :
    ∀ (l : List (Option Nat)) (n fuel parent : Nat) (s s' : σ) (g g' : GRd) (K : Pushes), f.On kids l → 2 * f.nodes.length < fuel →
      (∀ a ∈ f.nodes, (kids a).length < 2 ^ 31) → g.Inv → VobsIn gf φ f.nodes → Grow g' gf →
      readAs r (readPtr r S pf) ((fieldsOf kids f n).map Field.want) s g = .ok ((fieldsOf kids f n).map (Field.got φ), s', g') →
      parseAll r S pf parent fuel l.length s g K = .ok (s', g', K ++ pushes φ parent f) := by
  induction f with
  | nil =>
    intro l n fuel parent s s' g g' K h hf _ hg hv hgf hr
    obtain ⟨fuel, rfl⟩ : ∃ k, fuel = k + 1 := ⟨fuel - 1, by omega⟩
    cases h
    cases hr
    simp [parseAll, pushes]
  | cons a k r ihk ihr =>
    intro l n fuel parent s s' g g' K h hf hfew hg hv hgf hr
    obtain ⟨m, rfl, hk, hm⟩ := h
    simp only [Forest.nodes, List.length_cons, List.length_append] at hf
    obtain ⟨fuel, rfl⟩ : ∃ k, fuel = k + 2 := ⟨fuel - 2, by omega⟩
    simp only [fieldsOf, List.map_append, ← List.cons_append, List.map_cons] at hr
    obtain ⟨o1, s1, g1, o2, c1, c2, c3, c4⟩ := readAs_append hr
    obtain ⟨rfl, rfl⟩ := List.append_inj c3 (by simp [c4])
    have hg1 := readAs_grow (readPtr_grow _ _ _) _ _ _ _ _ _ hg c1
    have hg2 := readAs_grow (readPtr_grow _ _ _) _ _ _ _ _ _ hg1.inv c2
    have hnodes : ∀ b, b = a ∨ b ∈ k.nodes ∨ b ∈ r.nodes → b ∈ (Forest.cons a k r).nodes := by
      intro b hb; simpa [Forest.nodes] using hb
    have hp := parse_ok (k := k) (fuel := fuel) (K := K) (hfew a (hnodes _ (.inl rfl))) hg
      (fun b hb => hv b (hnodes _ (.inl (by simpa using hb)))) (hg2.trans hgf) (fun s g hg hr =>
        ihk (kids a) (n + 1) fuel (φ a) s s1 g g1 K hk (by omega) (fun b hb => hfew b (hnodes _ (.inr (.inl hb)))) hg
          (fun b hb => hv b (hnodes _ (.inr (.inl hb)))) (hg2.trans hgf) hr) c1
    have hq := ihr m _ (fuel + 1) parent s1 s' g1 g' (K ++ pushes φ (φ a) k ++ [(parent, φ a)]) hm (by omega)
      (fun b hb => hfew b (hnodes _ (.inr (.inr hb)))) hg1.inv (fun b hb => hv b (hnodes _ (.inr (.inr hb)))) hgf c2
    rw [List.length_cons, parseAll, hp]
    simp only [bind, Except.bind]
    rw [hq]
    simp [pushes]

/-! ## The children of the loaded objects -/

theorem childrenOf_append (K L : Pushes) (n : Nat) : childrenOf (K ++ L) n = childrenOf K n ++ childrenOf L n := by
  simp [childrenOf]

theorem childrenOf_cons (p c : Nat) (L : Pushes) (n : Nat) :
    childrenOf ((p, c) :: L) n = (if p = n then [c] else []) ++ childrenOf L n := by
  by_cases h : p = n <;> simp [childrenOf, h]

theorem pushes_none (φ : Nat → Nat) (f : Forest) : ∀ (p n : Nat), p ≠ n → n ∉ f.nodes.map φ → childrenOf (pushes φ p f) n = [] := by
  induction f with
  | nil => intro p n _ _; rfl
  | cons a k r ihk ihr =>
    intro p n hp hn
    simp only [Forest.nodes, List.map_cons, List.map_append, List.mem_cons, List.mem_append, not_or] at hn
    rw [pushes, childrenOf_append, childrenOf_cons, ihk _ _ (fun e => hn.1 e.symm) hn.2.1, ihr _ _ hp hn.2.2, if_neg hp]
    rfl

theorem pushes_parent (kids : Kids) (φ : Nat → Nat) (f : Forest) : ∀ (p : Nat) (l : List (Option Nat)), f.On kids l →
    p ∉ f.nodes.map φ → (childrenOf (pushes φ p f) p).map some = l.map (Option.map φ) := by
  induction f with
  | nil => intro p l h _; cases h; rfl
  | cons a k r ihk ihr =>
    intro p l h hn
    obtain ⟨m, rfl, hk, hm⟩ := h
    simp only [Forest.nodes, List.map_cons, List.map_append, List.mem_cons, List.mem_append, not_or] at hn
    rw [pushes, childrenOf_append, childrenOf_cons, pushes_none φ k _ _ (fun e => hn.1 e.symm) hn.2.1, if_pos rfl, List.nil_append,
      List.map_append, ihr p m hm hn.2.2]
    rfl

theorem pushes_node (kids : Kids) (φ : Nat → Nat) (f : Forest) : ∀ (p : Nat) (l : List (Option Nat)), f.On kids l →
    (f.nodes.map φ).Nodup → p ∉ f.nodes.map φ → ∀ a ∈ f.nodes,
      (childrenOf (pushes φ p f) (φ a)).map some = (kids a).map (Option.map φ) := by
  induction f with
  | nil => intro p l _ _ _ a ha; cases ha
  | cons b k r ihk ihr =>
    intro p l h hnd hn a ha
    obtain ⟨m, rfl, hk, hm⟩ := h
    simp only [Forest.nodes, List.map_cons, List.map_append, List.mem_cons, List.mem_append, not_or] at hn ha
    simp only [Forest.nodes, List.map_cons, List.map_append, List.nodup_cons, List.mem_append, not_or] at hnd
    obtain ⟨⟨hbk, hbr⟩, hnd⟩ := hnd
    obtain ⟨hk1, hr1, hdis⟩ := List.nodup_append.1 hnd
    rw [pushes, childrenOf_append, childrenOf_cons]
    have hpa : p ≠ φ a := by
      rintro rfl
      rcases ha with rfl | ha | ha
      · exact hn.1 rfl
      · exact hn.2.1 (List.mem_map_of_mem ha)
      · exact hn.2.2 (List.mem_map_of_mem ha)
    rw [if_neg hpa, List.nil_append, List.map_append]
    rcases ha with rfl | ha | ha
    · rw [pushes_parent kids φ k _ _ hk hbk, pushes_none φ r _ _ hpa hbr]; simp
    · rw [ihk (φ b) _ hk hk1 hbk a ha, pushes_none φ r _ _ hpa (fun hm => hdis _ (List.mem_map_of_mem ha) _ hm rfl)]; simp
    · rw [pushes_none φ k _ _ (by rintro e; exact hbr (e ▸ List.mem_map_of_mem ha))
        (fun hm => hdis _ hm _ (List.mem_map_of_mem ha) rfl), ihr p m hm hr1 hn.2.2 a ha]; simp

/-! ## Trees as object graphs -/

/-- A tree of virtual objects: no object occurs twice in it, and none has so many children that their number is negative. -/
structure TreeOk (H : GHeap) (kids : Kids) (root : Nat) (f : Forest) : Prop where
  tree : f.On kids (kids root)
  nodup : (root :: f.nodes).Nodup
  vobs : ∀ a ∈ root :: f.nodes, ∃ o, H a = some o ∧ o.type.isVobject = true
  few : ∀ a ∈ root :: f.nodes, (kids a).length < 2 ^ 31

theorem mem_fieldsOf {kids : Kids} {x : Field} (f : Forest) : ∀ n, x ∈ fieldsOf kids f n →
    (∃ a ∈ f.nodes, x = .ptr nullClass (some a)) ∨
      ∃ a ∈ f.nodes, ∃ k, x = .val (b!"childs" ++ dec (k % 2 ^ 32)) (.int (BitVec.ofNat 32 (kids a).length)) := by
  induction f with
  | nil => intro n h; cases h
  | cons a k r ihk ihr =>
    intro n h
    have hnodes : ∀ b, b = a ∨ b ∈ k.nodes ∨ b ∈ r.nodes → b ∈ (Forest.cons a k r).nodes := by
      intro b hb; simpa [Forest.nodes] using hb
    simp only [fieldsOf, List.mem_cons, List.mem_append] at h
    rcases h with rfl | rfl | h | h
    · exact .inl ⟨a, hnodes _ (.inl rfl), rfl⟩
    · exact .inr ⟨a, hnodes _ (.inl rfl), n, rfl⟩
    · rcases ihk _ h with ⟨b, hb, rfl⟩ | ⟨b, hb, i, rfl⟩
      · exact .inl ⟨b, hnodes _ (.inr (.inl hb)), rfl⟩
      · exact .inr ⟨b, hnodes _ (.inr (.inl hb)), i, rfl⟩
    · rcases ihr _ h with ⟨b, hb, rfl⟩ | ⟨b, hb, i, rfl⟩
      · exact .inl ⟨b, hnodes _ (.inr (.inr hb)), rfl⟩
      · exact .inr ⟨b, hnodes _ (.inr (.inr hb)), i, rfl⟩

theorem fieldsOf_mem {kids : Kids} (f : Forest) : ∀ n, ∀ a ∈ f.nodes, Field.ptr nullClass (some a) ∈ fieldsOf kids f n := by
  induction f with
  | nil => intro n a h; cases h
  | cons b k r ihk ihr =>
    intro n a h
    simp only [Forest.nodes, List.mem_cons, List.mem_append] at h
    simp only [fieldsOf, List.mem_cons, List.mem_append]
    rcases h with rfl | h | h
    · exact .inl rfl
    · exact .inr (.inr (.inl (ihk _ _ h)))
    · exact .inr (.inr (.inr (ihr _ _ h)))

theorem treeGraph {H : GHeap} {kids : Kids} {root : Nat} {f : Forest} {dom : List Nat} {S : Schema} {pv : Bytes → Val → Prop}
    {q : Bytes → Prop} (h : TreeOk H kids root f) (hg : GraphOk H [] dom S pv (fun n c _ _ => q n ∧ q c))
    (hcls : ∀ t c, tableFind classNamesTable t = some c → q c) (href : q refClass) (hnull : q nullClass)
    (hi : ∀ i k : Nat, k < 2 ^ 31 → pv (b!"childs" ++ dec (i % 2 ^ 32)) (.int (BitVec.ofNat 32 k))) :
    GraphOk H (fieldsOf kids (.cons root f .nil) 0) dom S pv (fun n c _ _ => q n ∧ q c) := by
  have hn : ∀ a ∈ (Forest.cons root f .nil).nodes, a ∈ root :: f.nodes := by intro a ha; simpa [Forest.nodes] using ha
  refine ⟨hg.finite, hg.small, ?_, hg.closed, hg.types, hg.loads, ?_, hg.fieldsOk⟩
  · intro n a ha
    rcases mem_fieldsOf _ _ ha with ⟨b, hb, e⟩ | ⟨b, hb, k, e⟩
    · cases e
      obtain ⟨o, ho, _⟩ := h.vobs _ (hn _ hb)
      rw [ho]; rfl
    · cases e
  · intro x hx
    rcases mem_fieldsOf _ _ hx with ⟨b, hb, rfl⟩ | ⟨b, hb, k, rfl⟩
    · intro c _ _ hc
      refine ⟨hnull, ?_⟩
      rcases hc with rfl | rfl | ⟨t, ht⟩
      · exact href
      · exact hnull
      · exact hcls t c ht
    · exact hi _ _ (h.few b (hn _ hb))

/-- The part of C48 that does not depend on the format. -/
theorem tree_loads {σ} {r : Reader σ} {S : Schema} {pf : Nat} {H : GHeap} {kids : Kids} {root : Nat} {f : Forest}
    (h : TreeOk H kids root f) {s s' : σ} {g' : GRd} {φ : Nat → Nat} {fuel : Nat} (hf : 2 * f.nodes.length + 1 < fuel)
    (hr : readAs r (readPtr r S pf) ((fieldsOf kids (.cons root f .nil) 0).map Field.want) s ⟨[], []⟩ =
      .ok ((fieldsOf kids (.cons root f .nil) 0).map (Field.got φ), s', g'))
    (hc : IsCopy H (fieldsOf kids (.cons root f .nil) 0) g'.heap φ) :
    ∃ K, parse r S pf fuel s ⟨[], []⟩ [] = .ok (some (φ root), s', g', K) ∧ IsTreeCopy kids (root :: f.nodes) φ K := by
  obtain ⟨fuel, rfl⟩ : ∃ k, fuel = k + 1 := ⟨fuel - 1, by omega⟩
  have hreach : ∀ a ∈ root :: f.nodes, Reach H (fieldsOf kids (.cons root f .nil) 0) a := by
    intro a ha
    exact .root (fieldsOf_mem _ 0 a (by simpa [Forest.nodes] using ha))
  have hvobs : VobsIn g' φ (root :: f.nodes) := by
    intro a ha
    obtain ⟨o, ho, hv⟩ := h.vobs a ha
    obtain ⟨o', ho', hh⟩ := hc.copy a (hreach a ha)
    rw [ho] at ho'
    cases ho'
    rw [hh]
    simpa using hv
  have hgf := readAs_grow (readPtr_grow r S pf) _ _ _ _ _ _ GRd.Inv.new hr
  refine ⟨pushes φ (φ root) f, ?_, ?_, ?_⟩
  · simp only [fieldsOf, List.append_nil] at hr
    have := parse_ok (K := []) (k := f) (fuel := fuel) (gf := g') (h.few root (by simp)) GRd.Inv.new
      (fun a ha => hvobs a (by simp at ha; simp [ha])) (Grow.refl hgf.inv)
      (fun s g hg hr => parseAll_ok f (kids root) _ fuel (φ root) s s' g g' [] h.tree (by omega)
        (fun a ha => h.few a (by simp [ha])) hg (fun a ha => hvobs a (by simp [ha])) (Grow.refl hgf.inv) hr) hr
    simpa using this
  · have hnd : ((root :: f.nodes).map φ).Nodup := by
      refine List.pairwise_map.2 (h.nodup.imp_of_mem ?_)
      intro a b ha hb hne e
      exact hne (hc.inj a b (hreach a ha) (hreach b hb) e)
    simp only [List.map_cons, List.nodup_cons] at hnd
    intro a ha
    rcases List.mem_cons.1 ha with rfl | ha
    · exact pushes_parent kids φ f _ _ h.tree hnd.1
    · exact pushes_node kids φ f _ _ h.tree hnd.2 hnd.1 a ha
  · intro n hn
    refine pushes_none φ f _ _ (hn root (by simp)) ?_
    intro hm
    obtain ⟨a, ha, e⟩ := List.mem_map.1 hm
    exact hn a (by simp [ha]) e

end Verif.VobTree
