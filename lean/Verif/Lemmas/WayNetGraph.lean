import Verif.Lemmas.WayNet
import Verif.Lemmas.ArchiveGraphFmt

/-! # Way nets as object graphs -/

namespace Verif

open Ar

/-! ## Names that suit all formats -/

/-- Not empty, not long, no NUL, space or bracket. -/
def Plain (n : Bytes) : Prop := n ≠ [] ∧ n.length ≤ 127 ∧ ∀ c ∈ n, c ≠ 0 ∧ c ≠ 93 ∧ isSpace c = false

instance (n : Bytes) : Decidable (Plain n) := inferInstanceAs (Decidable (_ ∧ _ ∧ _))

theorem Plain.asc {n : Bytes} (h : Plain n) : Asc.OkName n := ⟨h.1, h.2.1, fun c hc => ⟨(h.2.2 c hc).1, (h.2.2 c hc).2.2⟩⟩

theorem Plain.noEol {n : Bytes} (h : Plain n) : NoEol n := Asc.noEol_name h.asc

theorem Plain.bs {n : Bytes} (h : Plain n) : Bs.OkName n := by
  refine ⟨h.1, h.2.1, fun c hc => ⟨(h.2.2 c hc).1, ?_, (h.2.2 c hc).2.1⟩⟩
  rintro rfl
  exact absurd (h.2.2 _ hc).2.2 (by decide)

theorem plain_numbered (n : Bytes) (h : Plain n) (hl : n.length ≤ 100) (k : Nat) : Plain (n ++ dec (k % 2 ^ 32)) := by
  have hd := dec_length_le (k % 2 ^ 32) 10 (by decide) (Nat.lt_trans (Nat.mod_lt _ (by decide)) (by decide))
  refine ⟨by simp [h.1], by rw [List.length_append]; omega, ?_⟩
  intro c hc
  rcases List.mem_append.1 hc with hc | hc
  · exact h.2.2 c hc
  · have := dec_digits _ c hc
    refine ⟨isDigit_ne c this 0 (by simp), isDigit_ne c this 93 (by simp), ?_⟩
    simp only [isDigit, Bool.and_eq_true, decide_eq_true_eq, UInt8.le_iff_toNat_le] at this
    simp only [isSpace, Bool.or_eq_false_iff, beq_eq_false_iff_ne, Bool.and_eq_false_imp, decide_eq_true_eq, decide_eq_false_iff_not,
      UInt8.le_iff_toNat_le]
    have h1 := this.1
    simp at h1
    refine ⟨?_, ?_⟩
    · rintro rfl; simp at h1
    · intro _; simp; omega

/-! ## Way nets -/

/-- What `save` writes. -/
def netFields (F : List Nat) (E : List (Nat × Nat)) : List Field :=
  .val b!"waynetVersion" (.int 1) :: .val b!"numWaypoints" (.int (BitVec.ofNat 32 F.length)) ::
    (numberedPtrs b!"waypoint" (F.map some) ++ .val b!"numWays" (.int (BitVec.ofNat 32 E.length)) ::
      edgePtrs (E.map fun e => (some e.1, some e.2)))

theorem freePoints_eq (P : WpHeap) : ∀ pts : List Nat, (∀ a ∈ pts, (P a).isSome) →
    WayNet.freePoints P (pts.map some) = .ok (freeOf P pts) := by
  intro pts
  induction pts with
  | nil => intro _; rfl
  | cons a pts ih =>
    intro h
    obtain ⟨p, hp⟩ := Option.isSome_iff_exists.1 (h a List.mem_cons_self)
    simp only [List.map_cons, WayNet.freePoints, hp, ih fun b hb => h b (List.mem_cons_of_mem _ hb), bind, Except.bind, pure, Except.pure,
      freeOf, List.filter_cons, Option.any_some]

theorem save_eq {P net dom pts E} (h : NetOk P net dom pts E) : net.save P = .ok (netFields (freeOf P pts) E) := by
  unfold WayNet.save
  rw [h.points, h.edges, freePoints_eq P pts h.pointsIn]
  simp [bind, Except.bind, pure, Except.pure, netFields]

theorem numberedPtrs_map {α} (f : Field → α) (g : Option Nat → α) (n : Bytes) (l : List (Option Nat))
    (h : ∀ m p, f (.ptr m p) = g p) : (numberedPtrs n l).map f = l.map g := by
  unfold numberedPtrs
  rw [List.map_map]
  have : (f ∘ fun p : Option Nat × Nat => Field.ptr (n ++ dec (p.2 % 2 ^ 32)) p.1) = g ∘ Prod.fst := by
    funext p; simp [h]
  rw [this, ← List.map_map]
  simp [List.zipIdx_map_fst]

theorem edgePtrs_map {α} (f : Field → α) (g : Option Nat → α) (h : ∀ m p, f (.ptr m p) = g p) :
    ∀ (l : List (Option Nat × Option Nat)), (edgePtrs l).map f = l.flatMap fun e => [g e.1, g e.2] := by
  intro l
  unfold edgePtrs
  rw [List.map_flatMap]
  have : ∀ k, (List.zipIdx l k).flatMap (fun p => List.map f
      [.ptr (b!"wayl" ++ dec (p.2 % 2 ^ 32)) p.1.1, .ptr (b!"wayr" ++ dec (p.2 % 2 ^ 32)) p.1.2]) =
      l.flatMap fun e => [g e.1, g e.2] := by
    induction l with
    | nil => intro k; rfl
    | cons e l ih => intro k; rw [List.zipIdx_cons, List.flatMap_cons, ih]; simp [h]
  exact this 0

theorem mem_numberedPtrs {f : Field} {n : Bytes} {l : List (Option Nat)} (h : f ∈ numberedPtrs n l) :
    ∃ k p, f = .ptr (n ++ dec (k % 2 ^ 32)) p ∧ p ∈ l := by
  obtain ⟨⟨p, k⟩, hp, rfl⟩ := List.mem_map.1 h
  exact ⟨k, p, rfl, List.fst_mem_of_mem_zipIdx hp⟩

theorem mem_edgePtrs {f : Field} {l : List (Option Nat × Option Nat)} (h : f ∈ edgePtrs l) :
    ∃ k, ∃ e ∈ l, f = .ptr (b!"wayl" ++ dec (k % 2 ^ 32)) e.1 ∨ f = .ptr (b!"wayr" ++ dec (k % 2 ^ 32)) e.2 := by
  unfold edgePtrs at h
  rw [List.mem_flatMap] at h
  obtain ⟨⟨e, k⟩, he, hf⟩ := h
  refine ⟨k, e, List.fst_mem_of_mem_zipIdx he, ?_⟩
  simpa using hf

theorem mem_netFields {f : Field} {F : List Nat} {E : List (Nat × Nat)} (h : f ∈ netFields F E) :
    f = .val b!"waynetVersion" (.int 1) ∨ f = .val b!"numWaypoints" (.int (BitVec.ofNat 32 F.length)) ∨
      f = .val b!"numWays" (.int (BitVec.ofNat 32 E.length)) ∨
      (∃ k, ∃ a ∈ F, f = .ptr (b!"waypoint" ++ dec (k % 2 ^ 32)) (some a)) ∨
      (∃ k, ∃ e ∈ E, f = .ptr (b!"wayl" ++ dec (k % 2 ^ 32)) (some e.1) ∨ f = .ptr (b!"wayr" ++ dec (k % 2 ^ 32)) (some e.2)) := by
  simp only [netFields, List.mem_cons, List.mem_append] at h
  rcases h with h | h | h | h | h
  · exact .inl h
  · exact .inr (.inl h)
  · obtain ⟨k, p, rfl, hp⟩ := mem_numberedPtrs h
    obtain ⟨a, ha, rfl⟩ := List.mem_map.1 hp
    exact .inr (.inr (.inr (.inl ⟨k, a, ha, rfl⟩)))
  · exact .inr (.inr (.inl h))
  · obtain ⟨k, e, he, hf⟩ := mem_edgePtrs h
    obtain ⟨e', he', rfl⟩ := List.mem_map.1 he
    exact .inr (.inr (.inr (.inr ⟨k, e', he', hf⟩)))

theorem readInt_ok {σ} {r : Reader σ} {s s' : σ} {v : BitVec 32} (h : r.val .int s = .ok (.int v, s')) : readInt r s = .ok (v, s') := by
  unfold readInt
  rw [h]
  rfl

theorem reserve_ok (n : Nat) (h : n < 2 ^ 31) : reserve (BitVec.ofNat 32 n) = .ok n := by
  unfold reserve
  have h1 : (BitVec.ofNat 32 n).toNat = n := by simp; omega
  have h2 : (BitVec.ofNat 32 n).toInt = n := by
    rw [BitVec.toInt_eq_toNat_cond, h1, if_pos (by omega)]
  rw [h2, h1, if_neg (by omega)]

theorem zipIdx_getElem? {α} {l : List α} {i : Nat} {a : α} (h : l[i]? = some a) : i < l.length := by
  rcases Nat.lt_or_ge i l.length with hl | hl
  · exact hl
  · rw [List.getElem?_eq_none hl] at h; cases h

/-- The part of C47 that does not depend on the format. -/
theorem net_loads {σ} {r : Reader σ} {S : Schema} {fuel : Nat} {P : WpHeap} {net : WayNet} {dom pts : List Nat} {E : List (Nat × Nat)}
    (h : NetOk P net dom pts E) {s s' : σ} {heap : List (ObjectType × List Got)} {base : BitVec 32} {φ : Nat → Nat}
    (hr : readAs r (readPtr r S fuel) ((netFields (freeOf P pts) E).map Field.want) s ⟨[], []⟩ =
      .ok ((netFields (freeOf P pts) E).map (Field.got φ), s', ⟨heap, rcache base heap.length⟩))
    (hc : IsCopy P.objects (netFields (freeOf P pts) E) heap φ) :
    ∃ out, WayNet.load r S fuel s ⟨[], []⟩ = .ok (out, s', ⟨heap, rcache base heap.length⟩) ∧
      IsNetCopy (freeOf P pts) net.edges φ out := by
  generalize hF : freeOf P pts = F at hr hc
  have hfin : Final ⟨heap, rcache base heap.length⟩ := by
    constructor
    · intro o ho
      obtain ⟨n, hn, rfl⟩ := List.mem_iff_getElem.1 ho
      obtain ⟨a, ha, rfl⟩ := hc.onto n hn
      obtain ⟨x, hx, hx2⟩ := hc.copy a ha
      simp only [WpHeap.objects, Option.map_eq_some_iff] at hx
      obtain ⟨p, _, rfl⟩ := hx
      rw [List.getElem?_eq_getElem hn] at hx2
      simp only [Option.some.injEq] at hx2
      rw [hx2]
      exact ⟨rfl, by simp [WayPoint.fields, Field.got]⟩
    · intro n hn
      simp only at hn
      simp only [cached, rcache, List.countP_map]
      have : ((fun p : BitVec 32 × Nat => p.2 == n) ∘ fun i => (base + BitVec.ofNat 32 i, i)) = (· == n) := by
        funext i; rfl
      rw [this]
      have := (List.nodup_range (n := heap.length)).count (a := n)
      rw [if_pos (List.mem_range.2 hn)] at this
      exact this
  have hptr : ∀ l : List Nat, (numberedPtrs b!"waypoint" (l.map some)).map Field.want = (l.map φ).map fun _ => Want.ptr := by
    intro l
    rw [numberedPtrs_map _ (fun _ => Want.ptr) _ _ (fun _ _ => rfl)]
    simp
  have hptr2 : ∀ l : List Nat, (numberedPtrs b!"waypoint" (l.map some)).map (Field.got φ) =
      (l.map φ).map fun n => Got.ptr (some n) := by
    intro l
    rw [numberedPtrs_map _ (fun p => Got.ptr (p.map φ)) _ _ (fun _ _ => rfl)]
    simp
  have hed : (edgePtrs (E.map fun e => (some e.1, some e.2))).map Field.want =
      (E.map fun e => (φ e.1, φ e.2)).flatMap fun _ => [Want.ptr, Want.ptr] := by
    rw [edgePtrs_map _ (fun _ => Want.ptr) (fun _ _ => rfl)]
    simp [List.flatMap_map]
  have hed2 : (edgePtrs (E.map fun e => (some e.1, some e.2))).map (Field.got φ) =
      (E.map fun e => (φ e.1, φ e.2)).flatMap fun e => [Got.ptr (some e.1), Got.ptr (some e.2)] := by
    rw [edgePtrs_map _ (fun p => Got.ptr (p.map φ)) (fun _ _ => rfl)]
    simp [List.flatMap_map]
  unfold netFields at hr
  simp only [List.map_cons, List.map_append, hptr, hptr2, hed, hed2, Field.want, Field.got, Val.kind] at hr
  obtain ⟨v1, s1, o1, a1, a2, a3⟩ := readAs_val hr
  obtain ⟨v2, s2, o2, b1, b2, rfl⟩ := readAs_val a2
  obtain ⟨o3, s3, g3, o4, c1, c2, rfl, c4⟩ := readAs_append b2
  obtain ⟨v5, s5, o5, d1, d2, rfl⟩ := readAs_val c2
  simp only [List.cons.injEq, Got.val.injEq] at a3
  obtain ⟨rfl, rfl, a3⟩ := a3
  obtain ⟨rfl, a4⟩ := List.append_inj a3 (by simp [c4])
  simp only [List.cons.injEq, Got.val.injEq] at a4
  obtain ⟨rfl, rfl⟩ := a4
  have hg3 := readAs_grow (readPtr_grow r S fuel) _ _ _ _ _ _ GRd.Inv.new c1
  have hgf := readAs_grow (readPtr_grow r S fuel) _ _ _ _ _ _ hg3.inv d2
  have e1 := loadPoints_ok hfin (F.map φ) ⟨⟨[], []⟩, []⟩ s2 s3 ⟨[], []⟩ g3 GRd.Inv.new c1 hgf
  have e2 := loadEdges_ok hfin (E.map fun e => (φ e.1, φ e.2)) ⟨⟨(F.map φ).map some, []⟩, F.map φ⟩ s5 s' g3 _ hg3.inv d2
    (Grow.refl hgf.inv)
  refine ⟨(E.map fun e => (φ e.1, φ e.2)).foldl addEdge ⟨⟨(F.map φ).map some, []⟩, F.map φ⟩, ?_, ?_⟩
  · simp only [WayNet.load, readInt_ok a1, readInt_ok b1, readInt_ok d1, bind, Except.bind]
    rw [reserve_ok F.length (by rw [← hF]; exact h.fewPoints)]
    simp only [List.length_map, List.nil_append] at e1 e2
    dsimp only
    rw [e1]
    dsimp only
    rw [readInt_ok d1]
    dsimp only
    rw [reserve_ok E.length h.fewEdges]
    exact e2
  · have hreachF : ∀ a ∈ F, Reach P.objects (netFields F E) a := by
      intro a ha
      have hm : Field.ptr (b!"waypoint" ++ dec (F.idxOf a % 2 ^ 32)) (some a) ∈ netFields F E := by
        simp only [netFields, List.mem_cons, List.mem_append]
        refine .inr (.inr (.inl ?_))
        refine List.mem_map.2 ⟨(some a, F.idxOf a), ?_, rfl⟩
        rw [List.mem_zipIdx_iff_getElem?]
        have := List.idxOf_lt_length_of_mem ha
        simp [List.getElem?_eq_getElem this]
      exact .root hm
    have hreachE : ∀ e ∈ E, Reach P.objects (netFields F E) e.1 ∧ Reach P.objects (netFields F E) e.2 := by
      intro e he
      obtain ⟨i, hi, rfl⟩ := List.mem_iff_getElem.1 he
      have hm : ∀ f ∈ [Field.ptr (b!"wayl" ++ dec (i % 2 ^ 32)) (some E[i].1), Field.ptr (b!"wayr" ++ dec (i % 2 ^ 32)) (some E[i].2)],
          f ∈ netFields F E := by
        intro f hf
        simp only [netFields, List.mem_cons, List.mem_append]
        refine .inr (.inr (.inr (.inr ?_)))
        unfold edgePtrs
        rw [List.mem_flatMap]
        refine ⟨((some E[i].1, some E[i].2), i), ?_, hf⟩
        rw [List.mem_zipIdx_iff_getElem?]
        simp [List.getElem?_eq_getElem hi]
      exact ⟨.root (hm _ List.mem_cons_self), .root (hm _ (List.mem_cons_of_mem _ List.mem_cons_self))⟩
    obtain ⟨extra, x1, x2, x3, x4, x5, x6, x7⟩ := addEdges_spec (E.map fun e => (φ e.1, φ e.2)) ⟨⟨(F.map φ).map some, []⟩, F.map φ⟩
      (by intro n hn; simp [ownersEdges, ownersIn] at hn)
      (by
        intro i n hi
        have hlt := zipIdx_getElem? hi
        simp only [List.length_map] at hlt
        rw [List.getElem?_map, List.getElem?_eq_getElem hlt] at hi
        simp only [Option.map_some, Option.some.injEq, Prod.mk.injEq] at hi
        have hre := hreachE _ (List.getElem_mem hlt)
        have heq := hc.inj _ _ hre.1 hre.2 (hi.1.trans hi.2.symm)
        rcases h.loops i E[i].1 (by rw [List.getElem?_eq_getElem hlt]; exact congrArg some (Prod.ext rfl heq.symm)) with hm | ⟨j, hj, e, he, hje⟩
        · left
          rw [hF] at hm
          rw [← hi.1]
          simp only [List.map_map, List.mem_map]
          exact ⟨_, hm, rfl⟩
        · right
          refine ⟨j, hj, (φ e.1, φ e.2), by rw [List.getElem?_map, he]; rfl, ?_⟩
          rw [← hi.1]
          rcases hje with hje | hje
          · exact .inl (by rw [hje])
          · exact .inr (by rw [hje]))
    refine ⟨?_, x7, extra, ?_, x2, ?_⟩
    · rw [x6, h.edges]
      simp
    · rw [x1]; simp
    · intro n
      constructor
      · intro hn
        obtain ⟨e', he', hne⟩ := x4 n hn
        obtain ⟨e, he, rfl⟩ := List.mem_map.1 he'
        have hnotF : ∀ a, φ a = n → a ∉ F := by
          intro a ha hm
          refine x3 n hn ?_
          rw [← ha]
          simp only [List.map_map, List.mem_map]
          exact ⟨a, hm, rfl⟩
        rcases hne with hne | hne
        · exact ⟨e.1, hne.symm, ⟨(some e.1, some e.2), by rw [h.edges]; exact List.mem_map.2 ⟨e, he, rfl⟩, .inl rfl⟩,
            hnotF _ hne.symm⟩
        · exact ⟨e.2, hne.symm, ⟨(some e.1, some e.2), by rw [h.edges]; exact List.mem_map.2 ⟨e, he, rfl⟩, .inr rfl⟩,
            hnotF _ hne.symm⟩
      · rintro ⟨a, rfl, ⟨e', he', hea⟩, haF⟩
        rw [h.edges] at he'
        obtain ⟨e, he, rfl⟩ := List.mem_map.1 he'
        have hm := x5 _ (List.mem_map.2 ⟨e, he, rfl⟩)
        have hra : Reach P.objects (netFields F E) a := by
          simp only [Option.some.injEq] at hea
          rcases hea with rfl | rfl
          · exact (hreachE e he).1
          · exact (hreachE e he).2
        have hin : some (φ a) ∈ ((E.map fun e => (φ e.1, φ e.2)).foldl addEdge ⟨⟨(F.map φ).map some, []⟩, F.map φ⟩).points := by
          simp only [Option.some.injEq] at hea
          rcases hea with rfl | rfl
          · exact hm.1
          · exact hm.2
        rw [x1] at hin
        simp only [List.mem_append, List.mem_map, List.map_map, Function.comp_apply, Option.some.injEq, exists_eq_right] at hin
        rcases hin with ⟨b, hb, hba⟩ | hin
        · have := hc.inj _ _ (hreachF b hb) hra hba
          subst this
          exact absurd hb haF
        · exact hin

/-- Way nets as object graphs. -/
theorem netGraph {P net dom pts E} (h : NetOk P net dom pts E) {S : Schema} (hS : S .zCWaypoint = WayPoint.load)
    (pv : Bytes → Val → Prop) (q : Bytes → Prop) (hq : ∀ n, Plain n → q n) (hcls : ∀ t c, tableFind classNamesTable t = some c → q c)
    (href : q refClass)
    (hi : ∀ n ∈ [b!"waynetVersion", b!"numWaypoints", b!"numWays"], ∀ k : Nat, k < 2 ^ 31 → pv n (.int (BitVec.ofNat 32 k)))
    (hp : ∀ a p, P a = some p → pv b!"wpName" (.string p.name) ∧ pv b!"waterDepth" (.int p.waterDepth) ∧
      pv b!"underWater" (.bool p.underWater) ∧ pv b!"position" (.vec3 p.position) ∧ pv b!"direction" (.vec3 p.direction)) :
    GraphOk P.objects (netFields (freeOf P pts) E) dom S pv (fun n c _ _ => q n ∧ q c) := by
  have hob : ∀ {a o}, P.objects a = some o → ∃ p, P a = some p ∧ o = ⟨.zCWaypoint, 0, p.fields⟩ := by
    intro a o ho
    simp only [WpHeap.objects, Option.map_eq_some_iff] at ho
    obtain ⟨p, hp, rfl⟩ := ho
    exact ⟨p, hp, rfl⟩
  have hin : ∀ a, (P a).isSome → (P.objects a).isSome := by intro a ha; simpa [WpHeap.objects] using ha
  have hok : ∀ n p, Plain n → (Field.ptr n p).Ok pv (fun n c _ _ => q n ∧ q c) := by
    intro n p hn c _ _ hc
    refine ⟨hq n hn, ?_⟩
    rcases hc with rfl | rfl | ⟨t, ht⟩
    · exact href
    · exact hq _ (by decide)
    · exact hcls t c ht
  refine ⟨?_, h.small, ?_, ?_, ?_, ?_, ?_, ?_⟩
  · intro a o ho
    obtain ⟨p, hp, _⟩ := hob ho
    exact h.finite a p hp
  · intro n a hm
    rcases mem_netFields hm with hm | hm | hm | ⟨k, b, hb, hm⟩ | ⟨k, e, he, hm | hm⟩ <;> cases hm
    · exact hin _ (h.pointsIn _ (List.mem_filter.1 hb).1)
    · exact hin _ (h.edgesIn e he).1
    · exact hin _ (h.edgesIn e he).2
  · intro a o ho n b hb
    obtain ⟨p, _, rfl⟩ := hob ho
    simp [WayPoint.fields] at hb
  · intro a o ho
    obtain ⟨p, _, rfl⟩ := hob ho
    exact ⟨by simp, by simp⟩
  · intro a o ho
    obtain ⟨p, _, rfl⟩ := hob ho
    show Follows (S .zCWaypoint) p.fields
    rw [hS]
    intro k hk
    simp only [WayPoint.fields, List.length_cons, List.length_nil] at hk ⊢
    match k, hk with
    | 0, _ | 1, _ | 2, _ | 3, _ | 4, _ | 5, _ => rfl
  · intro f hf
    rcases mem_netFields hf with rfl | rfl | rfl | ⟨k, b, hb, rfl⟩ | ⟨k, e, he, rfl | rfl⟩
    · exact hi _ (by simp) 1 (by decide)
    · exact hi _ (by simp) _ h.fewPoints
    · exact hi _ (by simp) _ h.fewEdges
    · exact hok _ _ (plain_numbered _ (by decide) (by decide) k)
    · exact hok _ _ (plain_numbered _ (by decide) (by decide) k)
    · exact hok _ _ (plain_numbered _ (by decide) (by decide) k)
  · intro a o ho f hf
    obtain ⟨p, hp', rfl⟩ := hob ho
    obtain ⟨h1, h2, h3, h4, h5⟩ := hp a p hp'
    simp only [WayPoint.fields, List.mem_cons, List.not_mem_nil, or_false] at hf
    rcases hf with rfl | rfl | rfl | rfl | rfl <;> assumption

end Verif
