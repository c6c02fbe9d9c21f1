import Verif.Lemmas.Bsp
import Verif.Lemmas.Reload

/-! # Trees that were loaded -/

namespace Verif.Bsp

open Spec (BTree)

theorem put_inv {st st' : BspParse} {gen i : Nat} {f : BspNode → BspNode} {s s' : Rs} (h : Rd.lift (st.put gen i f) s = .ok (st', s')) :
    st'.nodes = st.nodes.modify i f ∧ st'.leaves = st.leaves ∧ s' = s := by
  rcases put_cases st gen i f s with ⟨_, e⟩ | ⟨_, e⟩
  · rw [e] at h; cases h; exact ⟨rfl, rfl, rfl⟩
  · rw [e] at h; cases h

theorem emplace_nodes (st : BspParse) : st.emplace.nodes = st.nodes ++ [BspNode.fresh] ∧ st.emplace.leaves = st.leaves := by
  unfold BspParse.emplace
  split <;> exact ⟨rfl, rfl⟩

/-- Whatever the capacity was: if the loader got through, the nodes are the list form of the tree in the file. -/
theorem parse_shape (g1 : Bool) (fuel : Nat) : ∀ (st st' : BspParse) (parent : BitVec 32) (leaf : Bool) (s s' s'' : Rs) (t : BTree),
    readTree g1 fuel leaf s = .ok (t, s') → parse g1 fuel st parent leaf s = .ok (st', s'') →
    s'' = s' ∧ st'.nodes = st.nodes ++ t.nodesAt st.nodes.length parent ∧ st'.leaves = st.leaves ++ t.leavesAt st.nodes.length := by
  induction fuel with
  | zero => intro st st' parent leaf s s' s'' t h; cases h
  | succ fuel ih =>
    intro st st' parent leaf s s' s'' t h hp
    unfold readTree at h
    obtain ⟨bbox, s1, e1, h⟩ := Rd.bind_eq_ok h
    obtain ⟨i, s2, e2, h⟩ := Rd.bind_eq_ok h
    obtain ⟨c, s3, e3, h⟩ := Rd.bind_eq_ok h
    rw [parse_unfold, Rd.bind_ok e1, Rd.bind_ok e2, Rd.bind_ok e3] at hp
    obtain ⟨m1, m2⟩ := emplace_nodes st
    obtain ⟨st1, s3', q1, hp⟩ := Rd.bind_eq_ok hp
    obtain ⟨n1, v1, hs⟩ := put_inv q1
    rw [hs] at hp
    clear hs q1
    rw [m1, modify_mid] at n1
    rw [m2] at v1
    cases leaf with
    | true =>
      simp only [if_true, Rd.pure_def, Except.ok.injEq, Prod.mk.injEq] at h hp
      obtain ⟨rfl, rfl⟩ := h
      obtain ⟨rfl, rfl⟩ := hp
      exact ⟨rfl, n1, by rw [v1]; rfl⟩
    | false =>
      simp only [Bool.false_eq_true, if_false] at h hp
      obtain ⟨flags, s4, e4, h⟩ := Rd.bind_eq_ok h
      obtain ⟨w, s5, e5, h⟩ := Rd.bind_eq_ok h
      obtain ⟨x, s6, e6, h⟩ := Rd.bind_eq_ok h
      obtain ⟨y, s7, e7, h⟩ := Rd.bind_eq_ok h
      obtain ⟨z, s8, e8, h⟩ := Rd.bind_eq_ok h
      obtain ⟨lod, s9, e9, h⟩ := Rd.bind_eq_ok h
      obtain ⟨f, s10, e10, h⟩ := Rd.bind_eq_ok h
      obtain ⟨b, s11, e11, h⟩ := Rd.bind_eq_ok h
      simp only [Rd.pure_def, Except.ok.injEq, Prod.mk.injEq] at h
      obtain ⟨rfl, rfl⟩ := h
      unfold innerParse at hp
      rw [Rd.bind_ok e4, Rd.bind_ok e5, Rd.bind_ok e6, Rd.bind_ok e7, Rd.bind_ok e8, Rd.bind_ok e9] at hp
      obtain ⟨st2, s9', q2, hp⟩ := Rd.bind_eq_ok hp
      obtain ⟨n2, v2, hs⟩ := put_inv q2
      rw [hs] at hp
      clear hs q2
      rw [n1, modify_mid] at n2
      rw [v1] at v2
      obtain ⟨st3, s10', q3, hp⟩ := Rd.bind_eq_ok hp
      have hfront : s10' = s10 ∧ st3.nodes = st.nodes ++ ⟨⟨x, y, z, w⟩, bbox, i, c, f.link (st.nodes.length + 1), 0xFFFFFFFF, parent, lod⟩ ::
            f.nodesAt (st.nodes.length + 1) (BitVec.ofNat 32 st.nodes.length) ∧
          st3.leaves = st.leaves ++ f.leavesAt (st.nodes.length + 1) := by
        unfold childParse at q3
        by_cases hf : flags &&& 1 ≠ 0
        · rw [if_pos hf] at e10 q3
          obtain ⟨st4, s4', q4, q3⟩ := Rd.bind_eq_ok q3
          obtain ⟨n4, v4, hs⟩ := put_inv q4
          rw [hs] at q3
          obtain ⟨r1, r2, r3⟩ := ih _ _ _ _ _ _ _ _ e10 q3
          rw [n2, modify_mid] at n4
          rw [n4] at r2 r3
          rw [v4, v2] at r3
          refine ⟨r1, ?_, ?_⟩
          · rw [r2]; simp [link_some (readTree_ne_none e10)]; rfl
          · rw [r3]; simp
        · rw [if_neg hf] at e10 q3
          simp only [Rd.pure_def, Except.ok.injEq, Prod.mk.injEq] at e10 q3
          obtain ⟨rfl, rfl⟩ := e10
          obtain ⟨rfl, rfl⟩ := q3
          refine ⟨rfl, ?_, ?_⟩
          · rw [n2]; simp [BTree.link, BTree.nodesAt, BspNode.fresh]
          · rw [v2]; simp [BTree.leavesAt]
      obtain ⟨hs, n3, v3⟩ := hfront
      rw [hs] at hp
      clear hs q3
      unfold childParse at hp
      by_cases hb : flags &&& 2 ≠ 0
      · rw [if_pos hb] at e11 hp
        obtain ⟨st4, s4', q4, hp⟩ := Rd.bind_eq_ok hp
        obtain ⟨n4, v4, hs⟩ := put_inv q4
        rw [hs] at hp
        obtain ⟨r1, r2, r3⟩ := ih _ _ _ _ _ _ _ _ e11 hp
        rw [n3, modify_mid] at n4
        rw [n4] at r2 r3
        rw [v4, v3] at r3
        refine ⟨r1, ?_, ?_⟩
        · rw [r2]; simp [link_some (readTree_ne_none e11), BTree.nodesAt, nodesAt_length, Nat.add_assoc, Nat.add_comm 1]
        · rw [r3]; simp [BTree.leavesAt, nodesAt_length, Nat.add_assoc, Nat.add_comm 1]
      · rw [if_neg hb] at e11 hp
        simp only [Rd.pure_def, Except.ok.injEq, Prod.mk.injEq] at e11 hp
        obtain ⟨rfl, rfl⟩ := e11
        obtain ⟨rfl, rfl⟩ := hp
        refine ⟨rfl, ?_, ?_⟩
        · rw [n3]; simp [BTree.link, BTree.nodesAt]
        · rw [v3]; simp [BTree.leavesAt]

/-- A tree that was read keeps the rule for levels of detail, and has few nodes. -/
theorem readTree_facts (g1 : Bool) (data : Bytes) (fuel : Nat) : ∀ leaf pos t s, pos ≤ data.length → readTree g1 fuel leaf ⟨data, pos⟩ = .ok (t, s) →
    ∃ q, s = ⟨data, q⟩ ∧ pos ≤ q ∧ q ≤ data.length ∧ t.Lod g1 ∧ t.size ≤ 2 * (q - pos) + 1 := by
  induction fuel with
  | zero => intro _ _ _ _ _ h; cases h
  | succ fuel ih =>
    intro leaf pos t s hp h
    obtain ⟨bbox, p1, e1, a1, b1⟩ := aabb_ok data pos hp
    obtain ⟨i, p2, e2, a2, b2⟩ := u32_ok data p1 b1
    obtain ⟨c, p3, e3, a3, b3⟩ := u32_ok data p2 b2
    unfold readTree at h
    rw [Rd.bind_ok e1, Rd.bind_ok e2, Rd.bind_ok e3] at h
    cases leaf with
    | true =>
      cases h
      exact ⟨p3, rfl, by omega, b3, trivial, by simp only [BTree.size]; omega⟩
    | false =>
      simp only [Bool.false_eq_true, if_false] at h
      obtain ⟨flags, p4, e4, a4, b4, f4⟩ := u8_ok data p3 b3
      obtain ⟨w, p5, e5, a5, b5⟩ := u32_ok data p4 b4
      obtain ⟨x, p6, e6, a6, b6⟩ := u32_ok data p5 b5
      obtain ⟨y, p7, e7, a7, b7⟩ := u32_ok data p6 b6
      obtain ⟨z, p8, e8, a8, b8⟩ := u32_ok data p7 b7
      have h9 : ∃ lod p9, (if g1 then Rd.u8 else return 0 : Rd (BitVec 8)) ⟨data, p8⟩ = .ok (lod, ⟨data, p9⟩) ∧ p8 ≤ p9 ∧
          p9 ≤ data.length ∧ (g1 = false → lod = 0) := by
        cases g1 with
        | true => obtain ⟨v, q, e, h1, h2, _⟩ := u8_ok data p8 b8; exact ⟨v, q, e, h1, h2, by simp⟩
        | false => exact ⟨0, p8, rfl, Nat.le_refl _, b8, fun _ => rfl⟩
      obtain ⟨lod, p9, e9, a9, b9, c9⟩ := h9
      rw [Rd.bind_ok e4, Rd.bind_ok (show Rd.f32 _ = _ from e5), Rd.bind_ok (show Rd.f32 _ = _ from e6),
        Rd.bind_ok (show Rd.f32 _ = _ from e7), Rd.bind_ok (show Rd.f32 _ = _ from e8), Rd.bind_ok e9] at h
      have child (m k : BitVec 8) (o : Nat) (ho : o ≤ data.length) (f : BTree) (s : Rs)
          (e : (if flags &&& m ≠ 0 then readTree g1 fuel (flags &&& k ≠ 0) else return .none : Rd BTree) ⟨data, o⟩ = .ok (f, s)) :
          ∃ o', s = ⟨data, o'⟩ ∧ o ≤ o' ∧ o' ≤ data.length ∧ f.Lod g1 ∧
            ((flags = 0 ∧ f.size = 0) ∨ (flags ≠ 0 ∧ f.size ≤ 2 * (o' - o) + 1)) := by
        by_cases h : flags &&& m ≠ 0
        · rw [if_pos h] at e
          have hz : flags ≠ 0 := fun hz => h (by rw [hz]; simp)
          obtain ⟨q', rfl, l1, l2, r1, r2⟩ := ih _ _ _ _ ho e
          exact ⟨q', rfl, l1, l2, r1, .inr ⟨hz, r2⟩⟩
        · rw [if_neg h] at e
          cases e
          refine ⟨o, rfl, Nat.le_refl _, ho, trivial, ?_⟩
          by_cases hz : flags = 0
          · exact .inl ⟨hz, rfl⟩
          · exact .inr ⟨hz, by simp [BTree.size]⟩
      obtain ⟨f, s10, e10, h⟩ := Rd.bind_eq_ok h
      obtain ⟨p10, rfl, a10, b10, l10, z10⟩ := child 1 4 p9 b9 f s10 e10
      obtain ⟨b, s11, e11, h⟩ := Rd.bind_eq_ok h
      obtain ⟨p11, rfl, a11, b11, l11, z11⟩ := child 2 8 p10 b10 b s11 e11
      cases h
      refine ⟨p11, rfl, by omega, b11, ⟨c9, l10, l11⟩, ?_⟩
      simp only [BTree.size]
      rcases z10 with ⟨hz, z10⟩ | ⟨hz, z10⟩
      · rcases z11 with ⟨_, z11⟩ | ⟨hz', _⟩
        · omega
        · exact absurd hz hz'
      · have := f4 hz
        rcases z11 with ⟨hz', _⟩ | ⟨_, z11⟩
        · exact absurd hz' hz
        · omega

theorem leavesAt_bounds (t : BTree) : ∀ k x, x ∈ t.leavesAt k → k ≤ x ∧ x < k + t.size := by
  induction t with
  | none => intro k x h; cases h
  | leaf => intro k x h; simp only [BTree.leavesAt, List.mem_singleton] at h; simp only [BTree.size]; omega
  | inner _ _ _ _ _ f b ihf ihb =>
    intro k x h
    simp only [BTree.leavesAt, List.mem_append] at h
    simp only [BTree.size]
    rcases h with h | h
    · have := ihf _ _ h; omega
    · have := ihb _ _ h; omega

/-- If the nodes without children are the leaves, every inner node has a child. -/
theorem proper_of (t : BTree) : ∀ k parent, (∀ i n, (t.nodesAt k parent)[i]? = some n → n.isLeaf = true → k + i ∈ t.leavesAt k) → t.Proper := by
  induction t with
  | none => intro _ _ _; trivial
  | leaf => intro _ _ _; trivial
  | inner bbox i c p l f b ihf ihb =>
    intro k parent h
    simp only [BTree.nodesAt, BTree.leavesAt] at h
    refine ⟨?_, ihf (k + 1) (BitVec.ofNat 32 k) fun j n hn hl => ?_, ihb (k + 1 + f.size) (BitVec.ofNat 32 k) fun j n hn hl => ?_⟩
    · by_cases hf : f = .none
      · by_cases hb : b = .none
        · exfalso
          subst hf hb
          have := h 0 _ rfl rfl
          simp [BTree.leavesAt] at this
        · exact .inr hb
      · exact .inl hf
    · have hj : j < f.size := by
        have := (List.getElem?_eq_some_iff.1 hn).1
        rwa [nodesAt_length] at this
      have := h (j + 1) n (by
        rw [List.getElem?_cons_succ, List.getElem?_append_left (by rw [nodesAt_length]; exact hj)]
        exact hn) hl
      rcases List.mem_append.1 this with hm | hm
      · rwa [show k + 1 + j = k + (j + 1) by omega]
      · have := leavesAt_bounds b _ _ hm
        omega
    · have := h (j + f.size + 1) n (by
        rw [List.getElem?_cons_succ, List.getElem?_append_right (by rw [nodesAt_length]; omega), nodesAt_length]
        rwa [Nat.add_sub_cancel]) hl
      rcases List.mem_append.1 this with hm | hm
      · have := leavesAt_bounds f _ _ hm
        omega
      · rwa [show k + 1 + f.size + j = k + (j + f.size + 1) by omega]

/-- What holds of a tree that is loaded from `n` bytes into a new object. -/
structure From (g1 : Bool) (n : Nat) (b : Bsp) : Prop where
  names : ∀ s ∈ b.sectors, NoEol s.name ∧ s.nodeIndices.length < 2 ^ 32 ∧ s.portalIndices.length < 2 ^ 32
  sorted : b.leafPolygons.Pairwise fun x y => x.toNat ≤ y.toNat
  tree : (b.nodes = [] ∧ b.leafNodes = []) ∨
    (∃ t : BTree, b.nodes = t.nodesAt 0 0xFFFFFFFF ∧ b.leafNodes = t.leavesAt 0 ∧ t ≠ .none ∧ t.Lod g1 ∧ t.size ≤ 2 * n + 1) ∨
    ∃ i x, 0 < i ∧ b.nodes[i]? = some x ∧ x.parentIndex = 0xFFFFFFFF

theorem sortU32_sorted (l : List (BitVec 32)) : (sortU32 l).Pairwise fun a b => a.toNat ≤ b.toNat := by
  have := List.pairwise_mergeSort (le := fun a b : BitVec 32 => decide (a.toNat ≤ b.toNat))
    (by intro a b c h1 h2; simp only [decide_eq_true_eq] at *; omega)
    (by intro a b; simp only [Bool.or_eq_true, decide_eq_true_eq]; omega) l
  simpa [sortU32] using this

theorem root_parent (t : BTree) (ht : t ≠ .none) (k : Nat) (p : BitVec 32) : ∃ x, (t.nodesAt k p)[0]? = some x ∧ x.parentIndex = p := by
  cases t with
  | none => exact absurd rfl ht
  | leaf => exact ⟨_, rfl, rfl⟩
  | inner => exact ⟨_, rfl, rfl⟩

theorem onTree_from {g1 : Bool} {data : Bytes} (hd : data.length < 2 ^ 32) (b : Bsp) (hb : b.From g1 data.length) :
    EatsAt data (onTree g1 b) fun r _ => r.From g1 data.length := by
  unfold onTree
  refine (EatsAt.of_fwd hd Fwd.u32).bind fun n _ _ => (EatsAt.of_fwd hd Fwd.u32).bind fun _ _ _ => ?_
  refine EatsAt.bind (R := fun st _ => ∃ t : BTree, st.nodes = b.nodes ++ t.nodesAt b.nodes.length 0xFFFFFFFF ∧
    st.leaves = b.leafNodes ++ t.leavesAt b.nodes.length ∧ t ≠ .none ∧ t.Lod g1 ∧ t.size ≤ 2 * data.length + 1) ?_ ?_
  · intro pos st s hp h
    dsimp only at h
    obtain ⟨t, q, e, l1, l2⟩ := readTree_ok g1 data (data.length - pos + 1) (n == 1) pos hp (by omega)
    obtain ⟨q', e', _, _, k3, k4⟩ := readTree_facts g1 data _ _ _ _ _ hp e
    obtain ⟨rfl, r2, r3⟩ := parse_shape g1 _ _ _ _ _ _ _ _ _ e h
    cases e'
    exact ⟨rfl, l1, l2, t, r2, r3, readTree_ne_none e, k3, by omega⟩
  · rintro st m ⟨t, h1, h2, h3, h4, h5⟩
    refine EatsAt.bind (R := fun _ _ => True) ?_ fun polys _ _ => .pure ⟨hb.names, sortU32_sorted _, ?_⟩
    · intro pos a s hp h
      unfold Rd.lift at h
      cases hg : gather b.polygonIndices st.nodes st.leaves with
      | error x => rw [hg] at h; cases h
      | ok x => rw [hg] at h; cases h; exact ⟨rfl, Nat.le_refl _, hp, trivial⟩
    · dsimp only
      have hroot : b.nodes ≠ [] → ∃ i x, 0 < i ∧ st.nodes[i]? = some x ∧ x.parentIndex = 0xFFFFFFFF := by
        intro hne
        obtain ⟨x, hx, hxp⟩ := root_parent t h3 b.nodes.length 0xFFFFFFFF
        refine ⟨b.nodes.length, x, List.length_pos_iff.2 hne, ?_, hxp⟩
        rw [h1, List.getElem?_append_right (Nat.le_refl _), Nat.sub_self]
        exact hx
      by_cases hn : b.nodes = []
      · rcases hb.tree with ⟨_, hl⟩ | ⟨t', ht', _, hne, _⟩ | ⟨i, x, _, hx, _⟩
        · rw [hn, List.length_nil, List.nil_append] at h1
          rw [hn, hl, List.length_nil, List.nil_append] at h2
          exact .inr (.inl ⟨t, h1, h2, h3, h4, h5⟩)
        · obtain ⟨x, hx, _⟩ := root_parent t' hne 0 0xFFFFFFFF
          rw [← ht', hn] at hx
          cases hx
        · rw [hn] at hx; cases hx
      · exact .inr (.inr (hroot hn))

theorem u32s_eats {data : Bytes} (hd : data.length < 2 ^ 32) (n : Nat) :
    EatsAt data (Rd.times Rd.u32 n) fun as _ => as.length = n := by
  have := EatsAt.times (Q := fun _ => True) (size := fun _ => 0) (p := Rd.u32) (data := data) (by
    intro pos a s hp e
    obtain ⟨q, rfl, l1, l2, _⟩ := (EatsAt.of_fwd hd Fwd.u32).step hp e
    exact ⟨rfl, l1, l2, trivial, Nat.zero_le _⟩) n
  intro pos a s hp e
  obtain ⟨q, rfl, l1, l2, h, _⟩ := this.step hp e
  exact ⟨rfl, l1, l2, h⟩

theorem sector_eats {data : Bytes} (hd : data.length < 2 ^ 32) :
    EatsAt data BspSector.load fun s k => (NoEol s.name ∧ s.nodeIndices.length < 2 ^ 32 ∧ s.portalIndices.length < 2 ^ 32) ∧ 0 ≤ k :=
  EatsAt.line.bind fun _ _ ⟨h1, _⟩ => (EatsAt.of_fwd hd Fwd.u32).bind fun n _ _ => (EatsAt.of_fwd hd Fwd.u32).bind fun p _ _ =>
    (u32s_eats hd n.toNat).bind fun _ _ hn => (u32s_eats hd p.toNat).bind fun _ _ hp =>
      .pure ⟨⟨h1, by dsimp only; rw [hn]; exact n.isLt, by dsimp only; rw [hp]; exact p.isLt⟩, Nat.zero_le _⟩

theorem onChunk_from {g1 : Bool} {data : Bytes} (hd : data.length < 2 ^ 32) (b : Bsp) (t : BitVec 16) (hb : b.From g1 data.length) :
    EatsAt data (onChunk g1 b t) fun r _ => r.1.From g1 data.length := by
  unfold onChunk
  split
  · exact (EatsAt.of_fwd hd Fwd.u16).bind fun _ _ _ => (EatsAt.of_fwd hd Fwd.u32).bind fun _ _ _ => .pure ⟨hb.names, hb.sorted, hb.tree⟩
  split
  · exact (EatsAt.of_fwd hd Fwd.u32).bind fun n _ _ => (u32s_eats hd n.toNat).bind fun _ _ _ => .pure ⟨hb.names, hb.sorted, hb.tree⟩
  split
  · exact (onTree_from hd b hb).bind fun _ _ h => .pure h
  split
  · refine (EatsAt.times (Q := fun _ => True) (size := fun _ => 0) ?_ _).bind fun _ _ _ => .pure ⟨hb.names, hb.sorted, hb.tree⟩
    intro pos a s hp e
    obtain ⟨q, rfl, l1, l2, _⟩ := (EatsAt.of_fwd hd Fwd.vec3).step hp e
    exact ⟨rfl, l1, l2, trivial, Nat.zero_le _⟩
  split
  · refine (EatsAt.of_fwd hd Fwd.u32).bind fun n _ _ => ((sector_eats hd).times (size := fun _ => 0) n.toNat).bind fun ss _ hs =>
      (EatsAt.of_fwd hd Fwd.u32).bind fun k _ _ => (u32s_eats hd k.toNat).bind fun _ _ _ => .pure ⟨?_, hb.sorted, hb.tree⟩
    intro s h
    rcases List.mem_append.1 h with h | h
    · exact hb.names s h
    · exact hs.2.1 s h
  split
  · exact (EatsAt.of_fwd hd Fwd.u8).bind fun _ _ _ => .pure hb
  exact .pure hb

theorem load_from {g1 : Bool} {data : Bytes} (hd : data.length < 2 ^ 32) {b b' : Bsp} (hb : b.From g1 data.length) {pos : Nat}
    (hp : pos ≤ data.length) {st : Rs} (e : b.load g1 ⟨data, pos⟩ = .ok (b', st)) : b'.From g1 data.length :=
  EatsAt.chunked (I := From g1 data.length) hd (onChunk_from hd) hb hp e

end Verif.Bsp
