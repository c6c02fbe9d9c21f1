import Verif.Spec.Bsp
import Verif.Lemmas.Line
import Verif.Lemmas.Chunked
import Verif.Lemmas.Boxes
import Verif.Lemmas.Font

/-! # Lemmas about BSP trees -/

namespace Verif

open Spec (BTree)

theorem Rd.bind_eq_ok {α β} {p : Rd α} {f : α → Rd β} {s : Rs} {r : β × Rs} (h : (p >>= f) s = .ok r) :
    ∃ a s', p s = .ok (a, s') ∧ f a s' = .ok r := by
  rw [Rd.bind_def] at h
  cases hp : p s with
  | error e => rw [hp] at h; simp at h
  | ok x => rw [hp] at h; exact ⟨x.1, x.2, rfl, h⟩

namespace Bsp

/-- Reading a tree as a tree. -/
def readTree (g1 : Bool) : Nat → Bool → Rd BTree
  | 0, _ => Rd.fail .hang
  | fuel + 1, leaf => do
    let bbox ← Aabb.load
    let polygonIndex ← Rd.u32
    let polygonCount ← Rd.u32
    if leaf then return .leaf bbox polygonIndex polygonCount
    else do
      let flags ← Rd.u8
      let w ← Rd.f32
      let x ← Rd.f32
      let y ← Rd.f32
      let z ← Rd.f32
      let lod ← (if g1 then Rd.u8 else return 0)
      let f ← (if flags &&& 1 ≠ 0 then readTree g1 fuel (flags &&& 4 ≠ 0) else return .none)
      let b ← (if flags &&& 2 ≠ 0 then readTree g1 fuel (flags &&& 8 ≠ 0) else return .none)
      return .inner bbox polygonIndex polygonCount ⟨x, y, z, w⟩ lod f b

theorem modify_mid {α} (a : List α) (n : α) (b : List α) (f : α → α) : (a ++ n :: b).modify a.length f = a ++ f n :: b := by
  induction a with
  | nil => rfl
  | cons x a ih => simp [List.modify_succ_cons, ih]

theorem readTree_ne_none {g1 : Bool} {fuel : Nat} {leaf : Bool} {s s' : Rs} {t : BTree}
    (h : readTree g1 fuel leaf s = .ok (t, s')) : t ≠ .none := by
  cases fuel with
  | zero => cases h
  | succ fuel =>
    unfold readTree at h
    obtain ⟨bbox, s1, _, h⟩ := Rd.bind_eq_ok h
    obtain ⟨i, s2, _, h⟩ := Rd.bind_eq_ok h
    obtain ⟨c, s3, _, h⟩ := Rd.bind_eq_ok h
    cases leaf with
    | true =>
      simp only [if_true, Rd.pure_def, Except.ok.injEq, Prod.mk.injEq] at h
      rw [← h.1]; simp
    | false =>
      simp only [Bool.false_eq_true, if_false] at h
      obtain ⟨_, s4, _, h⟩ := Rd.bind_eq_ok h
      obtain ⟨_, s5, _, h⟩ := Rd.bind_eq_ok h
      obtain ⟨_, s6, _, h⟩ := Rd.bind_eq_ok h
      obtain ⟨_, s7, _, h⟩ := Rd.bind_eq_ok h
      obtain ⟨_, s8, _, h⟩ := Rd.bind_eq_ok h
      obtain ⟨_, s9, _, h⟩ := Rd.bind_eq_ok h
      obtain ⟨_, s10, _, h⟩ := Rd.bind_eq_ok h
      obtain ⟨_, s11, _, h⟩ := Rd.bind_eq_ok h
      simp only [Rd.pure_def, Except.ok.injEq, Prod.mk.injEq] at h
      rw [← h.1]; simp

theorem link_some {t : BTree} (h : t ≠ .none) (k : Nat) : t.link k = BitVec.ofNat 32 k := by
  cases t <;> simp_all [BTree.link]

theorem nodesAt_length (t : BTree) (k : Nat) (p : BitVec 32) : (t.nodesAt k p).length = t.size := by
  induction t generalizing k p with
  | none => rfl
  | leaf => rfl
  | inner _ _ _ _ _ f b ihf ihb => simp [BTree.nodesAt, BTree.size, ihf, ihb]; omega

/-- With room for all nodes, the loader produces the list form of the tree in the file. -/
theorem parse_eq (g1 : Bool) (fuel : Nat) : ∀ (st : BspParse) (parent : BitVec 32) (leaf : Bool) (s s' : Rs) (t : BTree),
    readTree g1 fuel leaf s = .ok (t, s') → st.nodes.length + t.size ≤ st.cap →
    parse g1 fuel st parent leaf s = .ok (⟨st.nodes ++ t.nodesAt st.nodes.length parent,
      st.leaves ++ t.leavesAt st.nodes.length, st.cap, st.gen⟩, s') := by
  induction fuel with
  | zero => intro st parent leaf s s' t h; cases h
  | succ fuel ih =>
    intro st parent leaf s s' t h hcap
    obtain ⟨nodes, leaves, cap, gen⟩ := st
    unfold readTree at h
    obtain ⟨bbox, s1, e1, h⟩ := Rd.bind_eq_ok h
    obtain ⟨i, s2, e2, h⟩ := Rd.bind_eq_ok h
    obtain ⟨c, s3, e3, h⟩ := Rd.bind_eq_ok h
    unfold parse
    rw [Rd.bind_ok e1, Rd.bind_ok e2, Rd.bind_ok e3]
    have hput (n : BspNode) (more : List BspNode) (lv : List Nat) (f : BspNode → BspNode) (s : Rs) :
        Rd.lift (BspParse.put ⟨nodes ++ n :: more, lv, cap, gen⟩ gen nodes.length f) s =
          .ok (⟨nodes ++ f n :: more, lv, cap, gen⟩, s) := by
      simp only [BspParse.put, if_true, modify_mid]
      rfl
    cases leaf with
    | true =>
      simp only [if_true, Rd.pure_def, Except.ok.injEq, Prod.mk.injEq] at h
      obtain ⟨rfl, rfl⟩ := h
      simp only [BTree.size] at hcap
      have hemp : BspParse.emplace ⟨nodes, leaves, cap, gen⟩ = ⟨nodes ++ [BspNode.fresh], leaves, cap, gen⟩ := by
        unfold BspParse.emplace; rw [if_pos (by dsimp only; omega)]
      rw [hemp]
      dsimp only
      rw [Rd.bind_ok (hput _ _ _ _ _)]
      rfl
    | false =>
      simp only [Bool.false_eq_true, if_false] at h
      obtain ⟨flags, s4, e4, h⟩ := Rd.bind_eq_ok h
      obtain ⟨w, s5, e5, h⟩ := Rd.bind_eq_ok h
      obtain ⟨x, s6, e6, h⟩ := Rd.bind_eq_ok h
      obtain ⟨y, s7, e7, h⟩ := Rd.bind_eq_ok h
      obtain ⟨z, s8, e8, h⟩ := Rd.bind_eq_ok h
      obtain ⟨lod, s9, e9, h⟩ := Rd.bind_eq_ok h
      obtain ⟨f, s10, e10, h⟩ := Rd.bind_eq_ok h
      obtain ⟨b, s11, e11, h⟩ := Rd.bind_eq_ok h
      simp only [Rd.pure_def, Except.ok.injEq, Prod.mk.injEq] at h
      obtain ⟨rfl, rfl⟩ := h
      simp only [BTree.size] at hcap
      have hemp : BspParse.emplace ⟨nodes, leaves, cap, gen⟩ = ⟨nodes ++ [BspNode.fresh], leaves, cap, gen⟩ := by
        unfold BspParse.emplace; rw [if_pos (by dsimp only at hcap ⊢; omega)]
      rw [hemp]
      dsimp only at hcap ⊢
      rw [Rd.bind_ok (hput _ _ _ _ _)]
      simp only [Bool.false_eq_true, if_false]
      rw [Rd.bind_ok e4, Rd.bind_ok e5, Rd.bind_ok e6, Rd.bind_ok e7, Rd.bind_ok e8, Rd.bind_ok e9, Rd.bind_ok (hput _ _ _ _ _)]
      -- the front child
      have hfront : (if flags &&& 1 ≠ 0 then (do
          let st ← Rd.lift (BspParse.put ⟨nodes ++ [{ { BspNode.fresh with parentIndex := parent, bbox, polygonIndex := i, polygonCount := c } with plane := ⟨x, y, z, w⟩, lod }], leaves, cap, gen⟩ gen nodes.length
            fun n => { n with frontIndex := BitVec.ofNat 32 (nodes ++ [{ { BspNode.fresh with parentIndex := parent, bbox, polygonIndex := i, polygonCount := c } with plane := ⟨x, y, z, w⟩, lod }]).length })
          parse g1 fuel st (BitVec.ofNat 32 nodes.length) (flags &&& 4 ≠ 0) : Rd BspParse)
          else return ⟨nodes ++ [{ { BspNode.fresh with parentIndex := parent, bbox, polygonIndex := i, polygonCount := c } with plane := ⟨x, y, z, w⟩, lod }], leaves, cap, gen⟩) s9 =
          .ok (⟨nodes ++ ⟨⟨x, y, z, w⟩, bbox, i, c, f.link (nodes.length + 1), 0xFFFFFFFF, parent, lod⟩ ::
            f.nodesAt (nodes.length + 1) (BitVec.ofNat 32 nodes.length), leaves ++ f.leavesAt (nodes.length + 1), cap, gen⟩, s10) := by
        by_cases hf : flags &&& 1 ≠ 0
        · rw [if_pos hf] at e10 ⊢
          rw [Rd.bind_ok (hput _ _ _ _ _)]
          rw [ih _ _ _ _ _ _ e10 (by simp; omega)]
          simp [link_some (readTree_ne_none e10)]
          rfl
        · rw [if_neg hf] at e10 ⊢
          simp only [Rd.pure_def, Except.ok.injEq, Prod.mk.injEq] at e10
          obtain ⟨rfl, rfl⟩ := e10
          simp [BTree.link, BTree.nodesAt, BTree.leavesAt, BspNode.fresh]
      rw [Rd.bind_ok hfront]
      by_cases hb : flags &&& 2 ≠ 0
      · rw [if_pos hb] at e11 ⊢
        rw [Rd.bind_ok (hput _ _ _ _ _)]
        rw [ih _ _ _ _ _ _ e11 (by simp [nodesAt_length]; omega)]
        simp [link_some (readTree_ne_none e11), BTree.nodesAt, BTree.leavesAt, nodesAt_length, Nat.add_assoc, Nat.add_comm 1]
      · rw [if_neg hb] at e11 ⊢
        simp only [Rd.pure_def, Except.ok.injEq, Prod.mk.injEq] at e11
        obtain ⟨rfl, rfl⟩ := e11
        simp [BTree.link, BTree.nodesAt, BTree.leavesAt]

/-! ## Reading ends -/

theorem u8_end (data : Bytes) : Rd.u8 ⟨data, data.length⟩ = .ok (0, ⟨data, data.length⟩) := by
  have h : Rd.readPadded 1 ⟨data, data.length⟩ = .ok ([0], ⟨data, data.length⟩) := by
    unfold Rd.readPadded
    rw [Rd.read_eq _ _ (Nat.le_refl _)]
    have e : min (data.length + 1) data.length = data.length := by omega
    simp only [List.drop_length, List.take_nil, e]
    rfl
  unfold Rd.u8 Rd.word
  rw [Rd.bind_ok h]
  rfl

theorem aabb_ok (data : Bytes) (p : Nat) (hp : p ≤ data.length) :
    ∃ v q, Aabb.load ⟨data, p⟩ = .ok (v, ⟨data, q⟩) ∧ p ≤ q ∧ q ≤ data.length := by
  obtain ⟨a, e1⟩ := Obb.vec3_ok data p hp
  obtain ⟨b, e2⟩ := Obb.vec3_ok data (min (p + 12) data.length) (by omega)
  exact ⟨⟨a, b⟩, _, by unfold Aabb.load; rw [Rd.bind_ok e1, Rd.bind_ok e2]; rfl, by omega, by omega⟩

theorem u32_ok (data : Bytes) (p : Nat) (hp : p ≤ data.length) :
    ∃ v q, Rd.u32 ⟨data, p⟩ = .ok (v, ⟨data, q⟩) ∧ p ≤ q ∧ q ≤ data.length := by
  obtain ⟨v, e⟩ := Rd.word_ok 32 4 data p hp
  exact ⟨v, _, e, by omega, by omega⟩

theorem u8_ok (data : Bytes) (p : Nat) (hp : p ≤ data.length) :
    ∃ v q, Rd.u8 ⟨data, p⟩ = .ok (v, ⟨data, q⟩) ∧ p ≤ q ∧ q ≤ data.length ∧ (v ≠ 0 → p < q) := by
  by_cases h : p = data.length
  · subst h
    exact ⟨_, _, u8_end data, Nat.le_refl _, Nat.le_refl _, fun h => absurd rfl h⟩
  · obtain ⟨v, e⟩ := Rd.word_ok 8 1 data p hp
    exact ⟨v, _, e, by omega, by omega, fun _ => by omega⟩

theorem readTree_ok (g1 : Bool) (data : Bytes) (fuel : Nat) : ∀ leaf pos, pos ≤ data.length → data.length - pos < fuel →
    ∃ t q, readTree g1 fuel leaf ⟨data, pos⟩ = .ok (t, ⟨data, q⟩) ∧ pos ≤ q ∧ q ≤ data.length := by
  induction fuel with
  | zero => intro _ pos _ h; omega
  | succ fuel ih =>
    intro leaf pos hp hf
    obtain ⟨bbox, p1, e1, a1, b1⟩ := aabb_ok data pos hp
    obtain ⟨i, p2, e2, a2, b2⟩ := u32_ok data p1 b1
    obtain ⟨c, p3, e3, a3, b3⟩ := u32_ok data p2 b2
    unfold readTree
    rw [Rd.bind_ok e1, Rd.bind_ok e2, Rd.bind_ok e3]
    cases leaf with
    | true => exact ⟨_, p3, rfl, by omega, b3⟩
    | false =>
      simp only [Bool.false_eq_true, if_false]
      obtain ⟨flags, p4, e4, a4, b4, f4⟩ := u8_ok data p3 b3
      obtain ⟨w, p5, e5, a5, b5⟩ := u32_ok data p4 b4
      obtain ⟨x, p6, e6, a6, b6⟩ := u32_ok data p5 b5
      obtain ⟨y, p7, e7, a7, b7⟩ := u32_ok data p6 b6
      obtain ⟨z, p8, e8, a8, b8⟩ := u32_ok data p7 b7
      have h9 : ∃ lod p9, (if g1 then Rd.u8 else return 0 : Rd (BitVec 8)) ⟨data, p8⟩ = .ok (lod, ⟨data, p9⟩) ∧ p8 ≤ p9 ∧
          p9 ≤ data.length := by
        cases g1 with
        | true => obtain ⟨v, q, e, h1, h2, _⟩ := u8_ok data p8 b8; exact ⟨v, q, e, h1, h2⟩
        | false => exact ⟨0, p8, rfl, Nat.le_refl _, b8⟩
      obtain ⟨lod, p9, e9, a9, b9⟩ := h9
      rw [Rd.bind_ok e4, Rd.bind_ok (show Rd.f32 _ = _ from e5), Rd.bind_ok (show Rd.f32 _ = _ from e6),
        Rd.bind_ok (show Rd.f32 _ = _ from e7), Rd.bind_ok (show Rd.f32 _ = _ from e8), Rd.bind_ok e9]
      have child (m k : BitVec 8) (hm : m ≠ 0) (q : Nat) (hq : q ≤ data.length) (hpq : p9 ≤ q) :
          ∃ t q', (if flags &&& m ≠ 0 then readTree g1 fuel (flags &&& k ≠ 0) else return .none : Rd BTree) ⟨data, q⟩ =
            .ok (t, ⟨data, q'⟩) ∧ q ≤ q' ∧ q' ≤ data.length := by
        by_cases h : flags &&& m ≠ 0
        · rw [if_pos h]
          have hz : flags ≠ 0 := fun hz => h (by rw [hz]; simp)
          have := f4 hz
          exact ih _ q hq (by omega)
        · rw [if_neg h]
          exact ⟨.none, q, rfl, Nat.le_refl _, hq⟩
      obtain ⟨f, p10, e10, a10, b10⟩ := child 1 4 (by decide) p9 b9 (Nat.le_refl _)
      obtain ⟨b, p11, e11, a11, b11⟩ := child 2 8 (by decide) p10 b10 a10
      rw [Rd.bind_ok e10, Rd.bind_ok e11]
      exact ⟨_, p11, rfl, by omega, b11⟩

/-! ## The bytes of a tree -/

/-- The flags for the children of a node. -/
def flagsOf (f b : BTree) : BitVec 8 :=
  (if f = .none then 0 else 1 ||| if f.isLeaf then 4 else 0) ||| (if b = .none then 0 else 2 ||| if b.isLeaf then 8 else 0)

/-- The bytes of a tree. -/
def encTree (g1 : Bool) : BTree → Bytes
  | .none => []
  | .leaf bbox i c => bbox.enc ++ (encW 4 i ++ encW 4 c)
  | .inner bbox i c plane lod f b => bbox.enc ++ (encW 4 i ++ (encW 4 c ++ (encW 1 (flagsOf f b) ++ (encW 4 plane.w ++
      (encW 4 plane.x ++ (encW 4 plane.y ++ (encW 4 plane.z ++ ((if g1 then encW 1 lod else []) ++
        (encTree g1 f ++ encTree g1 b)))))))))

theorem flagsOf_bits (f b : BTree) : (flagsOf f b &&& 1 ≠ 0 ↔ f ≠ .none) ∧ (flagsOf f b &&& 2 ≠ 0 ↔ b ≠ .none) ∧
    (f ≠ .none → decide (flagsOf f b &&& 4 ≠ 0) = f.isLeaf) ∧ (b ≠ .none → decide (flagsOf f b &&& 8 ≠ 0) = b.isLeaf) := by
  unfold flagsOf
  by_cases hf : f = .none <;> by_cases hb : b = .none <;> cases hfl : f.isLeaf <;> cases hbl : b.isLeaf <;>
    simp [hf, hb]

theorem readTree_reads (g1 : Bool) (t : BTree) : ∀ fuel, t ≠ .none → t.Lod g1 → t.size ≤ fuel →
    Reads (readTree g1 fuel t.isLeaf) (encTree g1 t) t := by
  induction t with
  | none => intro _ h; exact absurd rfl h
  | leaf bbox i c =>
    intro fuel _ _ hs
    cases fuel with
    | zero => simp [BTree.size] at hs
    | succ fuel =>
      unfold readTree
      refine (Reads.aabb _).bind ((Reads.u32 _).bind ((Reads.u32 _).bind_pure.congr rfl rfl))
  | inner bbox i c plane lod f b ihf ihb =>
    intro fuel _ hl hs
    simp only [BTree.size] at hs
    simp only [BTree.Lod] at hl
    cases fuel with
    | zero => omega
    | succ fuel =>
      unfold readTree
      simp only [BTree.isLeaf, Bool.false_eq_true, if_false, encTree]
      refine (Reads.aabb _).bind ((Reads.u32 _).bind ((Reads.u32 _).bind ((Reads.u8 _).bind ((Reads.f32 _).bind
        ((Reads.f32 _).bind ((Reads.f32 _).bind ((Reads.f32 _).bind (Reads.bind (a := lod) ?_ (Reads.bind (a := f) ?_
          (Reads.bind_pure (a := b) ?_))))))))))
      · cases g1 with
        | true => exact Reads.u8 _
        | false => rw [hl.1 rfl]; exact Reads.pure _
      · by_cases hf : f = .none
        · have : ¬ (flagsOf f b &&& 1 ≠ 0) := by rw [(flagsOf_bits f b).1]; simpa using hf
          rw [if_neg this, hf]
          exact Reads.pure _
        · rw [if_pos ((flagsOf_bits f b).1.2 hf), (flagsOf_bits f b).2.2.1 hf]
          exact ihf fuel hf hl.2.1 (by omega)
      · by_cases hb : b = .none
        · have : ¬ (flagsOf f b &&& 2 ≠ 0) := by rw [(flagsOf_bits f b).2.1]; simpa using hb
          rw [if_neg this, hb]
          exact Reads.pure _
        · rw [if_pos ((flagsOf_bits f b).2.1.2 hb), (flagsOf_bits f b).2.2.2 hb]
          exact ihb fuel hb hl.2.2 (by omega)

/-! ## Saving -/

/-- The flags in preorder. -/
def flagList : BTree → List (BitVec 8)
  | .none => []
  | .leaf .. => [0]
  | .inner _ _ _ _ _ f b => flagsOf f b :: (flagList f ++ flagList b)

theorem link_eq_none {t : BTree} {k : Nat} (hk : k < 2 ^ 32 - 1) : t.link k = 0xFFFFFFFF ↔ t = .none := by
  have : BitVec.ofNat 32 k ≠ 0xFFFFFFFF := by
    intro h
    have := congrArg BitVec.toNat h
    simp at this
    omega
  have this : ¬ (BitVec.ofNat 32 k = 4294967295#32) := this
  cases t <;> simp [BTree.link, this]

theorem root_get (t : BTree) (ht : t ≠ .none) (hp : t.Proper) (k : Nat) (parent : BitVec 32) (hk : k + t.size < 2 ^ 32 - 1) :
    ∃ n rest, t.nodesAt k parent = n :: rest ∧ n.isLeaf = t.isLeaf := by
  cases t with
  | none => exact absurd rfl ht
  | leaf => exact ⟨_, _, rfl, rfl⟩
  | inner bbox i c plane lod f b =>
    refine ⟨_, _, rfl, ?_⟩
    simp only [BTree.size] at hk
    simp only [BspNode.isLeaf, BTree.isLeaf, Bool.and_eq_false_iff, beq_eq_false_iff_ne, ne_eq]
    rcases hp.1 with h | h
    · exact .inl (by rw [link_eq_none (by omega)]; exact h)
    · exact .inr (by rw [link_eq_none (by omega)]; exact h)

theorem childFlags_eq (all pre post : List BspNode) (t : BTree) (hp : t.Proper) (k : Nat) (parent m l : BitVec 32)
    (hall : all = pre ++ t.nodesAt k parent ++ post) (hpre : pre.length = k) (hk : k + t.size < 2 ^ 32 - 1) :
    childFlags all (t.link k) m l = .ok (if t = .none then 0 else m ||| if t.isLeaf then l else 0) := by
  unfold childFlags
  by_cases ht : t = .none
  · rw [if_neg (fun h => h ((link_eq_none (by omega)).2 ht)), if_pos ht]
  · obtain ⟨n, rest, e, hl⟩ := root_get t ht hp k parent hk
    have hg : all[k]? = some n := by
      rw [hall, e, ← hpre]
      simp
    rw [if_pos (by rw [ne_eq, link_eq_none (by omega)]; exact ht), if_neg ht, link_some ht,
      show (BitVec.ofNat 32 k).toNat = k by simp; omega, hg]
    simp only [hl]

theorem except_mapM_append {α β ε} (f : α → Except ε β) (a b : List α) (x y : List β) (h1 : a.mapM f = .ok x) (h2 : b.mapM f = .ok y) :
    (a ++ b).mapM f = .ok (x ++ y) := by
  rw [List.mapM_append, h1, h2]
  rfl

theorem except_mapM_cons {α β ε} (f : α → Except ε β) (a : α) (b : List α) (x : β) (y : List β) (h1 : f a = .ok x) (h2 : b.mapM f = .ok y) :
    (a :: b).mapM f = .ok (x :: y) := by
  rw [List.mapM_cons, h1]
  show (do let bs ← b.mapM f; pure (x :: bs)) = _
  rw [h2]
  rfl

theorem flags_mapM (t : BTree) : ∀ (all pre post : List BspNode) (k : Nat) (parent : BitVec 32), t.Proper →
    all = pre ++ t.nodesAt k parent ++ post → pre.length = k → k + t.size < 2 ^ 32 - 1 →
    (t.nodesAt k parent).mapM (flags all) = .ok (flagList t) := by
  induction t with
  | none => intros; rfl
  | leaf => intros; rfl
  | inner bbox i c plane lod f b ihf ihb =>
    intro all pre post k parent hp hall hpre hk
    obtain ⟨_, hpf, hpb⟩ := hp
    simp only [BTree.size] at hk
    simp only [BTree.nodesAt] at hall ⊢
    generalize hn : (⟨plane, bbox, i, c, f.link (k + 1), b.link (k + 1 + f.size), parent, lod⟩ : BspNode) = n at hall ⊢
    have hf : all = (pre ++ [n]) ++ f.nodesAt (k + 1) (BitVec.ofNat 32 k) ++ (b.nodesAt (k + 1 + f.size) (BitVec.ofNat 32 k) ++ post) := by
      rw [hall]; simp
    have hb : all = (pre ++ [n] ++ f.nodesAt (k + 1) (BitVec.ofNat 32 k)) ++ b.nodesAt (k + 1 + f.size) (BitVec.ofNat 32 k) ++ post := by
      rw [hall]; simp
    have lf : (pre ++ [n]).length = k + 1 := by simp [hpre]
    have lb : (pre ++ [n] ++ f.nodesAt (k + 1) (BitVec.ofNat 32 k)).length = k + 1 + f.size := by
      simp [hpre, nodesAt_length]; omega
    refine except_mapM_cons _ _ _ _ _ ?_ (except_mapM_append _ _ _ _ _ (ihf _ _ _ _ _ hpf hf lf (by omega))
      (ihb _ _ _ _ _ hpb hb lb (by omega)))
    have c1 := childFlags_eq _ _ _ f hpf _ _ 1 4 hf lf (by omega)
    have c2 := childFlags_eq _ _ _ b hpb _ _ 2 8 hb lb (by omega)
    subst hn
    unfold flags
    dsimp only
    rw [c1, c2]
    show Except.ok _ = _
    congr 1
    unfold flagsOf
    by_cases hf : f = .none <;> by_cases hb : b = .none <;> cases hfl : f.isLeaf <;> cases hbl : b.isLeaf <;> simp [hf, hb]

theorem node_emits (g1 : Bool) (n : BspNode) (fl : BitVec 8) : Emits (n.save g1 fl)
    (n.bbox.enc ++ (encW 4 n.polygonIndex ++ (encW 4 n.polygonCount ++ (if n.isLeaf then [] else encW 1 fl ++ (encW 4 n.plane.w ++
      (encW 4 n.plane.x ++ (encW 4 n.plane.y ++ (encW 4 n.plane.z ++ (if g1 then encW 1 n.lod else []))))))))) := by
  have h1 := ((Emits.aabb n.bbox).comp (Emits.u32 n.polygonIndex)).comp (Emits.u32 n.polygonCount)
  have h2 := ((((Emits.u8 fl).comp (Emits.f32 n.plane.w)).comp (Emits.f32 n.plane.x)).comp (Emits.f32 n.plane.y)).comp
    (Emits.f32 n.plane.z)
  cases hl : n.isLeaf with
  | true =>
    intro w hw
    have := h1 w hw
    simp only [BspNode.save, hl, if_true, List.append_nil, ← List.append_assoc]
    exact this
  | false =>
    cases g1 with
    | true =>
      intro w hw
      have := ((h1.comp h2).comp (Emits.u8 n.lod)) w hw
      simp only [List.append_assoc] at this
      simp only [BspNode.save, hl, if_true, if_false, Bool.false_eq_true]
      exact this
    | false =>
      intro w hw
      have := (h1.comp h2) w hw
      simp only [List.append_assoc] at this
      simp only [BspNode.save, hl, if_false, Bool.false_eq_true, List.append_nil]
      exact this

theorem flagList_length (t : BTree) : (flagList t).length = t.size := by
  induction t with
  | none => rfl
  | leaf => rfl
  | inner _ _ _ _ _ f b ihf ihb => simp [flagList, BTree.size, ihf, ihb]; omega

theorem tree_emits (g1 : Bool) (t : BTree) : ∀ k parent, t.Proper → k + t.size < 2 ^ 32 - 1 →
    Emits (fun w => ((t.nodesAt k parent).zip (flagList t)).foldl (fun w n => n.1.save g1 n.2 w) w) (encTree g1 t) := by
  induction t with
  | none => intros; exact Emits.id
  | leaf bbox i c =>
    intro k parent _ _
    exact (node_emits g1 ⟨⟨0, 0, 0, 0⟩, bbox, i, c, 0xFFFFFFFF, 0xFFFFFFFF, parent, 0⟩ 0).congr (by simp [encTree, BspNode.isLeaf])
  | inner bbox i c plane lod f b ihf ihb =>
    intro k parent hp hk
    obtain ⟨n, rest, e, hl⟩ := root_get (.inner bbox i c plane lod f b) (by simp) hp k parent hk
    obtain ⟨_, hpf, hpb⟩ := hp
    simp only [BTree.size] at hk
    have hz : ((BTree.inner bbox i c plane lod f b).nodesAt k parent).zip (flagList (.inner bbox i c plane lod f b)) =
        ((⟨plane, bbox, i, c, f.link (k + 1), b.link (k + 1 + f.size), parent, lod⟩ : BspNode), flagsOf f b) ::
        ((f.nodesAt (k + 1) (BitVec.ofNat 32 k)).zip (flagList f) ++ (b.nodesAt (k + 1 + f.size) (BitVec.ofNat 32 k)).zip (flagList b)) := by
      simp only [BTree.nodesAt, flagList, List.zip_cons_cons]
      rw [List.zip_append (by rw [nodesAt_length, flagList_length])]
    rw [hz]
    simp only [List.foldl_cons, List.foldl_append]
    simp only [BTree.nodesAt, List.cons.injEq] at e
    have hl' : BspNode.isLeaf ⟨plane, bbox, i, c, f.link (k + 1), b.link (k + 1 + f.size), parent, lod⟩ = false := by
      rw [e.1, hl]; rfl
    have := ((node_emits g1 ⟨plane, bbox, i, c, f.link (k + 1), b.link (k + 1 + f.size), parent, lod⟩ (flagsOf f b)).comp
      (ihf (k + 1) (BitVec.ofNat 32 k) hpf (by omega))).comp (ihb (k + 1 + f.size) (BitVec.ofNat 32 k) hpb (by omega))
    rw [hl'] at this
    refine this.congr ?_
    simp only [encTree, Bool.false_eq_true, if_false, List.append_assoc]

/-! ## Any declared count -/

theorem emplace_inv (st : BspParse) (hc : st.nodes.length ≤ st.cap) :
    st.emplace.nodes = st.nodes ++ [BspNode.fresh] ∧ st.emplace.leaves = st.leaves ∧ st.emplace.nodes.length ≤ st.emplace.cap ∧
    st.gen ≤ st.emplace.gen ∧ (st.cap < st.emplace.nodes.length → st.gen < st.emplace.gen) ∧
    (st.emplace.nodes.length ≤ st.cap → st.emplace.cap = st.cap ∧ st.emplace.gen = st.gen) := by
  unfold BspParse.emplace
  split
  · simp; omega
  · simp; omega

/-- What is known of a run of the loader without any assumption on the capacity: `st'` is the state in the end. -/
structure Run (st st' : BspParse) (n : Nat) : Prop where
  len : st'.nodes.length = st.nodes.length + n
  room : st'.nodes.length ≤ st'.cap
  gen : st.gen ≤ st'.gen
  moved : st.cap < st'.nodes.length → st.gen < st'.gen
  same : st.gen = st'.gen → st'.cap = st.cap

theorem put_cases (st : BspParse) (gen i : Nat) (f : BspNode → BspNode) (s : Rs) :
    (st.gen = gen ∧ Rd.lift (st.put gen i f) s = .ok (⟨st.nodes.modify i f, st.leaves, st.cap, st.gen⟩, s)) ∨
    (st.gen ≠ gen ∧ Rd.lift (st.put gen i f) s = .error .ub) := by
  unfold BspParse.put
  by_cases h : st.gen = gen
  · rw [if_pos h]; exact .inl ⟨h, rfl⟩
  · rw [if_neg h]; exact .inr ⟨h, rfl⟩

/-- A child of a node (`src/world/BspTree.cc:52-70`). -/
def childParse (g1 : Bool) (fuel : Nat) (flags m k : BitVec 8) (st : BspParse) (gen self : Nat) (F : BspNode → BspNode) :
    Rd BspParse :=
  if flags &&& m ≠ 0 then
    Rd.lift (st.put gen self F) >>= fun st => parse g1 fuel st (BitVec.ofNat 32 self) (flags &&& k ≠ 0)
  else return st

/-- Everything from the flags on. -/
def innerParse (g1 : Bool) (fuel self gen : Nat) (st : BspParse) : Rd BspParse := do
  let flags ← Rd.u8
  let w ← Rd.f32
  let x ← Rd.f32
  let y ← Rd.f32
  let z ← Rd.f32
  let lod ← (if g1 then Rd.u8 else return 0)
  let st ← Rd.lift (st.put gen self fun n => { n with plane := ⟨x, y, z, w⟩, lod })
  let st ← childParse g1 fuel flags 1 4 st gen self fun n => { n with frontIndex := BitVec.ofNat 32 st.nodes.length }
  childParse g1 fuel flags 2 8 st gen self fun n => { n with backIndex := BitVec.ofNat 32 st.nodes.length }

theorem parse_unfold (g1 : Bool) (fuel : Nat) (st : BspParse) (parent : BitVec 32) (leaf : Bool) :
    parse g1 (fuel + 1) st parent leaf = (do
      let bbox ← Aabb.load
      let polygonIndex ← Rd.u32
      let polygonCount ← Rd.u32
      let st' ← Rd.lift (st.emplace.put st.emplace.gen st.nodes.length fun n =>
        { n with parentIndex := parent, bbox, polygonIndex, polygonCount })
      if leaf then return { st' with leaves := st'.leaves ++ [st.nodes.length] }
      else innerParse g1 fuel st.nodes.length st.emplace.gen st') := by
  rw [parse]
  rfl

/-- The claim of `parse_run`, for one amount of fuel. -/
def RunOk (g1 : Bool) (fuel : Nat) : Prop :=
  ∀ (st : BspParse) (parent : BitVec 32) (leaf : Bool) (s s' : Rs) (t : BTree),
    readTree g1 fuel leaf s = .ok (t, s') → st.nodes.length ≤ st.cap →
    parse g1 fuel st parent leaf s = .error .ub ∨ ∃ st', parse g1 fuel st parent leaf s = .ok (st', s') ∧ Run st st' t.size

theorem child_run {g1 : Bool} {fuel : Nat} (ih : RunOk g1 fuel) (flags m k : BitVec 8) (st : BspParse) (gen self : Nat)
    (F : BspNode → BspNode) (t : BTree) (s s' : Rs) (hc : st.nodes.length ≤ st.cap)
    (e : (if flags &&& m ≠ 0 then readTree g1 fuel (flags &&& k ≠ 0) else return .none : Rd BTree) s = .ok (t, s')) :
    childParse g1 fuel flags m k st gen self F s = .error .ub ∨
    ∃ st', childParse g1 fuel flags m k st gen self F s = .ok (st', s') ∧ Run st st' t.size ∧ (t ≠ .none → st.gen = gen) := by
  unfold childParse
  by_cases h : flags &&& m ≠ 0
  · rw [if_pos h] at e ⊢
    rcases put_cases st gen self F s with ⟨hg, q⟩ | ⟨_, q⟩
    · rw [Rd.bind_ok q]
      rcases ih ⟨st.nodes.modify self F, st.leaves, st.cap, st.gen⟩ (BitVec.ofNat 32 self) _ _ _ _ e (by simpa using hc) with hu | ⟨st', e', r⟩
      · exact .inl hu
      · refine .inr ⟨st', e', ⟨?_, r.room, r.gen, r.moved, r.same⟩, fun _ => hg⟩
        simpa using r.len
    · rw [Rd.bind_err q]; exact .inl rfl
  · rw [if_neg h] at e ⊢
    simp only [Rd.pure_def, Except.ok.injEq, Prod.mk.injEq] at e
    obtain ⟨rfl, rfl⟩ := e
    exact .inr ⟨st, rfl, ⟨rfl, hc, Nat.le_refl _, fun h => absurd h (by omega), fun _ => rfl⟩, fun h => absurd rfl h⟩

theorem inner_run {g1 : Bool} {fuel : Nat} (ih : RunOk g1 fuel) (st : BspParse) (self gen : Nat) (hg : st.gen = gen)
    (hc : st.nodes.length ≤ st.cap) (bbox : Aabb) (i c : BitVec 32) (s s' : Rs) (t : BTree)
    (h : (do
      let flags ← Rd.u8
      let w ← Rd.f32
      let x ← Rd.f32
      let y ← Rd.f32
      let z ← Rd.f32
      let lod ← (if g1 then Rd.u8 else return 0)
      let f ← (if flags &&& 1 ≠ 0 then readTree g1 fuel (flags &&& 4 ≠ 0) else return .none)
      let b ← (if flags &&& 2 ≠ 0 then readTree g1 fuel (flags &&& 8 ≠ 0) else return .none)
      return .inner bbox i c ⟨x, y, z, w⟩ lod f b : Rd BTree) s = .ok (t, s')) :
    ∃ p l f b, t = .inner bbox i c p l f b ∧ (innerParse g1 fuel self gen st s = .error .ub ∨
      ∃ st', innerParse g1 fuel self gen st s = .ok (st', s') ∧ Run st st' (f.size + b.size) ∧
        (b ≠ .none → st.nodes.length + f.size ≤ st.cap)) := by
  obtain ⟨flags, s4, e4, h⟩ := Rd.bind_eq_ok h
  obtain ⟨w, s5, e5, h⟩ := Rd.bind_eq_ok h
  obtain ⟨x, s6, e6, h⟩ := Rd.bind_eq_ok h
  obtain ⟨y, s7, e7, h⟩ := Rd.bind_eq_ok h
  obtain ⟨z, s8, e8, h⟩ := Rd.bind_eq_ok h
  obtain ⟨lod, s9, e9, h⟩ := Rd.bind_eq_ok h
  obtain ⟨f, s10, e10, h⟩ := Rd.bind_eq_ok h
  obtain ⟨b, s11, e11, h⟩ := Rd.bind_eq_ok h
  simp only [Rd.pure_def, Except.ok.injEq, Prod.mk.injEq] at h
  obtain ⟨rfl, rfl⟩ := h
  refine ⟨_, _, _, _, rfl, ?_⟩
  unfold innerParse
  rw [Rd.bind_ok e4, Rd.bind_ok e5, Rd.bind_ok e6, Rd.bind_ok e7, Rd.bind_ok e8, Rd.bind_ok e9]
  rcases put_cases st gen self (fun n => { n with plane := ⟨x, y, z, w⟩, lod }) s9 with ⟨_, q2⟩ | ⟨q, _⟩
  case inr => exact absurd hg q
  rw [Rd.bind_ok q2]
  generalize hst1 : (⟨st.nodes.modify self _, st.leaves, st.cap, st.gen⟩ : BspParse) = st1
  have g1' : st1.gen = gen := by rw [← hst1]; exact hg
  have c1' : st1.cap = st.cap := by rw [← hst1]
  have l1' : st1.nodes.length = st.nodes.length := by rw [← hst1]; simp
  rcases child_run ih flags 1 4 st1 gen self (fun n => { n with frontIndex := BitVec.ofNat 32 st1.nodes.length }) f s9 s10
    (by omega) e10 with hu | ⟨st2, q3, r3, _⟩
  · rw [Rd.bind_err hu]; exact .inl rfl
  rw [Rd.bind_ok q3]
  rcases child_run ih flags 2 8 st2 gen self (fun n => { n with backIndex := BitVec.ofNat 32 st2.nodes.length }) b s10 s11
    r3.room e11 with hu | ⟨st3, q4, r4, hb⟩
  · exact .inl hu
  refine .inr ⟨st3, q4, ⟨?_, r4.room, ?_, ?_, ?_⟩, ?_⟩
  · rw [r4.len, r3.len, l1']; omega
  · have := r3.gen; have := r4.gen; omega
  · intro hm
    have h1 := r3.gen
    have h2 := r4.gen
    by_cases hx : st1.cap < st2.nodes.length
    · have := r3.moved hx; omega
    · by_cases hg2 : st1.gen = st2.gen
      · have := r3.same hg2
        have := r4.moved (by omega)
        omega
      · omega
  · intro he
    have h1 := r3.gen
    have h2 := r4.gen
    have s1 := r3.same (by omega)
    have s2 := r4.same (by omega)
    omega
  · intro hbn
    have := hb hbn
    have hm := r3.moved
    have hl := r3.len
    omega

theorem parse_run (g1 : Bool) (fuel : Nat) : RunOk g1 fuel := by
  induction fuel with
  | zero => intro st parent leaf s s' t h; cases h
  | succ fuel ih =>
    intro st parent leaf s s' t h hcap
    unfold readTree at h
    obtain ⟨bbox, s1, e1, h⟩ := Rd.bind_eq_ok h
    obtain ⟨i, s2, e2, h⟩ := Rd.bind_eq_ok h
    obtain ⟨c, s3, e3, h⟩ := Rd.bind_eq_ok h
    rw [parse_unfold, Rd.bind_ok e1, Rd.bind_ok e2, Rd.bind_ok e3]
    obtain ⟨m1, m2, m3, m4, m5, m6⟩ := emplace_inv st hcap
    have hlen0 : st.emplace.nodes.length = st.nodes.length + 1 := by rw [m1]; simp
    generalize st.emplace = st0 at *
    rcases put_cases st0 st0.gen st.nodes.length
      (fun n => { n with parentIndex := parent, bbox := bbox, polygonIndex := i, polygonCount := c }) s3 with ⟨_, q1⟩ | ⟨q, _⟩
    case inr => exact absurd rfl q
    rw [Rd.bind_ok q1]
    cases leaf with
    | true =>
      simp only [if_true, Rd.pure_def, Except.ok.injEq, Prod.mk.injEq] at h
      obtain ⟨rfl, rfl⟩ := h
      refine .inr ⟨_, rfl, ⟨?_, ?_, ?_, ?_, ?_⟩⟩
      · simp [hlen0, BTree.size]
      · simpa using m3
      · exact m4
      · simpa using m5
      · intro hg
        dsimp only at hg ⊢
        by_cases hle : st0.nodes.length ≤ st.cap
        · exact (m6 hle).1
        · have := m5 (by omega); omega
    | false =>
      simp only [Bool.false_eq_true, if_false] at h ⊢
      generalize hst1 : (⟨st0.nodes.modify st.nodes.length _, st0.leaves, st0.cap, st0.gen⟩ : BspParse) = st1
      have g1' : st1.gen = st0.gen := by rw [← hst1]
      have c1' : st1.cap = st0.cap := by rw [← hst1]
      have l1' : st1.nodes.length = st0.nodes.length := by rw [← hst1]; simp
      obtain ⟨p, l, f, b, rfl, h2⟩ := inner_run ih st1 st.nodes.length st0.gen g1' (by omega) bbox i c s3 s' t h
      rcases h2 with hu | ⟨st', e', r, _⟩
      · exact .inl hu
      · refine .inr ⟨st', e', ⟨?_, r.room, ?_, ?_, ?_⟩⟩
        · rw [r.len, l1', hlen0]; simp only [BTree.size]; omega
        · have := r.gen; omega
        · intro hm
          have hr := r.gen
          by_cases hx : st.cap < st0.nodes.length
          · have := m5 hx; omega
          · have := m6 (by omega)
            have := r.moved (by omega)
            omega
        · intro hg
          have hr := r.gen
          have h1 := r.same (by omega)
          by_cases hle : st0.nodes.length ≤ st.cap
          · rw [h1, c1']; exact (m6 hle).1
          · have := m5 (by omega); omega

/-- A node with two children whose front subtree does not fit into the vector. -/
theorem parse_moved (g1 : Bool) (fuel : Nat) (st : BspParse) (parent : BitVec 32) (leaf : Bool) (s s' : Rs) (bbox : Aabb)
    (i c : BitVec 32) (p : Vec4) (l : BitVec 8) (f b : BTree) (h : readTree g1 fuel leaf s = .ok (.inner bbox i c p l f b, s'))
    (hcap : st.nodes.length ≤ st.cap) (hb : b ≠ .none) (hbig : st.emplace.cap < st.nodes.length + 1 + f.size) :
    parse g1 fuel st parent leaf s = .error .ub := by
  cases fuel with
  | zero => cases h
  | succ fuel =>
    unfold readTree at h
    obtain ⟨bbox', s1, e1, h⟩ := Rd.bind_eq_ok h
    obtain ⟨i', s2, e2, h⟩ := Rd.bind_eq_ok h
    obtain ⟨c', s3, e3, h⟩ := Rd.bind_eq_ok h
    rw [parse_unfold, Rd.bind_ok e1, Rd.bind_ok e2, Rd.bind_ok e3]
    obtain ⟨m1, m2, m3, m4, m5, m6⟩ := emplace_inv st hcap
    have hlen0 : st.emplace.nodes.length = st.nodes.length + 1 := by rw [m1]; simp
    generalize st.emplace = st0 at *
    rcases put_cases st0 st0.gen st.nodes.length
      (fun n => { n with parentIndex := parent, bbox := bbox', polygonIndex := i', polygonCount := c' }) s3 with ⟨_, q1⟩ | ⟨q, _⟩
    case inr => exact absurd rfl q
    rw [Rd.bind_ok q1]
    cases leaf with
    | true => simp [Rd.pure_def] at h
    | false =>
      simp only [Bool.false_eq_true, if_false] at h ⊢
      generalize hst1 : (⟨st0.nodes.modify st.nodes.length _, st0.leaves, st0.cap, st0.gen⟩ : BspParse) = st1
      have g1' : st1.gen = st0.gen := by rw [← hst1]
      have c1' : st1.cap = st0.cap := by rw [← hst1]
      have l1' : st1.nodes.length = st0.nodes.length := by rw [← hst1]; simp
      obtain ⟨p', l', f', b', et, h2⟩ := inner_run (parse_run g1 fuel) st1 st.nodes.length st0.gen g1' (by omega) bbox' i' c' s3 s' _ h
      simp only [BTree.inner.injEq] at et
      obtain ⟨_, _, _, _, _, rfl, rfl⟩ := et
      rcases h2 with hu | ⟨st', e', r, hh⟩
      · exact hu
      · have := hh hb
        omega

/-! ## Polygons of the leaves -/

/-- The polygons of a node: a slice of the polygon list. -/
def slice (polygons : List (BitVec 32)) (n : BspNode) : List (BitVec 32) :=
  (polygons.drop n.polygonIndex.toNat).take n.polygonCount.toNat

/-- The slice lies inside the list. -/
def InRange (polygons : List (BitVec 32)) (n : BspNode) : Prop :=
  n.polygonIndex.toNat + n.polygonCount.toNat ≤ polygons.length

theorem mapM_get (polygons : List (BitVec 32)) (start : BitVec 32) (hp : polygons.length < 2 ^ 32) (k : Nat)
    (h : start.toNat + k ≤ polygons.length) :
    ((List.range k).mapM fun i => match polygons[(start + BitVec.ofNat 32 i).toNat]? with
      | some p => (.ok p : Except Fail (BitVec 32))
      | none => .error .ub) = .ok ((polygons.drop start.toNat).take k) := by
  induction k with
  | zero => rfl
  | succ k ih =>
    rw [List.range_succ]
    have hk : (start + BitVec.ofNat 32 k).toNat = start.toNat + k := by
      rw [BitVec.toNat_add, BitVec.toNat_ofNat, Nat.mod_eq_of_lt (a := k) (by omega), Nat.mod_eq_of_lt (by omega)]
    have hlt : start.toNat + k < polygons.length := by omega
    have hl := except_mapM_append (fun i => match polygons[(start + BitVec.ofNat 32 i).toNat]? with
      | some p => (.ok p : Except Fail (BitVec 32))
      | none => .error .ub) (List.range k) [k] _ [polygons[start.toNat + k]] (ih (by omega)) (by
        refine except_mapM_cons _ _ _ _ _ ?_ rfl
        rw [hk, List.getElem?_eq_getElem hlt])
    rw [hl, List.take_succ]
    congr 2
    rw [List.getElem?_drop, List.getElem?_eq_getElem hlt]
    rfl

theorem leafGather_ok (polygons : List (BitVec 32)) (n : BspNode) (hp : polygons.length < 2 ^ 32) (h : InRange polygons n) :
    leafGather polygons n = .ok (slice polygons n) := mapM_get polygons n.polygonIndex hp _ h

theorem mapM_ub {α β} (f : α → Except Fail β) (l : List α) (x : α) (hx : x ∈ l) (h : f x = .error .ub)
    (hall : ∀ y e, f y = .error e → e = .ub) : l.mapM f = .error .ub := by
  induction l with
  | nil => cases hx
  | cons a l ih =>
    rw [List.mapM_cons]
    cases ha : f a with
    | error e => rw [hall a e ha]; rfl
    | ok b =>
      rcases List.mem_cons.1 hx with rfl | hx
      · rw [h] at ha; cases ha
      · show (do let bs ← l.mapM f; pure (b :: bs)) = _
        rw [ih hx]
        rfl

theorem leafGather_ub (polygons : List (BitVec 32)) (n : BspNode) (hp : polygons.length < 2 ^ 32) (h : ¬ InRange polygons n)
    (hn : n.polygonCount ≠ 0) : leafGather polygons n = .error .ub := by
  unfold leafGather
  unfold InRange at h
  have hc : 0 < n.polygonCount.toNat := by
    rcases Nat.eq_zero_or_pos n.polygonCount.toNat with h | h
    · exact absurd (BitVec.eq_of_toNat_eq (by simpa using h)) hn
    · exact h
  have hlt := n.polygonIndex.isLt
  refine mapM_ub _ _ (polygons.length - n.polygonIndex.toNat) (List.mem_range.2 (by omega)) ?_ ?_
  · have hk : (n.polygonIndex + BitVec.ofNat 32 (polygons.length - n.polygonIndex.toNat)).toNat =
        n.polygonIndex.toNat + (polygons.length - n.polygonIndex.toNat) := by
      rw [BitVec.toNat_add, BitVec.toNat_ofNat, Nat.mod_eq_of_lt (a := _ - _) (by omega), Nat.mod_eq_of_lt (by omega)]
    rw [hk, List.getElem?_eq_none (by omega)]
  · intro y e he
    split at he
    · cases he
    · injection he with he; exact he.symm

theorem gather_ok (polygons : List (BitVec 32)) (nodes : List BspNode) (leaves : List Nat) (hp : polygons.length < 2 ^ 32)
    (h : ∀ i ∈ leaves, ∃ n, nodes[i]? = some n ∧ InRange polygons n) :
    gather polygons nodes leaves = .ok (leaves.flatMap fun i => (nodes[i]?.map (slice polygons)).getD []) := by
  have : leaves.mapM (fun i => match nodes[i]? with
    | some n => leafGather polygons n
    | none => .error .ub) = .ok (leaves.map fun i => (nodes[i]?.map (slice polygons)).getD []) := by
    induction leaves with
    | nil => rfl
    | cons i leaves ih =>
      obtain ⟨n, hn, hr⟩ := h i (by simp)
      refine except_mapM_cons _ _ _ _ _ ?_ (ih fun j hj => h j (by simp [hj]))
      simp only [hn, leafGather_ok polygons n hp hr, Option.map_some, Option.getD_some]
  refine (congrArg (fun x => x >>= fun parts : List (List (BitVec 32)) => (pure parts.flatten : Except Fail _)) this).trans ?_
  show Except.ok _ = _
  rw [List.flatMap_def]

theorem sortU32_eq (l s : List (BitVec 32)) (hs : s.Pairwise fun a b => a.toNat ≤ b.toNat) (hp : s.Perm l) : sortU32 l = s := by
  have h1 : (sortU32 l).Pairwise fun a b => a.toNat ≤ b.toNat := by
    have := List.pairwise_mergeSort (le := fun a b : BitVec 32 => decide (a.toNat ≤ b.toNat))
      (by intro a b c h1 h2; simp only [decide_eq_true_eq] at *; omega)
      (by intro a b; simp only [Bool.or_eq_true, decide_eq_true_eq]; omega) l
    simpa [sortU32] using this
  refine List.Perm.eq_of_pairwise (le := fun a b : BitVec 32 => a.toNat ≤ b.toNat) ?_ h1 hs ?_
  · intro a b _ _ hab hba
    exact BitVec.eq_of_toNat_eq (by omega)
  · exact (List.mergeSort_perm _ _).trans hp.symm

/-! ## Whole files -/

/-- The bytes of a sector. -/
def encSector (s : BspSector) : Bytes :=
  (s.name ++ [10]) ++ (encW 4 (BitVec.ofNat 32 s.nodeIndices.length) ++ (encW 4 (BitVec.ofNat 32 s.portalIndices.length) ++
    ((s.nodeIndices.map (encW 4)).flatten ++ (s.portalIndices.map (encW 4)).flatten)))

theorem sector_emits (s : BspSector) : Emits s.save (encSector s) := by
  have h := ((((Emits.line s.name).comp (Emits.u32 (BitVec.ofNat 32 s.nodeIndices.length))).comp
    (Emits.u32 (BitVec.ofNat 32 s.portalIndices.length))).comp
    (Emits.foldl (fun (i : BitVec 32) w => w.u32 i) (encW 4) (fun i => Emits.u32 i) s.nodeIndices)).comp
    (Emits.foldl (fun (i : BitVec 32) w => w.u32 i) (encW 4) (fun i => Emits.u32 i) s.portalIndices)
  exact h.congr (by simp only [encSector, List.append_assoc])

theorem u32s_reads (l : List (BitVec 32)) : Reads (Rd.times Rd.u32 l.length) (l.map (encW 4)).flatten l :=
  Reads.times l fun a _ => Reads.u32 a

theorem sector_reads (s : BspSector) (hn : NoEol s.name) (h1 : s.nodeIndices.length < 2 ^ 32)
    (h2 : s.portalIndices.length < 2 ^ 32) : Reads BspSector.load (encSector s) s := by
  have e1 : (BitVec.ofNat 32 s.nodeIndices.length).toNat = s.nodeIndices.length := by simp; omega
  have e2 : (BitVec.ofNat 32 s.portalIndices.length).toNat = s.portalIndices.length := by simp; omega
  refine (Reads.lineLf _ hn).bind ((Reads.u32 _).bind ((Reads.u32 _).bind ?_))
  rw [e1, e2]
  exact (u32s_reads _).bind (u32s_reads _).bind_pure

/-- The payloads of the chunks. -/
def chunks (g1 : Bool) (b : Bsp) (t : BTree) : List Spec.Chunk :=
  [⟨0xC000, encW 2 (2 : BitVec 16) ++ encW 4 b.mode⟩,
   ⟨0xC010, encW 4 (BitVec.ofNat 32 b.polygonIndices.length) ++ (b.polygonIndices.map (encW 4)).flatten⟩,
   ⟨0xC040, encW 4 (BitVec.ofNat 32 b.nodes.length) ++ (encW 4 (BitVec.ofNat 32 b.leafNodes.length) ++ encTree g1 t)⟩,
   ⟨0xC045, (b.lightPoints.map Vec3.mem).flatten⟩,
   ⟨0xC050, encW 4 (BitVec.ofNat 32 b.sectors.length) ++ ((b.sectors.map encSector).flatten ++
      (encW 4 (BitVec.ofNat 32 b.portalIndices.length) ++ (b.portalIndices.map (encW 4)).flatten))⟩,
   ⟨0xC0FF, encW 1 (66 : BitVec 8)⟩]

theorem save_emits (g1 : Bool) (b : Bsp) (t : BTree) (hb : b.nodes = t.nodesAt 0 0xFFFFFFFF) (hp : t.Proper)
    (hs : t.size < 2 ^ 32 - 1) (w : Ws) (hw : w.pos ≤ w.data.length) :
    b.save g1 w = .ok (w.write (chunksBytes (chunks g1 b t))) := by
  have hf : b.nodes.mapM (flags b.nodes) = .ok (flagList t) := by
    rw [hb]
    exact flags_mapM t _ [] [] 0 _ hp (by simp) rfl (by simpa using hs)
  have c1 : Emits (fun w => (w.u16 2).u32 b.mode) (encW 2 (2 : BitVec 16) ++ encW 4 b.mode) := (Emits.u16 2).comp (Emits.u32 _)
  have c2 := (Emits.u32 (BitVec.ofNat 32 b.polygonIndices.length)).comp
    (Emits.foldl (fun (i : BitVec 32) w => w.u32 i) (encW 4) (fun i => Emits.u32 i) b.polygonIndices)
  have c3 := ((Emits.u32 (BitVec.ofNat 32 b.nodes.length)).comp (Emits.u32 (BitVec.ofNat 32 b.leafNodes.length))).comp
    (tree_emits g1 t 0 0xFFFFFFFF hp (by simpa using hs))
  rw [← hb] at c3
  have c4 := Emits.foldl (fun (p : Vec3) w => w.vec3 p) Vec3.mem (fun p => Emits.vec3 p) b.lightPoints
  have c5 := (((Emits.u32 (BitVec.ofNat 32 b.sectors.length)).comp
    (Emits.foldl (fun (s : BspSector) w => s.save w) encSector sector_emits b.sectors)).comp
    (Emits.u32 (BitVec.ofNat 32 b.portalIndices.length))).comp
    (Emits.foldl (fun (i : BitVec 32) w => w.u32 i) (encW 4) (fun i => Emits.u32 i) b.portalIndices)
  have all := (((((Emits.chunk (type := 0xC000) c1).comp (Emits.chunk (type := 0xC010) c2)).comp (Emits.chunk (type := 0xC040) c3)).comp
    (Emits.chunk (type := 0xC045) c4)).comp (Emits.chunk (type := 0xC050) c5)).comp (Emits.chunk (type := 0xC0FF) (Emits.u8 66))
  have e := all w hw
  unfold save
  rw [hf]
  refine (congrArg Except.ok e).trans ?_
  simp only [chunks, chunksBytes, List.map_cons, List.map_nil, List.flatten_cons, List.flatten_nil, List.append_nil, List.append_assoc]

theorem encTree_length (g1 : Bool) (t : BTree) : t.size ≤ (encTree g1 t).length := by
  induction t with
  | none => simp [BTree.size]
  | leaf => simp [BTree.size, encTree, encW_length]
  | inner _ _ _ _ _ f b ihf ihb =>
    simp only [BTree.size, encTree, List.length_append, encW_length]; omega

theorem tree_reads (g1 : Bool) (b : Bsp) (t : BTree) (leafCount : BitVec 32) (ht : t ≠ .none) (hp : t.Proper) (hl : t.Lod g1)
    (hs : t.size < 2 ^ 32 - 1) (hb : b.nodes = []) (hb2 : b.leafNodes = []) (polys : List (BitVec 32))
    (hg : gather b.polygonIndices (t.nodesAt 0 0xFFFFFFFF) (t.leavesAt 0) = .ok polys) :
    Reads (onTree g1 b) (encW 4 (BitVec.ofNat 32 t.size) ++ (encW 4 leafCount ++ encTree g1 t))
      { b with nodes := t.nodesAt 0 0xFFFFFFFF, leafNodes := t.leavesAt 0, leafPolygons := sortU32 (b.leafPolygons ++ polys) } := by
  unfold onTree
  have key : Reads (fun s => parse g1 (s.data.length - s.pos + 1)
      ⟨b.nodes, b.leafNodes, max b.nodes.length (BitVec.ofNat 32 t.size).toNat, 0⟩ 0xFFFFFFFF
      (BitVec.ofNat 32 t.size == 1) s) (encTree g1 t) ⟨t.nodesAt 0 0xFFFFFFFF, t.leavesAt 0, t.size, 0⟩ := by
    intro pre post
    have hn : (BitVec.ofNat 32 t.size).toNat = t.size := by simp; omega
    have hleaf : (BitVec.ofNat 32 t.size == 1) = t.isLeaf := by
      cases t with
      | none => exact absurd rfl ht
      | leaf => rfl
      | inner bb i c p l f b' =>
        simp only [BTree.isLeaf, beq_eq_false_iff_ne, ne_eq]
        intro h
        have := congrArg BitVec.toNat h
        rw [hn, show (1 : BitVec 32).toNat = 1 from rfl] at this
        simp only [BTree.size] at this
        have h1 : f = .none := by
          cases f <;> simp_all [BTree.size] <;> omega
        have h2 : b' = .none := by
          cases b' <;> simp_all [BTree.size] <;> omega
        rcases hp.1 with h | h
        · exact h h1
        · exact h h2
    rw [hleaf, hn, hb, hb2]
    have hfuel : t.size ≤ (pre ++ encTree g1 t ++ post).length - pre.length + 1 := by
      have := encTree_length g1 t
      simp only [List.length_append]; omega
    have hr := readTree_reads g1 t _ ht hl hfuel pre post
    have := parse_eq g1 _ ⟨[], [], t.size, 0⟩ 0xFFFFFFFF _ _ _ _ hr (by simp)
    simpa using this
  have last : Reads (do
      let polys ← Rd.lift (gather b.polygonIndices (t.nodesAt 0 0xFFFFFFFF) (t.leavesAt 0))
      return { b with nodes := t.nodesAt 0 0xFFFFFFFF, leafNodes := t.leavesAt 0, leafPolygons := sortU32 (b.leafPolygons ++ polys) } : Rd Bsp)
      [] { b with nodes := t.nodesAt 0 0xFFFFFFFF, leafNodes := t.leavesAt 0, leafPolygons := sortU32 (b.leafPolygons ++ polys) } := by
    intro pre post
    rw [hg]
    simp
    rfl
  exact (Reads.u32 _).bind ((Reads.u32 _).bind ((key.bind last).congr (by simp) rfl))

end Bsp
end Verif
