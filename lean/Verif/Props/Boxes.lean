import Verif.Lemmas.Boxes
import Mathlib.Algebra.Order.Ring.Rat
import Mathlib.Order.Lattice

/-! # Properties of bounding boxes: C49, C56 -/

namespace Verif.Props

/-! ## C49 -/

/-- **C49** — a box with any hierarchy of children is read back unchanged, wherever it lies in a stream, and nothing behind it is
read. -/
theorem c49_round_trip (b : Obb) (hs : b.Small) (w : Ws) (hw : w.pos ≤ w.data.length) (post : Bytes) :
    Obb.load ⟨(b.save w).data ++ post, w.pos⟩ = .ok (b, ⟨(b.save w).data ++ post, (b.save w).pos⟩) := by
  rw [Obb.emits b w hw]
  unfold Obb.load
  refine Reads.of_write (Obb.reads b hs _ ?_) w hw post
  simp only [Ws.write, splice_le _ _ _ hw, List.length_append, List.length_take, List.length_drop]
  omega

/-- Loading a box ends normally on every stream. -/
theorem c49_load_terminates (data : Bytes) (pos : Nat) (hp : pos ≤ data.length) :
    ∃ b pos', Obb.load ⟨data, pos⟩ = .ok (b, ⟨data, pos'⟩) ∧ pos ≤ pos' ∧ pos' ≤ data.length :=
  Obb.load_ok data _ pos hp (by simp)

/-- A box with two children, one of which has a child. -/
def demoObb : Obb :=
  .mk ⟨1, 2, 3⟩ ⟨1, 0, 0⟩ ⟨0, 1, 0⟩ ⟨0, 0, 1⟩ ⟨4, 5, 6⟩
    [.mk ⟨7, 8, 9⟩ ⟨1, 0, 0⟩ ⟨0, 1, 0⟩ ⟨0, 0, 1⟩ ⟨1, 1, 1⟩ [],
     .mk ⟨9, 9, 9⟩ ⟨1, 0, 0⟩ ⟨0, 1, 0⟩ ⟨0, 0, 1⟩ ⟨2, 2, 2⟩ [.mk ⟨0, 0, 0⟩ ⟨1, 0, 0⟩ ⟨0, 1, 0⟩ ⟨0, 0, 1⟩ ⟨3, 3, 3⟩ []]]

example : demoObb.Small := by simp [demoObb, Obb.Small, Obb.SmallMany]

/-- The number of children is stored in 16 bits: a box with 65536 children comes back without any. -/
theorem c49_many_children_violation (c : Obb) (v : Vec3) :
    ∃ b pos, Obb.load ⟨((Obb.mk v v v v v (List.replicate 65536 c)).save Ws.empty).data, 0⟩ =
      .ok (.mk v v v v v [], ⟨b, pos⟩) := by
  rw [Obb.emits _ _ (Nat.le_refl _)]
  generalize hd : (Ws.empty.write (Obb.mk v v v v v (List.replicate 65536 c)).enc).data = d
  have hd' : d = [] ++ (Obb.mk v v v v v []).enc ++ Obb.encMany (List.replicate 65536 c) := by
    rw [← hd]
    have e : encW 2 (BitVec.ofNat 16 65536) = encW 2 (BitVec.ofNat 16 0) := rfl
    have hn (x : Bytes) : (Ws.empty.write x).data = x := by
      show splice [] 0 x = x
      rw [splice_le [] x 0 (Nat.le_refl _)]
      simp
    rw [hn]
    simp only [Obb.enc, Obb.encMany, List.length_replicate, List.length_nil, List.nil_append, List.append_nil, List.append_assoc, e]
  have := Obb.reads (.mk v v v v v []) (by simp [Obb.Small, Obb.SmallMany]) (d.length - 0 + 1) (by
    rw [hd']; simp only [List.length_append]; omega) [] (Obb.encMany (List.replicate 65536 c))
  rw [← hd'] at this
  exact ⟨_, _, this⟩

/-! ## C56 -/

section
variable {F : Type} [LinearOrder F] (o : FloatOps F)

/-- `p` is a corner: the centre plus or minus each half axis. -/
def IsCorner (b : Box F) (p : V3 F) : Prop :=
  ∃ s0 s1 s2, (s0 = o.one ∨ s0 = o.minusOne) ∧ (s1 = o.one ∨ s1 = o.minusOne) ∧ (s2 = o.one ∨ s2 = o.minusOne) ∧
    let along (a : V3 F → F) := o.add (a b.center) (o.add (o.add (o.mul (o.mul (a b.axis0) b.halfWidth.x) s0)
      (o.mul (o.mul (a b.axis1) b.halfWidth.y) s1)) (o.mul (o.mul (a b.axis2) b.halfWidth.z) s2))
    p.x = along V3.x ∧ p.y = along V3.y ∧ p.z = along V3.z

/-- `m` is the smallest value of the coordinate `c` among the corners. -/
def IsLow (b : Box F) (c : V3 F → F) (m : F) : Prop := (∃ p, IsCorner o b p ∧ c p = m) ∧ ∀ p, IsCorner o b p → m ≤ c p
/-- `m` is the largest value of the coordinate `c` among the corners. -/
def IsHigh (b : Box F) (c : V3 F → F) (m : F) : Prop := (∃ p, IsCorner o b p ∧ c p = m) ∧ ∀ p, IsCorner o b p → c p ≤ m

omit [LinearOrder F] in
theorem mem_signs (s : F × F × F) : s ∈ Box.signs o ↔ (s.1 = o.one ∨ s.1 = o.minusOne) ∧ (s.2.1 = o.one ∨ s.2.1 = o.minusOne) ∧
    (s.2.2 = o.one ∨ s.2.2 = o.minusOne) := by
  obtain ⟨a, b, c⟩ := s
  simp only [Box.signs, List.mem_cons, Prod.mk.injEq, List.not_mem_nil, or_false]
  constructor
  · rintro (⟨rfl, rfl, rfl⟩ | ⟨rfl, rfl, rfl⟩ | ⟨rfl, rfl, rfl⟩ | ⟨rfl, rfl, rfl⟩ | ⟨rfl, rfl, rfl⟩ | ⟨rfl, rfl, rfl⟩ |
      ⟨rfl, rfl, rfl⟩ | ⟨rfl, rfl, rfl⟩) <;> simp
  · rintro ⟨rfl | rfl, rfl | rfl, rfl | rfl⟩ <;> simp

omit [LinearOrder F] in
theorem isCorner_iff (b : Box F) (p : V3 F) : IsCorner o b p ↔ ∃ s ∈ Box.signs o, Box.corner o b s = p := by
  constructor
  · rintro ⟨s0, s1, s2, h0, h1, h2, hx, hy, hz⟩
    refine ⟨(s0, s1, s2), (mem_signs o _).2 ⟨h0, h1, h2⟩, ?_⟩
    obtain ⟨px, py, pz⟩ := p
    simp only at hx hy hz
    subst hx hy hz
    rfl
  · rintro ⟨s, hs, rfl⟩
    obtain ⟨h0, h1, h2⟩ := (mem_signs o s).1 hs
    exact ⟨s.1, s.2.1, s.2.2, h0, h1, h2, rfl, rfl, rfl⟩

/-- The two folds of one coordinate. -/
theorem fold_coord (b : Box F) (ss : List (F × F × F)) (box : V3 F × V3 F) (c : V3 F → F) (hc : c = V3.x ∨ c = V3.y ∨ c = V3.z) :
    c (ss.foldl (fun box i => Box.grow box (Box.corner o b i)) box).1 = (ss.map fun i => c (Box.corner o b i)).foldl min (c box.1) ∧
    c (ss.foldl (fun box i => Box.grow box (Box.corner o b i)) box).2 = (ss.map fun i => c (Box.corner o b i)).foldl max (c box.2) := by
  induction ss generalizing box with
  | nil => exact ⟨rfl, rfl⟩
  | cons s ss ih =>
    obtain ⟨h1, h2⟩ := ih (Box.grow box (Box.corner o b s))
    simp only [List.foldl_cons, List.map_cons]
    rw [h1, h2]
    rcases hc with rfl | rfl | rfl <;> exact ⟨rfl, rfl⟩

theorem foldl_min (l : List F) (m : F) : (∀ x ∈ l, l.foldl min m ≤ x) ∧ l.foldl min m ≤ m ∧ (l.foldl min m = m ∨ l.foldl min m ∈ l) := by
  induction l generalizing m with
  | nil => exact ⟨by simp, le_refl _, .inl rfl⟩
  | cons a l ih =>
    obtain ⟨h1, h2, h3⟩ := ih (min m a)
    simp only [List.foldl_cons]
    refine ⟨?_, le_trans h2 (min_le_left _ _), ?_⟩
    · intro x hx
      rcases List.mem_cons.1 hx with rfl | hx
      · exact le_trans h2 (min_le_right _ _)
      · exact h1 x hx
    · rcases h3 with h3 | h3
      · rw [h3]
        rcases min_choice m a with h | h
        · exact .inl h
        · rw [h]; exact .inr (by simp)
      · exact .inr (by simp [h3])

theorem foldl_max (l : List F) (m : F) : (∀ x ∈ l, x ≤ l.foldl max m) ∧ m ≤ l.foldl max m ∧ (l.foldl max m = m ∨ l.foldl max m ∈ l) := by
  induction l generalizing m with
  | nil => exact ⟨by simp, le_refl _, .inl rfl⟩
  | cons a l ih =>
    obtain ⟨h1, h2, h3⟩ := ih (max m a)
    simp only [List.foldl_cons]
    refine ⟨?_, le_trans (le_max_left _ _) h2, ?_⟩
    · intro x hx
      rcases List.mem_cons.1 hx with rfl | hx
      · exact le_trans (le_max_right _ _) h2
      · exact h1 x hx
    · rcases h3 with h3 | h3
      · rw [h3]
        rcases max_choice m a with h | h
        · exact .inl h
        · rw [h]; exact .inr (by simp)
      · exact .inr (by simp [h3])

omit [LinearOrder F] in
theorem coord_init (c : V3 F → F) (hc : c = V3.x ∨ c = V3.y ∨ c = V3.z) (m : F) : c ⟨m, m, m⟩ = m := by
  rcases hc with rfl | rfl | rfl <;> rfl

/-- **C56**, the lower corner — it is the smallest coordinate of the corners in every direction. (Nothing exceeds the largest
`float`.) -/
theorem c56_min (b : Box F) (c : V3 F → F) (hc : c = V3.x ∨ c = V3.y ∨ c = V3.z)
    (hmax : ∀ p, IsCorner o b p → c p ≤ o.fltMax) : IsLow o b c (c (Box.asBbox o b).1) := by
  have h := (fold_coord o b (Box.signs o) (⟨o.fltMax, o.fltMax, o.fltMax⟩, ⟨o.fltMin, o.fltMin, o.fltMin⟩) c hc).1
  rw [coord_init c hc] at h
  obtain ⟨h1, h2, h3⟩ := foldl_min ((Box.signs o).map fun i => c (Box.corner o b i)) o.fltMax
  unfold Box.asBbox
  rw [h]
  refine ⟨?_, ?_⟩
  · rcases h3 with h3 | h3
    · refine ⟨Box.corner o b (o.one, o.one, o.one), (isCorner_iff o b _).2 ⟨_, (mem_signs o _).2 ⟨.inl rfl, .inl rfl, .inl rfl⟩, rfl⟩, ?_⟩
      have hs : (o.one, o.one, o.one) ∈ Box.signs o := (mem_signs o _).2 ⟨.inl rfl, .inl rfl, .inl rfl⟩
      have l1 := h1 _ (List.mem_map.2 ⟨_, hs, rfl⟩)
      have l2 := hmax _ ((isCorner_iff o b _).2 ⟨_, hs, rfl⟩)
      rw [h3] at l1 ⊢
      exact le_antisymm l2 l1
    · obtain ⟨s, hs, e⟩ := List.mem_map.1 h3
      exact ⟨_, (isCorner_iff o b _).2 ⟨s, hs, rfl⟩, e⟩
  · intro p hp
    obtain ⟨s, hs, rfl⟩ := (isCorner_iff o b p).1 hp
    exact h1 _ (List.mem_map.2 ⟨s, hs, rfl⟩)

/-- **C56**, the upper corner, for boxes that reach `FLT_MIN` (a positive number) in the direction. -/
theorem c56_max_partial (b : Box F) (c : V3 F → F) (hc : c = V3.x ∨ c = V3.y ∨ c = V3.z)
    (hmin : ∃ p, IsCorner o b p ∧ o.fltMin ≤ c p) : IsHigh o b c (c (Box.asBbox o b).2) := by
  have h := (fold_coord o b (Box.signs o) (⟨o.fltMax, o.fltMax, o.fltMax⟩, ⟨o.fltMin, o.fltMin, o.fltMin⟩) c hc).2
  rw [coord_init c hc] at h
  obtain ⟨h1, h2, h3⟩ := foldl_max ((Box.signs o).map fun i => c (Box.corner o b i)) o.fltMin
  unfold Box.asBbox
  rw [h]
  refine ⟨?_, ?_⟩
  · rcases h3 with h3 | h3
    · obtain ⟨p, hp, hle⟩ := hmin
      obtain ⟨s, hs, rfl⟩ := (isCorner_iff o b p).1 hp
      have l1 := h1 _ (List.mem_map.2 ⟨s, hs, rfl⟩)
      rw [h3] at l1 ⊢
      exact ⟨_, hp, le_antisymm l1 hle⟩
    · obtain ⟨s, hs, e⟩ := List.mem_map.1 h3
      exact ⟨_, (isCorner_iff o b _).2 ⟨s, hs, rfl⟩, e⟩
  · intro p hp
    obtain ⟨s, hs, rfl⟩ := (isCorner_iff o b p).1 hp
    exact h1 _ (List.mem_map.2 ⟨s, hs, rfl⟩)

/-- **C56** is false of every box that lies at negative coordinates in some direction: its upper bound is `FLT_MIN` there. -/
theorem c56_violation (b : Box F) (c : V3 F → F) (hc : c = V3.x ∨ c = V3.y ∨ c = V3.z)
    (hneg : ∀ p, IsCorner o b p → c p < o.fltMin) :
    c (Box.asBbox o b).2 = o.fltMin ∧ ¬ IsHigh o b c (c (Box.asBbox o b).2) := by
  have h := (fold_coord o b (Box.signs o) (⟨o.fltMax, o.fltMax, o.fltMax⟩, ⟨o.fltMin, o.fltMin, o.fltMin⟩) c hc).2
  rw [coord_init c hc] at h
  obtain ⟨h1, h2, h3⟩ := foldl_max ((Box.signs o).map fun i => c (Box.corner o b i)) o.fltMin
  have e : c (Box.asBbox o b).2 = o.fltMin := by
    unfold Box.asBbox
    rw [h]
    rcases h3 with h3 | h3
    · exact h3
    · obtain ⟨s, hs, e⟩ := List.mem_map.1 h3
      have := hneg _ ((isCorner_iff o b _).2 ⟨s, hs, rfl⟩)
      rw [e] at this
      exact absurd h2 (not_le.2 this)
  refine ⟨e, fun hh => ?_⟩
  obtain ⟨⟨p, hp, hpe⟩, _⟩ := hh
  have := hneg p hp
  rw [hpe, e] at this
  exact lt_irrefl _ this

end

/-- Exact arithmetic (the numbers of the example are `float`s, and so are the results). -/
def exact : FloatOps Rat :=
  { add := (· + ·), mul := (· * ·), one := 1, minusOne := -1, fltMax := (2 ^ 24 - 1) * 2 ^ 104, fltMin := 1 / 2 ^ 126 }

/-- A cube of side 2 around (-10, -10, -10). -/
def negCube : Box Rat := ⟨⟨-10, -10, -10⟩, ⟨1, 0, 0⟩, ⟨0, 1, 0⟩, ⟨0, 0, 1⟩, ⟨1, 1, 1⟩⟩

example : (Box.asBbox exact negCube).2.x = 1 / 2 ^ 126 ∧ (Box.asBbox exact negCube).1.x = -11 := by decide +kernel

example : ∀ p, IsCorner exact negCube p → p.x < exact.fltMin ∧ p.x ≤ exact.fltMax := by
  intro p hp
  obtain ⟨s, hs, rfl⟩ := (isCorner_iff _ _ _).1 hp
  have : ∀ s ∈ Box.signs exact, (Box.corner exact negCube s).x < exact.fltMin ∧ (Box.corner exact negCube s).x ≤ exact.fltMax := by
    decide +kernel
  exact this s hs

/-- A cube around the origin meets the condition of the partial theorem. -/
example : ∃ p, IsCorner exact { negCube with center := ⟨0, 0, 0⟩ } p ∧ exact.fltMin ≤ p.x :=
  ⟨⟨1, 1, 1⟩, ⟨1, 1, 1, .inl rfl, .inl rfl, .inl rfl, by decide +kernel, by decide +kernel, by decide +kernel⟩, by decide +kernel⟩

end Verif.Props
