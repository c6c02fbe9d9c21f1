import Verif.Lemmas.Stream
import Verif.Model.Boxes

/-! # Lemmas about bounding boxes -/

namespace Verif.Obb

mutual
/-- The bytes of a box. -/
def enc : Obb → Bytes
  | .mk c a0 a1 a2 h children =>
    c.mem ++ (a0.mem ++ (a1.mem ++ (a2.mem ++ (h.mem ++ (encW 2 (BitVec.ofNat 16 children.length) ++ encMany children)))))
def encMany : List Obb → Bytes
  | [] => []
  | c :: cs => enc c ++ encMany cs
end

mutual
/-- Every box has less than 65536 children. -/
def Small : Obb → Prop
  | .mk _ _ _ _ _ children => children.length < 65536 ∧ SmallMany children
def SmallMany : List Obb → Prop
  | [] => True
  | c :: cs => Small c ∧ SmallMany cs
end

mutual
theorem emits (b : Obb) : Emits b.save b.enc := by
  match b with
  | .mk c a0 a1 a2 h children =>
    exact ((((((Emits.vec3 c).comp (Emits.vec3 a0)).comp (Emits.vec3 a1)).comp (Emits.vec3 a2)).comp (Emits.vec3 h)).comp
      (Emits.u16 _)).comp (emitsMany children) |>.congr (by simp [enc])
theorem emitsMany (cs : List Obb) : Emits (saveMany cs) (encMany cs) := by
  match cs with
  | [] => exact Emits.id
  | c :: cs => exact (emits c).comp (emitsMany cs)
end

mutual
theorem reads (b : Obb) (hs : b.Small) (fuel : Nat) (hf : b.enc.length ≤ fuel) : Reads (loadFuel fuel) b.enc b := by
  match b, hs, hf with
  | .mk c a0 a1 a2 h children, hs, hf =>
    obtain ⟨h1, h2⟩ := hs
    simp only [enc, List.length_append, Vec3.mem_length, encW_length] at hf
    match fuel, hf with
    | 0, hf => exact absurd hf (by omega)
    | fuel + 1, hf =>
      have hn : (BitVec.ofNat 16 children.length).toNat = children.length := by simp; omega
      unfold loadFuel enc
      refine (Reads.vec3 c).bind ((Reads.vec3 a0).bind ((Reads.vec3 a1).bind ((Reads.vec3 a2).bind ((Reads.vec3 h).bind
        ((Reads.u16 _).bind ?_)))))
      rw [hn]
      exact (readsMany children h2 fuel (by omega)).bind_pure
theorem readsMany (cs : List Obb) (hs : SmallMany cs) (fuel : Nat) (hf : (encMany cs).length ≤ fuel) :
    Reads (loadMany fuel cs.length) (encMany cs) cs := by
  match cs, hs, hf with
  | [], _, _ =>
    unfold loadMany encMany
    exact Reads.pure []
  | c :: cs, hs, hf =>
    obtain ⟨h1, h2⟩ := hs
    simp only [encMany, List.length_append] at hf
    unfold encMany
    rw [List.length_cons]
    unfold loadMany
    exact (reads c h1 fuel (by omega)).bind (readsMany cs h2 fuel (by omega)).bind_pure
end

theorem padded_ok (k : Nat) (data : Bytes) (p : Nat) (hp : p ≤ data.length) :
    ∃ bs, Rd.readPadded k ⟨data, p⟩ = .ok (bs, ⟨data, min (p + k) data.length⟩) := by
  unfold Rd.readPadded
  rw [Rd.read_eq _ _ hp]
  exact ⟨_, rfl⟩

theorem vec3_ok (data : Bytes) (p : Nat) (hp : p ≤ data.length) :
    ∃ v, Rd.vec3 ⟨data, p⟩ = .ok (v, ⟨data, min (p + 12) data.length⟩) := by
  obtain ⟨bs, h⟩ := padded_ok 12 data p hp
  exact ⟨_, by unfold Rd.vec3; rw [Rd.bind_ok h]; rfl⟩

theorem u16_end (data : Bytes) : Rd.u16 ⟨data, data.length⟩ = .ok (0, ⟨data, data.length⟩) := by
  have h : Rd.readPadded 2 ⟨data, data.length⟩ = .ok ([0, 0], ⟨data, data.length⟩) := by
    unfold Rd.readPadded
    rw [Rd.read_eq _ _ (Nat.le_refl _)]
    have e : min (data.length + 2) data.length = data.length := by omega
    simp only [List.drop_length, List.take_nil, e]
    rfl
  unfold Rd.u16 Rd.word
  rw [Rd.bind_ok h]
  rfl

/-- Loading ends whatever is in the stream. -/
theorem load_ok (data : Bytes) (fuel : Nat) : ∀ pos, pos ≤ data.length → data.length - pos < fuel →
    ∃ b pos', loadFuel fuel ⟨data, pos⟩ = .ok (b, ⟨data, pos'⟩) ∧ pos ≤ pos' ∧ pos' ≤ data.length := by
  induction fuel with
  | zero => omega
  | succ fuel ih =>
    intro pos hp hf
    have many : ∀ n q, q ≤ data.length → (n = 0 ∨ data.length - q < fuel) →
        ∃ cs q', loadMany fuel n ⟨data, q⟩ = .ok (cs, ⟨data, q'⟩) ∧ q ≤ q' ∧ q' ≤ data.length := by
      intro n
      induction n with
      | zero =>
        intro q hq _
        exact ⟨[], q, by unfold loadMany; rfl, Nat.le_refl _, hq⟩
      | succ n ihn =>
        intro q hq h
        have h' : data.length - q < fuel := by omega
        obtain ⟨b, q1, e1, l1, u1⟩ := ih q hq h'
        obtain ⟨cs, q2, e2, l2, u2⟩ := ihn q1 u1 (.inr (by omega))
        refine ⟨b :: cs, q2, ?_, by omega, u2⟩
        unfold loadMany
        rw [Rd.bind_ok e1, Rd.bind_ok e2]
        rfl
    unfold loadFuel
    obtain ⟨c, e1⟩ := vec3_ok data pos hp
    obtain ⟨a0, e2⟩ := vec3_ok data (min (pos + 12) data.length) (by omega)
    obtain ⟨a1, e3⟩ := vec3_ok data (min (min (pos + 12) data.length + 12) data.length) (by omega)
    obtain ⟨a2, e4⟩ := vec3_ok data (min (min (min (pos + 12) data.length + 12) data.length + 12) data.length) (by omega)
    obtain ⟨h, e5⟩ := vec3_ok data (min (min (min (min (pos + 12) data.length + 12) data.length + 12) data.length + 12) data.length)
      (by omega)
    rw [Rd.bind_ok e1, Rd.bind_ok e2, Rd.bind_ok e3, Rd.bind_ok e4, Rd.bind_ok e5]
    generalize hq : min (min (min (min (min (pos + 12) data.length + 12) data.length + 12) data.length + 12) data.length + 12)
      data.length = q
    have hq1 : q ≤ data.length := by omega
    have hq2 : pos ≤ q := by omega
    by_cases hend : q = data.length
    · rw [hend]
      rw [Rd.bind_ok (u16_end data)]
      obtain ⟨cs, q', e, l, u⟩ := many 0 data.length (Nat.le_refl _) (.inl rfl)
      rw [show (0 : BitVec 16).toNat = 0 from rfl, Rd.bind_ok e]
      exact ⟨_, q', rfl, by omega, u⟩
    · obtain ⟨n, en⟩ := Rd.word_ok 16 2 data q hq1
      unfold Rd.u16
      rw [Rd.bind_ok en]
      obtain ⟨cs, q', e, l, u⟩ := many n.toNat (min (q + 2) data.length) (by omega) (.inr (by omega))
      rw [Rd.bind_ok e]
      exact ⟨_, q', rfl, by omega, u⟩

end Verif.Obb
