import Verif.Spec.Indexing

/-! # Components by index: C118 -/

namespace Verif.Props

open Spec Ix

/-- **C118** — vectors with two components. -/
theorem c118_vec2 : Indexed vec2 [Vec2.x, Vec2.y] where
  read := by
    intro a i c h
    match i with
    | 0 | 1 => cases h; rfl
    | i + 2 => cases h
  write := by
    intro a i c v h
    match i with
    | 0 | 1 =>
      cases h
      refine ⟨_, rfl, rfl, ?_⟩
      intro j d hj hn
      match j with
      | 0 | 1 => cases hj; first | rfl | exact absurd rfl hn
      | j + 2 => cases hj
    | i + 2 => cases h
  bounds := by
    intro a i v h
    match i with
    | 0 | 1 => simp at h
    | i + 2 => exact ⟨by simp [Ix.get, vec2], by simp [Ix.put, vec2]⟩

/-- **C118** — vectors with three components. -/
theorem c118_vec3 : Indexed vec3 [Vec3.x, Vec3.y, Vec3.z] where
  read := by
    intro a i c h
    match i with
    | 0 | 1 | 2 => cases h; rfl
    | i + 3 => cases h
  write := by
    intro a i c v h
    match i with
    | 0 | 1 | 2 =>
      cases h
      refine ⟨_, rfl, rfl, ?_⟩
      intro j d hj hn
      match j with
      | 0 | 1 | 2 => cases hj; first | rfl | exact absurd rfl hn
      | j + 3 => cases hj
    | i + 3 => cases h
  bounds := by
    intro a i v h
    match i with
    | 0 | 1 | 2 => simp at h
    | i + 3 => exact ⟨by simp [Ix.get, vec3], by simp [Ix.put, vec3]⟩

/-- **C118** — vectors with four components. -/
theorem c118_vec4 : Indexed vec4 [Vec4.x, Vec4.y, Vec4.z, Vec4.w] where
  read := by
    intro a i c h
    match i with
    | 0 | 1 | 2 | 3 => cases h; rfl
    | i + 4 => cases h
  write := by
    intro a i c v h
    match i with
    | 0 | 1 | 2 | 3 =>
      cases h
      refine ⟨_, rfl, rfl, ?_⟩
      intro j d hj hn
      match j with
      | 0 | 1 | 2 | 3 => cases hj; first | rfl | exact absurd rfl hn
      | j + 4 => cases hj
    | i + 4 => cases h
  bounds := by
    intro a i v h
    match i with
    | 0 | 1 | 2 | 3 => simp at h
    | i + 4 => exact ⟨by simp [Ix.get, vec4], by simp [Ix.put, vec4]⟩

/-- **C118** — colors. -/
theorem c118_color : Indexed color [Color.r, Color.g, Color.b, Color.a] where
  read := by
    intro a i c h
    match i with
    | 0 | 1 | 2 | 3 => cases h; rfl
    | i + 4 => cases h
  write := by
    intro a i c v h
    match i with
    | 0 | 1 | 2 | 3 =>
      cases h
      refine ⟨_, rfl, rfl, ?_⟩
      intro j d hj hn
      match j with
      | 0 | 1 | 2 | 3 => cases hj; first | rfl | exact absurd rfl hn
      | j + 4 => cases hj
    | i + 4 => cases h
  bounds := by
    intro a i v h
    match i with
    | 0 | 1 | 2 | 3 => simp at h
    | i + 4 => exact ⟨by simp [Ix.get, color], by simp [Ix.put, color]⟩

/-- **C118** — the last three components of quaternions; the first one is never changed. Missing: see `c118_quat_violation`. -/
theorem c118_quat_partial : Indexed quat [Quat.x, Quat.y, Quat.z] ∧ ∀ q i v q', Ix.put quat q i v = .ok q' → q'.w = q.w := by
  refine ⟨⟨?_, ?_, ?_⟩, ?_⟩
  · intro a i c h
    match i with
    | 0 | 1 | 2 => cases h; rfl
    | i + 3 => cases h
  · intro a i c v h
    match i with
    | 0 | 1 | 2 =>
      cases h
      refine ⟨_, rfl, rfl, ?_⟩
      intro j d hj hn
      match j with
      | 0 | 1 | 2 => cases hj; first | rfl | exact absurd rfl hn
      | j + 3 => cases hj
    | i + 3 => cases h
  · intro a i v h
    match i with
    | 0 | 1 | 2 => simp at h
    | i + 3 =>
      have e : 1 + (i + 3) = i + 4 := by omega
      exact ⟨by simp [Ix.get, quat, e], by simp [Ix.put, quat, e]⟩
  · intro q i v q' h
    match i with
    | 0 | 1 | 2 => cases h; rfl
    | i + 3 =>
      have e : 1 + (i + 3) = i + 4 := by omega
      simp [Ix.put, quat, e] at h
      rw [if_neg (by omega)] at h
      cases h

/-- **C118** is false of quaternions: whatever order one expects, four components cannot be reached, as the index counts from the second
member on; the fourth index is behind the object. -/
theorem c118_quat_violation : (¬ ∃ names : List (Quat → F32), names.length = 4 ∧ Indexed quat names) ∧
    ∀ q v, Ix.get quat q 3 = .error .ub ∧ Ix.put quat q 3 v = .error .ub := by
  refine ⟨?_, fun q v => ⟨rfl, rfl⟩⟩
  rintro ⟨names, hl, h⟩
  have h3 : names[3]? = some (names[3]'(by omega)) := List.getElem?_eq_getElem (by omega)
  have := h.read ⟨0, 0, 0, 0⟩ 3 _ h3
  cases this

/-- **C118** — `m[i][j]` of a transposed matrix is `m[j][i]` of the matrix, and is in bounds if this is. -/
theorem c118_transpose3 (m : Mat3) (i j : Nat) : Ix.get3 m.transpose i j = Ix.get3 m j i := by
  match i, j with
  | 0, 0 | 0, 1 | 0, 2 | 1, 0 | 1, 1 | 1, 2 | 2, 0 | 2, 1 | 2, 2 => rfl
  | 0, j + 3 | 1, j + 3 | 2, j + 3 => rfl
  | i + 3, 0 | i + 3, 1 | i + 3, 2 => rfl
  | i + 3, j + 3 => rfl

theorem c118_transpose4 (m : Mat4) (i j : Nat) : Ix.get4 m.transpose i j = Ix.get4 m j i := by
  match i, j with
  | 0, 0 | 0, 1 | 0, 2 | 0, 3 | 1, 0 | 1, 1 | 1, 2 | 1, 3 | 2, 0 | 2, 1 | 2, 2 | 2, 3 | 3, 0 | 3, 1 | 3, 2 | 3, 3 => rfl
  | 0, j + 4 | 1, j + 4 | 2, j + 4 | 3, j + 4 => rfl
  | i + 4, 0 | i + 4, 1 | i + 4, 2 | i + 4, 3 => rfl
  | i + 4, j + 4 => rfl

/-- **C118** — the numbers behind `pointer()` of a matrix are its columns, one after the other. -/
theorem c118_pointer (m : Mat3) (n : Mat4) (i j : Nat) : (j < 3 → Ix.flat3 m (3 * i + j) = Ix.get3 m i j) ∧
    (j < 4 → Ix.flat4 n (4 * i + j) = Ix.get4 n i j) := by
  refine ⟨fun hj => ?_, fun hj => ?_⟩
  · match i, j with
    | 0, 0 | 0, 1 | 0, 2 | 1, 0 | 1, 1 | 1, 2 | 2, 0 | 2, 1 | 2, 2 => rfl
    | i + 3, 0 | i + 3, 1 | i + 3, 2 => rfl
    | _, j + 3 => omega
  · match i, j with
    | 0, 0 | 0, 1 | 0, 2 | 0, 3 | 1, 0 | 1, 1 | 1, 2 | 1, 3 | 2, 0 | 2, 1 | 2, 2 | 2, 3 | 3, 0 | 3, 1 | 3, 2 | 3, 3 => rfl
    | i + 4, 0 | i + 4, 1 | i + 4, 2 | i + 4, 3 => rfl
    | _, j + 4 => omega

/-- **C118** — the identity has ones on its diagonal and zeros elsewhere. -/
theorem c118_identity (one : F32) (i j : Nat) : (i < 3 → j < 3 → Ix.get3 (identity3 one) i j = .ok (if i = j then one else 0)) ∧
    (i < 4 → j < 4 → Ix.get4 (identity4 one) i j = .ok (if i = j then one else 0)) := by
  refine ⟨fun hi hj => ?_, fun hi hj => ?_⟩
  · match i, j with
    | 0, 0 | 0, 1 | 0, 2 | 1, 0 | 1, 1 | 1, 2 | 2, 0 | 2, 1 | 2, 2 => rfl
    | _, j + 3 => omega
    | i + 3, _ => omega
  · match i, j with
    | 0, 0 | 0, 1 | 0, 2 | 0, 3 | 1, 0 | 1, 1 | 1, 2 | 1, 3 | 2, 0 | 2, 1 | 2, 2 | 2, 3 | 3, 0 | 3, 1 | 3, 2 | 3, 3 => rfl
    | _, j + 4 => omega
    | i + 4, _ => omega

example : Ix.get quat ⟨1, 2, 3, 4⟩ 0 = .ok 2 ∧ Ix.put vec3 ⟨1, 2, 3⟩ 1 7 = .ok ⟨1, 7, 3⟩ ∧
    Ix.get3 (Mat3.transpose ⟨⟨1, 2, 3⟩, ⟨4, 5, 6⟩, ⟨7, 8, 9⟩⟩) 0 2 = .ok 7 := ⟨rfl, rfl, rfl⟩

end Verif.Props
