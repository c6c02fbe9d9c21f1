import Verif.Lemmas.Compare

/-! # C120: comparing vectors, quaternions, matrices and colors; C121: products of colors -/

namespace Verif.Props

open Spec Cmp

/-- **C120** — two-component vectors are equal if their components are the same numbers. -/
theorem c120_vec2 : Compares parts2 eq2 := by
  intro v w
  simp [parts2, eq2, eqF_iff]

/-- **C120** — three components. -/
theorem c120_vec3 : Compares parts3 eq3 := by
  intro v w
  simp [parts3, eq3, eqF_iff, and_assoc]

/-- **C120** — four components. -/
theorem c120_vec4 : Compares parts4 eq4 := by
  intro v w
  simp [parts4, eq4, eqF_iff, and_assoc]

/-- **C120** — quaternions. -/
theorem c120_quat : Compares partsQ eqQ := by
  intro v w
  simp only [partsQ, eqQ, Bool.and_eq_true, eqF_iff, List.forall₂_cons, List.forall₂_nil_right_iff]
  tauto

/-- **C120** — matrices with three columns. -/
theorem c120_mat3 : Compares partsM3 eqM3 := by
  intro v w
  simp [partsM3, parts3, eqM3, eq3, eqF_iff, and_assoc]

/-- **C120** — matrices with four columns. -/
theorem c120_mat4 : Compares partsM4 eqM4 := by
  intro v w
  simp [partsM4, parts4, eqM4, eq4, eqF_iff, and_assoc]

/-- **C120** — colors are equal if all of their components are. -/
theorem c120_color (c d : Color) : eqC c d = true ↔ c = d := by
  obtain ⟨r, g, b, a⟩ := c
  obtain ⟨r', g', b', a'⟩ := d
  simp [eqC, and_assoc]

/-- **C120** — what follows for anything that is compared so: the order does not matter, things equal to the same thing are equal, and
a thing is equal to itself unless one of its components is not a number. -/
theorem c120_equivalence {α} {f : α → List F32} {e : α → α → Bool} (h : Compares f e) :
    (∀ v w, e v w = e w v) ∧ (∀ u v w, e u v = true → e v w = true → e u w = true) ∧ ∀ v, e v v = true ↔ ∀ a ∈ f v, Number a := by
  have symm : ∀ l m : List F32, List.Forall₂ SameNumber l m → List.Forall₂ SameNumber m l := by
    intro l m hl
    induction hl with
    | nil => exact .nil
    | cons h _ ih => exact .cons ⟨h.2.1, h.1, h.2.2.symm⟩ ih
  refine ⟨fun v w => ?_, fun u v w h1 h2 => ?_, fun v => ?_⟩
  · rw [Bool.eq_iff_iff, h, h]
    exact ⟨symm _ _, symm _ _⟩
  · rw [h] at h1 h2 ⊢
    generalize f u = l at *
    generalize f v = m at *
    generalize f w = n at *
    induction h1 generalizing n with
    | nil => exact h2
    | cons h1 _ ih =>
      cases h2 with
      | cons h2 h3 => exact .cons ⟨h1.1, h2.2.1, h1.2.2.trans h2.2.2⟩ (ih _ h3)
  · rw [h]
    generalize f v = l
    induction l with
    | nil => simp
    | cons a l _ => simp [SameNumber]

/-- 1 and 2, -1, the zeroes, and something that is not a number. -/
example : number 0x3f800000 = 2 ^ 149 ∧ number 0x40000000 = 2 ^ 150 ∧ number 0xbf800000 = -2 ^ 149 ∧ number 1 = 1 ∧
    number 0x80000000 = number 0 ∧ ¬ Number 0x7fc00000 ∧ Number 0x7f800000 := by decide +kernel

example : eq3 ⟨0x3f800000, 0, 0⟩ ⟨0x3f800000, 0x80000000, 0⟩ = true := by decide

/-- **C120** — equal is not the same as indistinguishable: a vector that was loaded need not be equal to itself, and equal vectors may be
saved as different bytes. -/
theorem c120_violation : (∃ v : Vec3, eq3 v v = false) ∧ ∃ v w : Vec3, eq3 v w = true ∧ v.mem ≠ w.mem :=
  ⟨⟨⟨0x7fc00000, 0, 0⟩, by decide⟩, ⟨0, 0, 0⟩, ⟨0x80000000, 0, 0⟩, by decide, by decide⟩

/-! ## Products of colors -/

/-- The components as numbers from 0 to 255. -/
def shades (c : Color) : List Nat := [c.r, c.g, c.b, c.a].map BitVec.toNat

/-- **C121** — the components of a product are the products of the components, modulo 256. -/
theorem c121_mul (c d : Color) : shades (mul c d) = List.zipWith (fun x y => x * y % 256) (shades c) (shades d) := by
  simp [shades, mul]

/-- **C121** — the same for a factor. -/
theorem c121_scale (c : Color) (s : BitVec 8) : shades (scale c s) = (shades c).map fun x => x * s.toNat % 256 := by
  simp [shades, scale]

/-- **C121** — the product is exact as long as no component exceeds 255. -/
theorem c121_exact (c d : Color) (h : ∀ x ∈ List.zipWith (· * ·) (shades c) (shades d), x < 256) :
    shades (mul c d) = List.zipWith (· * ·) (shades c) (shades d) := by
  rw [c121_mul]
  revert h
  generalize shades c = l
  generalize shades d = m
  intro h
  induction l generalizing m with
  | nil => rfl
  | cons x l ih =>
    cases m with
    | nil => rfl
    | cons y m =>
      simp only [List.zipWith_cons_cons, List.mem_cons, forall_eq_or_imp] at h ⊢
      rw [ih m h.2, Nat.mod_eq_of_lt h.1]

example : shades (mul ⟨10, 20, 30, 1⟩ ⟨2, 3, 4, 255⟩) = [20, 60, 120, 255] := by decide

/-- **C121** — the order of the factors and how they are grouped does not matter. -/
theorem c121_laws (c d e : Color) (s : BitVec 8) : mul c d = mul d c ∧ mul (mul c d) e = mul c (mul d e) ∧ scale c s = mul c ⟨s, s, s, s⟩ ∧
    mul c ⟨1, 1, 1, 1⟩ = c := by
  refine ⟨?_, ?_, rfl, ?_⟩
  · simp [mul, Nat.mul_comm]
  · simp only [mul, Color.mk.injEq]
    refine ⟨?_, ?_, ?_, ?_⟩ <;>
      (apply BitVec.eq_of_toNat_eq; simp [Nat.mod_mul_mod, Nat.mul_mod_mod, Nat.mul_assoc])
  · simp [mul]

/-- **C121** — modulating with white, as a renderer would, is not neutral: it turns every component into its negative modulo 256, so that
a dark color becomes a bright one. -/
theorem c121_violation (c : Color) : shades (mul c ⟨255, 255, 255, 255⟩) = (shades c).map (fun x => (256 - x) % 256) ∧
    mul ⟨1, 1, 1, 255⟩ ⟨255, 255, 255, 255⟩ = ⟨255, 255, 255, 1⟩ := by
  refine ⟨?_, by decide⟩
  rw [c121_mul]
  obtain ⟨r, g, b, a⟩ := c
  have h : ∀ x : BitVec 8, x.toNat * 255 % 256 = (256 - x.toNat) % 256 := by
    intro x
    have := x.isLt
    omega
  simp [shades, h]

end Verif.Props
