import Verif.Lemmas.Mesh
import Verif.Lemmas.MeshTame
import Verif.Lemmas.Reload

/-! # Meshes that were loaded -/

namespace Verif

theorem EatsAt.mono {data : Bytes} {α} {p : Rd α} {R S : α → Nat → Prop} (h : EatsAt data p R) (hs : ∀ a k, R a k → S a k) : EatsAt data p S := by
  intro pos a s hp e
  obtain ⟨h1, h2, h3, h4⟩ := h pos a s hp e
  exact ⟨h1, h2, h3, hs _ _ h4⟩

/-- The number of values read by a loop. -/
theorem EatsAt.count {data : Bytes} (hd : data.length < 2 ^ 32) {α} {p : Rd α} (hp : Fwd (.all True) p) (n : Nat) :
    EatsAt data (Rd.times p n) fun as _ => as.length = n :=
  (EatsAt.times (Q := fun _ => True) (size := fun _ => 0) ((EatsAt.of_fwd hd hp).mono fun _ _ _ => ⟨trivial, Nat.zero_le _⟩) n).mono fun _ _ h => h.1

theorem EatsAt.obb {data : Bytes} (hd : data.length < 2 ^ 32) : EatsAt data Obb.load fun b _ => b.Small := by
  intro pos a s hp e
  obtain ⟨q, rfl, l1, l2, _⟩ := (EatsAt.of_fwd hd Fwd.obb).step hp e
  exact ⟨rfl, l1, l2, (Obb.small_of_load _).1 _ _ _ e⟩

/-- What a file can say of a polygon. -/
def Poly.Stored (p : Poly) : Prop :=
  p.material.toNat < 2 ^ 16 ∧ (p.lightmap.setWidth 16).signExtend 32 = p.lightmap ∧ p.indexCount < 256

theorem Poly.eats {data : Bytes} (hd : data.length < 2 ^ 32) (g2 wide : Bool) (o : BitVec 32) :
    EatsAt data (Poly.load g2 wide o) fun r _ => r.1.Stored ∧ r.1.indexOffset = o.toNat ∧ r.2.length = r.1.indexCount ∧
      r.1.flags.normalAxis &&& 1 = r.1.flags.normalAxis := by
  have hflags : EatsAt data (PolyFlags.load g2) fun f _ => f.normalAxis &&& 1 = f.normalAxis := by
    unfold PolyFlags.load PolyFlags.loadG1 PolyFlags.loadG2
    split
    · refine (EatsAt.of_fwd hd Fwd.u8).bind fun f _ _ => (EatsAt.of_fwd hd Fwd.u16).bind fun _ _ _ => .pure ?_
      simp [PolyFlags.ofByte]
    · refine (EatsAt.of_fwd hd Fwd.u8).bind fun f1 _ _ => (EatsAt.of_fwd hd Fwd.u8).bind fun f2 _ _ =>
        (EatsAt.of_fwd hd Fwd.u16).bind fun _ _ _ => .pure ?_
      dsimp only
      apply BitVec.eq_of_getLsbD_eq
      intro i hi
      rcases i with _ | _ | i
      · simp
      · simp
      · omega
  have hcorner : Fwd (.all True) (Mesh.loadCorner (g2 || wide)) := by
    unfold Mesh.loadCorner Mesh.loadIndex
    split
    · exact Fwd.u32.bind fun _ => Fwd.u32.bind fun _ => .pure _
    · exact (Fwd.u16.bind fun _ => .pure _).bind fun _ => Fwd.u32.bind fun _ => .pure _
  refine (EatsAt.of_fwd hd Fwd.u16).bind fun m _ _ => (EatsAt.of_fwd hd Fwd.u16).bind fun l _ _ => (EatsAt.of_fwd hd Fwd.f32).bind fun _ _ _ =>
    (EatsAt.of_fwd hd Fwd.vec3).bind fun _ _ _ => hflags.bind fun f _ hf => (EatsAt.of_fwd hd Fwd.u8).bind fun n _ _ =>
    (EatsAt.count hd hcorner n.toNat).bind fun cs _ hc => .pure ⟨⟨?_, ?_, n.isLt⟩, rfl, hc, hf⟩
  · have := m.isLt
    simp only [BitVec.toNat_setWidth]
    omega
  · dsimp only
    have : (l.signExtend 32).setWidth 16 = l := by
      apply BitVec.eq_of_getLsbD_eq
      intro i hi
      rw [BitVec.getLsbD_setWidth, BitVec.getLsbD_signExtend]
      simp [hi, show i < 32 by omega]
    rw [this]

theorem Poly.many_eats {data : Bytes} (hd : data.length < 2 ^ 32) (g2 wide : Bool) (n : Nat) : ∀ o : BitVec 32,
    EatsAt data (Poly.loadMany g2 wide n o) fun r _ => r.1.length = n ∧ (∀ p ∈ r.1, p.Stored ∧ p.flags.normalAxis &&& 1 = p.flags.normalAxis) ∧
      r.2.length = (r.1.map (·.indexCount)).sum ∧ (o.toNat + r.2.length < 2 ^ 32 → Contiguous o.toNat r.1) := by
  induction n with
  | zero => intro o; exact .pure ⟨rfl, by simp, rfl, fun _ => trivial⟩
  | succ n ih =>
    intro o
    refine (Poly.eats hd g2 wide o).bind fun ⟨p, cs⟩ _ ⟨h1, h2, h3, h4⟩ => (ih _).bind fun ⟨ps, cs'⟩ _ ⟨i1, i2, i3, i4⟩ => .pure ?_
    dsimp only at h1 h2 h3 h4 i1 i2 i3 i4 ⊢
    refine ⟨by simp [i1], ?_, by simp [h3, i3], fun hs => ?_⟩
    · intro x hx
      rcases List.mem_cons.1 hx with rfl | hx
      · exact ⟨h1, h4⟩
      · exact i2 x hx
    · rw [List.length_append] at hs
      have e : (o + BitVec.ofNat 32 p.indexCount).toNat = o.toNat + p.indexCount := by
        rw [BitVec.toNat_add, BitVec.toNat_ofNat, Nat.mod_eq_of_lt (a := p.indexCount) (by omega), Nat.mod_eq_of_lt (by omega)]
      rw [e] at i4
      exact ⟨h2, i4 (by omega)⟩

/-- What holds of a mesh that is loaded into a new object. -/
structure Mesh.From (m : Mesh) : Prop where
  name : NoEol m.name
  obb : m.obb.Small
  lengths : m.vertexIndices.length = m.featureIndices.length
  contiguous : m.vertexIndices.length < 2 ^ 32 → Contiguous 0 m.geometry
  total : (m.geometry.map (·.indexCount)).sum ≤ m.vertexIndices.length
  polys : ∀ p ∈ m.geometry, p.Stored ∧ p.flags.normalAxis &&& 1 = p.flags.normalAxis
  vertexCount : m.vertices.length < 2 ^ 32
  featureCount : m.features.length < 2 ^ 32
  polygonCount : m.geometry.length < 2 ^ 32
  triangles : m.polygons = {}

theorem Mesh.onChunk_from {data : Bytes} (hd : data.length < 2 ^ 32) (wide : Bool) (st : Mesh × BitVec 16) (t : BitVec 16) (h : st.1.From) :
    EatsAt data (Mesh.onChunk wide st t) fun r _ => r.1.1.From := by
  obtain ⟨m, v⟩ := st
  unfold Mesh.onChunk Mesh.onChunkV
  dsimp only at h ⊢
  split
  · exact (EatsAt.of_fwd hd Fwd.u16).bind fun _ _ _ => (EatsAt.of_fwd hd Fwd.date).bind fun _ _ _ => EatsAt.line.bind fun _ _ hl =>
      .pure { h with name := hl.1 }
  split
  · exact (EatsAt.of_fwd hd Fwd.aabb).bind fun _ _ _ => (EatsAt.obb hd).bind fun _ _ ho => .pure { h with obb := ho }
  split
  · exact (EatsAt.of_fwd hd Fwd.u32).bind fun n _ _ => (EatsAt.count hd Fwd.vec3 n.toNat).bind fun _ _ hc =>
      .pure { h with vertexCount := by rw [show List.length _ = _ from hc]; exact n.isLt }
  split
  · exact (EatsAt.of_fwd hd Fwd.u32).bind fun n _ _ =>
      (EatsAt.count hd (Fwd.vec2.bind fun _ => Fwd.u32.bind fun _ => Fwd.vec3.bind fun _ => .pure _) n.toNat).bind fun _ _ hc =>
      .pure { h with featureCount := by rw [show List.length _ = _ from hc]; exact n.isLt }
  split
  · refine (EatsAt.of_fwd hd Fwd.u32).bind fun n _ _ => (Poly.many_eats hd (v == 265) wide n.toNat 0).bind fun ⟨ps, cs⟩ _ ⟨h1, h2, h3, h4⟩ =>
      .pure ?_
    dsimp only at h1 h2 h3 h4 ⊢
    refine { h with lengths := ?_, contiguous := ?_, total := ?_, polys := h2, polygonCount := ?_ }
    · simp [h.lengths]
    · intro hl
      simp only [List.length_append, List.length_map] at hl
      exact h4 (by show (0 : BitVec 32).toNat + _ < _; rw [show (0 : BitVec 32).toNat = 0 from rfl]; omega)
    · simp only [List.length_append, List.length_map]
      omega
    · show ps.length < _
      rw [h1]
      exact n.isLt
  split <;> exact .pure h

theorem Mesh.load_from {data : Bytes} (hd : data.length < 2 ^ 32) {wide : Bool} {m m' : Mesh} (h : m.From) {pos : Nat} (hp : pos ≤ data.length)
    {st : Rs} (e : m.load wide ⟨data, pos⟩ = .ok (m', st)) : m'.From := by
  unfold Mesh.load at e
  obtain ⟨⟨m1, v⟩, s1, e1, e2⟩ := Rd.bind_inv e
  have := EatsAt.chunked (I := fun st : Mesh × BitVec 16 => st.1.From) hd (Mesh.onChunk_from hd wide) (s := (m, 0)) h hp e1
  cases e2
  exact this

end Verif
