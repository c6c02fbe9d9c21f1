import Verif.Lemmas.Safe
import Verif.Lemmas.Texture

/-!
# What was loaded can be saved and loaded again

`EatsAt data p R`: when `p` returns a value of the stream `data`, it has moved forward, and `R` holds of the value and the number of bytes.
-/

namespace Verif

def EatsAt (data : Bytes) {α} (p : Rd α) (R : α → Nat → Prop) : Prop :=
  ∀ (pos : Nat) (a : α) (s : Rs), pos ≤ data.length → p ⟨data, pos⟩ = .ok (a, s) →
    s.data = data ∧ pos ≤ s.pos ∧ s.pos ≤ data.length ∧ R a (s.pos - pos)

theorem EatsAt.step {data : Bytes} {α} {p : Rd α} {R : α → Nat → Prop} (h : EatsAt data p R) {pos : Nat} (hp : pos ≤ data.length) {a : α} {s : Rs}
    (e : p ⟨data, pos⟩ = .ok (a, s)) : ∃ q, s = ⟨data, q⟩ ∧ pos ≤ q ∧ q ≤ data.length ∧ R a (q - pos) := by
  obtain ⟨h1, h2, h3, h4⟩ := h pos a s hp e
  exact ⟨s.pos, by rw [← h1], h2, h3, h4⟩

theorem EatsAt.bind {data : Bytes} {α β} {p : Rd α} {f : α → Rd β} {R : α → Nat → Prop} {S : β → Nat → Prop} (hp : EatsAt data p R)
    (hf : ∀ a m, R a m → EatsAt data (f a) fun b k => S b (m + k)) : EatsAt data (p >>= f) S := by
  intro pos b s hl h
  obtain ⟨a, ⟨d1, p1⟩, h1, h2⟩ := Rd.bind_inv h
  obtain ⟨e1, l1, l2, r1⟩ := hp pos a _ hl h1
  cases e1
  obtain ⟨e2, l3, l4, r2⟩ := hf a _ r1 p1 b s l2 h2
  dsimp only at l1
  refine ⟨e2, by omega, l4, ?_⟩
  rwa [show p1 - pos + (s.pos - p1) = s.pos - pos by omega] at r2

theorem EatsAt.pure {data : Bytes} {α} {a : α} {R : α → Nat → Prop} (h : R a 0) : EatsAt data (Pure.pure a : Rd α) R := by
  intro pos b s hl h'
  cases h'
  exact ⟨rfl, Nat.le_refl _, hl, by rwa [Nat.sub_self]⟩

theorem EatsAt.of_fwd {data : Bytes} (hd : data.length < 2 ^ 32) {α} {p : Rd α} (h : Fwd (.all True) p) : EatsAt data p fun _ _ => True := by
  intro pos a s hl e
  rcases h data pos ⟨hd, trivial⟩ hl with ⟨b, q, e', l1, l2⟩ | ⟨-, x, e'⟩
  · cases e'.symm.trans e
    exact ⟨rfl, l1, l2, trivial⟩
  · cases e'.symm.trans e

theorem lineOf_NoEol (bs : Bytes) : NoEol (lineOf bs) := by
  rw [noEol_iff]
  intro c hc
  have := List.all_eq_true.1 (List.all_takeWhile (p := fun c => !Rd.isEol c) (l := bs)) c hc
  simpa using this

theorem lineOf_le (bs : Bytes) : (lineOf bs).length ≤ bs.length := (List.takeWhile_sublist _).length_le

theorem EatsAt.line {data : Bytes} : EatsAt data (Rd.line false) fun l k => NoEol l ∧ l.length ≤ k := by
  intro pos a s hl h
  cases (line_false_eq data pos hl).symm.trans h
  have := lineOf_le (data.drop pos)
  rw [List.length_drop] at this
  refine ⟨rfl, ?_, ?_, lineOf_NoEol _, ?_⟩ <;> dsimp only <;> split <;> omega

theorem EatsAt.times {data : Bytes} {α} {p : Rd α} {Q : α → Prop} {size : α → Nat} (hp : EatsAt data p fun a k => Q a ∧ size a ≤ k) (n : Nat) :
    EatsAt data (Rd.times p n) fun as k => as.length = n ∧ (∀ a ∈ as, Q a) ∧ (as.map size).sum ≤ k := by
  induction n with
  | zero => exact .pure ⟨rfl, by simp, by simp⟩
  | succ n ih =>
    refine hp.bind fun a m ⟨h1, h2⟩ => ih.bind fun as k ⟨h3, h4, h5⟩ => .pure ⟨by simp [h3], ?_, ?_⟩
    · intro x hx
      rcases List.mem_cons.1 hx with rfl | hx
      · exact h1
      · exact h4 x hx
    · rw [List.map_cons, List.sum_cons]
      omega

theorem EatsAt.chunked {data : Bytes} {σ} {cb : σ → BitVec 16 → Rd (σ × Bool)} {I : σ → Prop} (hd : data.length < 2 ^ 32)
    (h : ∀ s t, I s → EatsAt data (cb s t) fun r _ => I r.1) {s s' : σ} {pos : Nat} {st : Rs} (hs : I s) (hp : pos ≤ data.length)
    (e : readChunked (simpleCb cb) s ⟨data, pos⟩ = .ok (s', st)) : I s' := by
  unfold readChunked at e
  dsimp only at e
  generalize data.length - pos + 1 = fuel at e
  induction fuel generalizing s pos with
  | zero => cases e
  | succ fuel ih =>
    unfold readChunkedFuel at e
    obtain ⟨ty, s1, e1, f1⟩ := Rd.bind_inv e
    obtain ⟨p1, rfl, -, l1, -⟩ := (EatsAt.of_fwd hd Fwd.u16).step hp e1
    obtain ⟨size, s2, e2, f2⟩ := Rd.bind_inv f1
    obtain ⟨p2, rfl, -, l2, -⟩ := (EatsAt.of_fwd hd Fwd.u32).step l1 e2
    obtain ⟨here, s3, e3, f3⟩ := Rd.bind_inv f2
    cases e3
    obtain ⟨r, s4, e4, f4⟩ := Rd.bind_inv f3
    unfold simpleCb at e4
    obtain ⟨r', s5, e5, f5⟩ := Rd.bind_inv e4
    obtain ⟨p5, rfl, -, l5, hi⟩ := (h s ty hs).step l2 e5
    cases f5
    obtain ⟨_, s6, e6, f6⟩ := Rd.bind_inv f4
    have l6 : ∃ p6, s6 = ⟨data, p6⟩ ∧ p6 ≤ data.length := by
      unfold Rd.seek at e6
      dsimp only at e6
      split at e6
      · cases e6; exact ⟨_, rfl, l5⟩
      · cases e6; exact ⟨_, rfl, by omega⟩
    obtain ⟨p6, rfl, l6⟩ := l6
    split at f6
    · cases f6; exact hi
    · obtain ⟨b, s7, e7, f7⟩ := Rd.bind_inv f6
      cases e7
      split at f7
      · cases f7; exact hi
      · exact ih hi l6 f7

/-! ## Hierarchies -/

theorem HNode.eats {data : Bytes} (hd : data.length < 2 ^ 32) :
    EatsAt data HNode.load fun n k => NoEol n.name ∧ n.name.length ≤ k :=
  EatsAt.line.bind fun _ _ ⟨h1, h2⟩ => (EatsAt.of_fwd hd Fwd.u16).bind fun _ _ _ => (EatsAt.of_fwd hd Fwd.mat4).bind fun _ _ _ =>
    .pure ⟨h1, by dsimp only; omega⟩

/-- What holds of a hierarchy that was loaded from `n` bytes. -/
structure Hierarchy.From (n : Nat) (h : Hierarchy) : Prop where
  names : ∀ x ∈ h.nodes, NoEol x.name
  path : NoEol h.sourcePath
  count : h.nodes.length < 2 ^ 16
  size : (h.nodes.map fun x => x.name.length).sum ≤ n
  pathSize : h.sourcePath.length ≤ n

theorem Hierarchy.onChunk_from {data : Bytes} (hd : data.length < 2 ^ 32) (h : Hierarchy) (t : BitVec 16) (hf : h.From data.length) :
    EatsAt data (Hierarchy.onChunk h t) fun r _ => r.1.From data.length := by
  have key : ∀ {α} {p : Rd α} {R : α → Nat → Prop}, EatsAt data p R → EatsAt data p fun a k => R a k ∧ k ≤ data.length := by
    intro α p R hp pos a s hl e
    obtain ⟨h1, h2, h3, h4⟩ := hp pos a s hl e
    exact ⟨h1, h2, h3, h4, by omega⟩
  unfold Hierarchy.onChunk
  split
  · refine (EatsAt.of_fwd hd Fwd.u32).bind fun _ _ _ => (EatsAt.of_fwd hd Fwd.u16).bind fun n _ _ =>
      (key ((HNode.eats hd).times n.toNat)).bind fun nodes k hk => (EatsAt.of_fwd hd Fwd.aabb).bind fun _ _ _ =>
      (EatsAt.of_fwd hd Fwd.aabb).bind fun _ _ _ => (EatsAt.of_fwd hd Fwd.vec3).bind fun _ _ _ =>
      (EatsAt.of_fwd hd Fwd.u32).bind fun _ _ _ => .pure ?_
    obtain ⟨⟨h1, h2, h3⟩, h4⟩ := hk
    exact ⟨h2, hf.path, by rw [show List.length _ = _ from h1]; exact n.isLt, Nat.le_trans h3 h4, hf.pathSize⟩
  split
  · refine (EatsAt.of_fwd hd Fwd.date).bind fun _ _ _ => (key EatsAt.line).bind fun l k hk => .pure ?_
    exact ⟨hf.names, hk.1.1, hf.count, hf.size, Nat.le_trans hk.1.2 hk.2⟩
  split <;> exact .pure hf

theorem Hierarchy.load_from {data : Bytes} (hd : data.length < 2 ^ 32) {h h' : Hierarchy} (hf : h.From data.length) {pos : Nat}
    (hp : pos ≤ data.length) {st : Rs} (e : h.load ⟨data, pos⟩ = .ok (h', st)) : h'.From data.length :=
  EatsAt.chunked (I := Hierarchy.From data.length) hd (Hierarchy.onChunk_from hd) hf hp e

theorem HNode.enc_length (n : HNode) : n.enc.length = n.name.length + 67 := by
  simp only [HNode.enc, List.length_append, encW_length, Mat4.mem_length, List.length_cons, List.length_nil]

theorem Hierarchy.body_length (h : Hierarchy) : h.body.length = (h.nodes.map fun x => x.name.length).sum + 67 * h.nodes.length + 70 := by
  have : ((h.nodes.map HNode.enc).flatten).length = (h.nodes.map fun x => x.name.length).sum + 67 * h.nodes.length := by
    induction h.nodes with
    | nil => rfl
    | cons x xs ih =>
      simp only [List.map_cons, List.flatten_cons, List.length_append, List.sum_cons, List.length_cons, HNode.enc_length, ih]
      omega
  simp only [Hierarchy.body, List.length_append, encW_length, this, Aabb.enc, Vec3.mem_length]
  omega

theorem Hierarchy.From.fits {n : Nat} {h : Hierarchy} (hf : h.From n) (hn : n < 2 ^ 31) : h.body.length < 2 ^ 32 ∧ h.source.length < 2 ^ 32 := by
  have h1 := hf.count
  have h2 := hf.size
  have h3 := hf.pathSize
  constructor
  · rw [h.body_length]
    omega
  · simp only [Hierarchy.source, Date.enc, List.length_append, encW_length, List.length_cons, List.length_nil]
    omega

/-! ## Textures -/

theorem times_count {α} {p : Rd α} : ∀ {n : Nat} {st st' : Rs} {xs : List α}, Rd.times p n st = .ok (xs, st') → xs.length = n
  | 0, st, st', xs, h => by cases h; rfl
  | n + 1, st, st', xs, h => by
    unfold Rd.times at h
    obtain ⟨x, s1, -, h⟩ := Rd.bind_inv h
    obtain ⟨ys, s2, h2, h⟩ := Rd.bind_inv h
    cases h
    rw [List.length_cons, times_count h2]

namespace Tex

theorem loadLevels_sizes (f : Format) (w h : BitVec 32) : ∀ (n : Nat) (acc out : List Bytes) (s s' : Rs),
    loadLevels f w h n acc s = .ok (out, s') → ∃ ms, out = acc ++ ms ∧ ms.length = n ∧
      ∀ i m, ms[i]? = some m → m.length = (mipmapSize f w h (n - 1 - i)).toNat
  | 0, acc, out, s, s', e => by
    cases e
    exact ⟨[], by simp, rfl, by simp⟩
  | n + 1, acc, out, s, s', e => by
    unfold loadLevels at e
    obtain ⟨m, s1, e1, e⟩ := Rd.bind_inv e
    obtain ⟨ms, h1, h2, h3⟩ := loadLevels_sizes f w h n _ _ _ _ e
    have hm : m.length = (mipmapSize f w h n).toNat := by
      unfold Rd.readPadded at e1
      split at e1
      · rename_i bs s2 e2
        cases e1
        have : bs.length ≤ (mipmapSize f w h n).toNat := by
          unfold Rd.read at e2
          dsimp only at e2
          simp only [Except.ok.injEq, Prod.mk.injEq] at e2
          rw [← e2.1, List.length_take]
          split <;> omega
        rw [List.length_append, List.length_replicate]
        omega
      · cases e1
    refine ⟨m :: ms, by rw [h1, List.append_assoc]; rfl, by rw [List.length_cons, h2], ?_⟩
    intro i x hx
    cases i with
    | zero => cases hx; exact hm
    | succ i =>
      rw [h3 i x hx]
      congr 2
      omega

/-- What a texture holds that was loaded into a new object. -/
theorem Texture.load_sizes {t : Texture} {s s' : Rs} (e : Texture.load {} s = .ok (t, s')) :
    t.mipmaps ≠ 0 ∧ t.textures.length = t.mipmaps.toNat ∧
      (∀ i m, t.textures[i]? = some m → m.length = (mipmapSize t.format t.width t.height (t.mipmaps.toNat - 1 - i)).toNat) ∧
      t.palette.length = 256 ∧ (t.format ≠ p8 → t.palette = List.replicate 256 {}) := by
  unfold Texture.load at e
  obtain ⟨sig, s1, -, e⟩ := Rd.bind_inv e
  split at e
  · cases e
  obtain ⟨ver, s2, -, e⟩ := Rd.bind_inv e
  split at e
  · cases e
  obtain ⟨format, s3, -, e⟩ := Rd.bind_inv e
  obtain ⟨width, s4, -, e⟩ := Rd.bind_inv e
  obtain ⟨height, s5, -, e⟩ := Rd.bind_inv e
  obtain ⟨mips, s6, -, e⟩ := Rd.bind_inv e
  obtain ⟨rw', s7, -, e⟩ := Rd.bind_inv e
  obtain ⟨rh, s8, -, e⟩ := Rd.bind_inv e
  obtain ⟨ac, s9, -, e⟩ := Rd.bind_inv e
  obtain ⟨pal, s10, e10, e⟩ := Rd.bind_inv e
  obtain ⟨ts, s11, e11, e⟩ := Rd.bind_inv e
  cases e
  obtain ⟨ms, h1, h2, h3⟩ := loadLevels_sizes _ _ _ _ _ _ _ _ e11
  rw [List.nil_append] at h1
  subst h1
  refine ⟨?_, h2, h3, ?_, ?_⟩
  · show max1 mips ≠ 0
    unfold max1
    split
    · decide
    · assumption
  · unfold loadPalette at e10
    split at e10
    · exact times_count e10
    · cases e10; exact List.length_replicate
  · intro hp
    unfold loadPalette at e10
    rw [if_neg hp] at e10
    cases e10
    rfl

end Tex

/-! ## Boxes -/

theorem Obb.small_of_load : ∀ (fuel : Nat), (∀ (s s' : Rs) (b : Obb), Obb.loadFuel fuel s = .ok (b, s') → b.Small) ∧
    ∀ (n : Nat) (s s' : Rs) (bs : List Obb), Obb.loadMany fuel n s = .ok (bs, s') → Obb.SmallMany bs ∧ bs.length = n := by
  intro fuel
  induction fuel with
  | zero =>
    refine ⟨(fun s s' b e => by unfold Obb.loadFuel at e; cases e), fun n s s' bs e => ?_⟩
    cases n with
    | zero => unfold Obb.loadMany at e; cases e; exact ⟨trivial, rfl⟩
    | succ n =>
      unfold Obb.loadMany at e
      obtain ⟨c, s1, e1, e⟩ := Rd.bind_inv e
      unfold Obb.loadFuel at e1
      cases e1
  | succ fuel ih =>
    have one : ∀ (s s' : Rs) (b : Obb), Obb.loadFuel (fuel + 1) s = .ok (b, s') → b.Small := by
      intro s s' b e
      unfold Obb.loadFuel at e
      obtain ⟨_, s1, -, e⟩ := Rd.bind_inv e
      obtain ⟨_, s2, -, e⟩ := Rd.bind_inv e
      obtain ⟨_, s3, -, e⟩ := Rd.bind_inv e
      obtain ⟨_, s4, -, e⟩ := Rd.bind_inv e
      obtain ⟨_, s5, -, e⟩ := Rd.bind_inv e
      obtain ⟨n, s6, -, e⟩ := Rd.bind_inv e
      obtain ⟨cs, s7, e7, e⟩ := Rd.bind_inv e
      cases e
      obtain ⟨h1, h2⟩ := ih.2 _ _ _ _ e7
      exact ⟨by rw [h2]; exact n.isLt, h1⟩
    refine ⟨one, fun n => ?_⟩
    induction n with
    | zero => intro s s' bs e; unfold Obb.loadMany at e; cases e; exact ⟨trivial, rfl⟩
    | succ n ihn =>
      intro s s' bs e
      unfold Obb.loadMany at e
      obtain ⟨c, s1, e1, e⟩ := Rd.bind_inv e
      obtain ⟨cs, s2, e2, e⟩ := Rd.bind_inv e
      cases e
      obtain ⟨h1, h2⟩ := ihn _ _ _ e2
      exact ⟨⟨one _ _ _ e1, h1⟩, by rw [List.length_cons, h2]⟩

/-! ## Fonts -/

theorem Font.load_sizes {f : Font} {data : Bytes} {pos : Nat} {s : Rs} (hd : data.length < 2 ^ 32) (hp : pos ≤ data.length)
    (e : Font.load ⟨data, pos⟩ = .ok (f, s)) : NoEol f.name ∧ f.glyphs.length < 2 ^ 32 := by
  unfold Font.load at e
  obtain ⟨v, s1, e1, e⟩ := Rd.bind_inv e
  obtain ⟨p1, rfl, -, l1, -⟩ := (EatsAt.of_fwd hd (Fwd.line true)).step hp e1
  split at e
  · cases e
  obtain ⟨name, s2, e2, e⟩ := Rd.bind_inv e
  obtain ⟨p2, rfl, -, l2, h2, -⟩ := EatsAt.line.step l1 e2
  obtain ⟨height, s3, -, e⟩ := Rd.bind_inv e
  obtain ⟨n, s4, -, e⟩ := Rd.bind_inv e
  obtain ⟨ws, s5, e5, e⟩ := Rd.bind_inv e
  obtain ⟨us, s6, e6, e⟩ := Rd.bind_inv e
  obtain ⟨vs, s7, e7, e⟩ := Rd.bind_inv e
  cases e
  refine ⟨h2, ?_⟩
  show (List.zipWith _ _ _).length < _
  rw [List.length_zipWith, times_count e5]
  have := n.isLt
  omega

end Verif
