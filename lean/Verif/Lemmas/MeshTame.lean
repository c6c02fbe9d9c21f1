import Verif.Lemmas.OpenTame
import Verif.Model.WholeMesh

/-! # Meshes on any bytes -/

namespace Verif

open Verif.Ar Verif.Obj

/-- A number of two bytes is in the file, or a part of it was behind the end. -/
theorem u16_infix (data : Bytes) (pos : Nat) (hp : pos ≤ data.length) (t : BitVec 16) (s : Rs) (h : Rd.u16 ⟨data, pos⟩ = .ok (t, s)) :
    encW 2 t <:+: data ∨ t.toNat < 256 := by
  have hr : Rd.readPadded 2 ⟨data, pos⟩ = .ok ((data.drop pos).take 2 ++ List.replicate (2 - ((data.drop pos).take 2).length) 0,
      ⟨data, min (pos + 2) data.length⟩) := by
    unfold Rd.readPadded
    rw [Rd.read_eq _ _ hp]
  unfold Rd.u16 Rd.word at h
  rw [Rd.bind_ok hr] at h
  cases h
  by_cases h2 : pos + 2 ≤ data.length
  · left
    have hlen : ((data.drop pos).take 2).length = 2 := by rw [List.length_take, List.length_drop]; omega
    rw [hlen, Nat.sub_self, List.replicate_zero, List.append_nil, encW_decW 2 (by decide) _ hlen]
    exact (List.take_prefix _ _).isInfix.trans (List.drop_suffix _ _).isInfix
  · right
    unfold decW
    rw [leNat_append_zeros]
    have hlen : ((data.drop pos).take 2).length ≤ 1 := by rw [List.length_take, List.length_drop]; omega
    have hlt := leNat_lt ((data.drop pos).take 2)
    have : 256 ^ ((data.drop pos).take 2).length ≤ 256 ^ 1 := Nat.pow_le_pow_right (by decide) hlen
    rw [BitVec.toNat_ofNat]
    exact Nat.lt_of_le_of_lt (Nat.mod_le _ _) (by omega)

/-- The loop over the chunks for one file: only chunks whose type is in the file are met. -/
theorem RunsAt.chunked {data : Bytes} {A : Fail → Prop} {σ} {cb : σ → BitVec 16 → Rd (σ × Bool)}
    (h : ∀ s t, (encW 2 t <:+: data ∨ t.toNat < 256) → RunsAt data A (fun _ => True) (cb s t)) (s : σ) :
    RunsAt data A (fun _ => True) (readChunked (simpleCb cb) s) := by
  intro pos hp
  unfold readChunked
  dsimp only
  have key : ∀ (fuel : Nat) (s : σ) (pos : Nat), pos ≤ data.length → data.length - pos < fuel →
      (∃ a pos', readChunkedFuel (simpleCb cb) fuel s ⟨data, pos⟩ = .ok (a, ⟨data, pos'⟩) ∧ pos ≤ pos' ∧ pos' ≤ data.length ∧ True) ∨
        ∃ e, readChunkedFuel (simpleCb cb) fuel s ⟨data, pos⟩ = .error e ∧ A e := by
    intro fuel
    induction fuel with
    | zero => intro _ _ _ _; omega
    | succ fuel ih =>
      intro s pos hp hf
      obtain ⟨t, e1⟩ := Rd.word_ok 16 2 data pos hp
      have ht := u16_infix data pos hp t _ e1
      obtain ⟨z, e2⟩ := Rd.word_ok 32 4 data (min (pos + 2) data.length) (by omega)
      generalize hq : min (min (pos + 2) data.length + 4) data.length = q at e2
      have hq1 : q ≤ data.length := by omega
      simp only [readChunkedFuel]
      rw [Rd.bind_ok (show Rd.u16 _ = _ from e1), Rd.bind_ok (show Rd.u32 _ = _ from e2),
        Rd.bind_ok (show Rd.tell ⟨data, q⟩ = .ok (q, _) from rfl)]
      unfold simpleCb
      rcases h s t ht q hq1 with ⟨⟨s', done⟩, pos3, e3, b3, l3, _⟩ | ⟨e, he, ha⟩
      · rw [Rd.bind_ok (show (do
            let (s', done) ← cb s t
            return (s', done, q + z.toNat) : Rd (σ × Bool × Nat)) ⟨data, q⟩ = .ok ((s', done, q + z.toNat), ⟨data, pos3⟩) by
          rw [Rd.bind_ok e3]; rfl)]
        dsimp only
        have hs : ∃ pos4, Rd.seek ((q + z.toNat : Nat) : Int) .beg ⟨data, pos3⟩ = .ok ((), ⟨data, pos4⟩) ∧ q ≤ pos4 ∧ pos4 ≤ data.length := by
          unfold Rd.seek
          dsimp only [Rd.seekTarget]
          split
          · exact ⟨pos3, rfl, b3, l3⟩
          · exact ⟨_, rfl, by omega, by omega⟩
        obtain ⟨pos4, e4, b4, l4⟩ := hs
        rw [Rd.bind_ok e4]
        cases done with
        | true => exact .inl ⟨s', pos4, rfl, by omega, l4, trivial⟩
        | false =>
          simp only [Bool.false_eq_true, if_false]
          rw [Rd.bind_ok (show Rd.eof ⟨data, pos4⟩ = .ok (decide (pos4 ≥ data.length), ⟨data, pos4⟩) from rfl)]
          by_cases h5 : decide (pos4 ≥ data.length) = true
          · rw [if_pos h5]
            exact .inl ⟨s', pos4, rfl, by omega, l4, trivial⟩
          · rw [if_neg h5]
            simp only [decide_eq_true_eq] at h5
            rcases ih s' pos4 l4 (by omega) with ⟨a, pos5, e5, b5, l5, _⟩ | h6
            · exact .inl ⟨a, pos5, e5, by omega, l5, trivial⟩
            · exact .inr h6
      · refine .inr ⟨e, ?_, ha⟩
        rw [Rd.bind_err (show (do
            let (s', done) ← cb s t
            return (s', done, q + z.toNat) : Rd (σ × Bool × Nat)) ⟨data, q⟩ = .error e by rw [Rd.bind_err he])]
  exact key _ s pos hp (by omega)

variable {T : Mode}

/-! ## Textures -/

namespace Tex

theorem Color.fwd_load : Fwd T Color.load := Fwd.u8.bind fun _ => Fwd.u8.bind fun _ => Fwd.u8.bind fun _ => Fwd.u8.bind fun _ => .pure _

theorem fwd_loadPalette (f : Format) (old : List Color) : Fwd T (loadPalette f old) := by
  unfold loadPalette
  split
  · exact Color.fwd_load.times _
  · exact .pure _

theorem fwd_loadLevels (f : Format) (w h : BitVec 32) (n : Nat) (acc : List Bytes) : Fwd T (loadLevels f w h n acc) := by
  induction n generalizing acc with
  | zero => exact .pure _
  | succ n ih => exact (Fwd.padded _).bind fun _ => ih _

theorem Texture.fwd_load (t : Texture) : Fwd (.all True) (Texture.load t) := by
  unfold Texture.load
  refine (Fwd.padded _).bind fun _ => ?_
  split
  · exact Fwd.throw _
  refine Fwd.u32.bind fun _ => ?_
  split
  · exact Fwd.throw _
  exact Fwd.u32.bind fun _ => Fwd.u32.bind fun _ => Fwd.u32.bind fun _ => Fwd.u32.bind fun _ => Fwd.u32.bind fun _ => Fwd.u32.bind fun _ =>
    Fwd.u32.bind fun _ => (fwd_loadPalette _ _).bind fun _ => (fwd_loadLevels _ _ _ _ _).bind fun _ => .pure _

end Tex

/-! ## Geometry -/

theorem PolyFlags.fwd_load (g2 : Bool) : Fwd T (PolyFlags.load g2) := by
  unfold PolyFlags.load
  split
  · exact Fwd.u8.bind fun _ => Fwd.u16.bind fun _ => .pure _
  · exact Fwd.u8.bind fun _ => Fwd.u8.bind fun _ => Fwd.u16.bind fun _ => .pure _

theorem Mesh.fwd_corner (wide : Bool) : Fwd T (Mesh.loadCorner wide) := by
  have : Fwd T (Mesh.loadIndex wide) := by
    unfold Mesh.loadIndex
    split
    · exact Fwd.u32
    · exact Fwd.u16.bind fun _ => .pure _
  exact this.bind fun _ => Fwd.u32.bind fun _ => .pure _

theorem Poly.fwd_load (g2 wide : Bool) (o : BitVec 32) : Fwd T (Poly.load g2 wide o) :=
  Fwd.u16.bind fun _ => Fwd.u16.bind fun _ => Fwd.f32.bind fun _ => Fwd.vec3.bind fun _ => (PolyFlags.fwd_load _).bind fun _ => Fwd.u8.bind fun _ =>
    ((Mesh.fwd_corner _).times _).bind fun _ => .pure _

theorem Poly.fwd_loadMany (g2 wide : Bool) (n : Nat) (o : BitVec 32) : Fwd T (Poly.loadMany g2 wide n o) := by
  induction n generalizing o with
  | zero => exact .pure _
  | succ n ih => exact (Poly.fwd_load _ _ _).bind fun _ => (ih _).bind fun _ => .pure _

theorem Mesh.fwd_onChunkV (wide : Bool) (m : Mesh) (v t : BitVec 16) : Fwd T (Mesh.onChunkV wide m v t) := by
  unfold Mesh.onChunkV
  split
  · exact Fwd.u16.bind fun _ => Fwd.date.bind fun _ => (Fwd.line _).bind fun _ => .pure _
  split
  · exact Fwd.aabb.bind fun _ => Fwd.obb.bind fun _ => .pure _
  split
  · exact Fwd.u32.bind fun _ => (Fwd.vec3.times _).bind fun _ => .pure _
  split
  · have : Fwd T Feature.load := Fwd.vec2.bind fun _ => Fwd.u32.bind fun _ => Fwd.vec3.bind fun _ => .pure _
    exact Fwd.u32.bind fun _ => (this.times _).bind fun _ => .pure _
  split
  · exact Fwd.u32.bind fun _ => (Poly.fwd_loadMany _ _ _ _).bind fun _ => .pure _
  split <;> exact .pure _

/-! ## Whole meshes -/

/-- What may go wrong with a mesh: its materials, or the index of an image of a light map. -/
def MeshWrong (data : Bytes) (e : Fail) : Prop := MatWrong data e ∨ e = .ub ∧ [0x26, 0xB0] <:+: data

theorem WholeMesh.onChunk_runs {data : Bytes} (hl : data.length < 2 ^ 32) (wide : Bool) (s : WholeMesh × BitVec 16) (t : BitVec 16)
    (ht : encW 2 t <:+: data ∨ t.toNat < 256) : RunsAt data (MeshWrong data) (fun _ => True) (WholeMesh.onChunk wide s t) := by
  have hA : ∀ x, MeshWrong data (.throw x) := fun x => .inl (.inl ⟨x, rfl⟩)
  have f {α} {p : Rd α} (h : Fwd (.all True) p) : RunsAt data (MeshWrong data) (fun _ => True) p := .of_fwd hl h hA
  unfold WholeMesh.onChunk WholeMesh.onChunkV
  split
  · refine RunsAt.bind (Q := fun _ => True) (fun p hp => ?_) fun _ _ => .pure trivial
    rcases loadCounted_runs hl s.1.materials p hp with h | ⟨e, he, ha⟩
    · exact .inl h
    · exact .inr ⟨e, he, .inl ha⟩
  split
  · rename_i h26
    have hw : [0x26, 0xB0] <:+: data := by
      rcases ht with h | h
      · rw [h26] at h
        exact h
      · rw [h26] at h
        exact absurd h (by decide)
    refine RunsAt.bind (Q := fun _ => True) ?_ fun _ _ => .pure trivial
    unfold WholeMesh.loadShared
    refine (f Fwd.u32).bind fun n _ => (f ((Tex.Texture.fwd_load _).times _)).bind fun images _ => (f Fwd.u32).bind fun count _ => ?_
    have hs : RunsAt data (MeshWrong data) (fun _ => True) (LightMap.loadShared s.1.images.length n.toNat) := by
      refine (f Fwd.vec3).bind fun _ _ => (f Fwd.vec3).bind fun _ _ => (f Fwd.vec3).bind fun _ _ => (f Fwd.u32).bind fun _ _ => ?_
      unfold LightMap.pick
      split
      · exact .pure trivial
      · exact .fail (.inr ⟨rfl, hw⟩)
    have hts : ∀ k, RunsAt data (MeshWrong data) (fun _ => True) (Rd.times (LightMap.loadShared s.1.images.length n.toNat) k) := by
      intro k
      induction k with
      | zero => exact .pure trivial
      | succ k ih => exact hs.bind fun _ _ => ih.bind fun _ _ => .pure trivial
    exact (hts _).bind fun _ _ => .pure trivial
  split
  · refine RunsAt.bind (Q := fun _ => True) (f ?_) fun _ _ => .pure trivial
    have : Fwd (.all True) LightMap.loadOwn :=
      Fwd.vec3.bind fun _ => Fwd.vec3.bind fun _ => Fwd.vec3.bind fun _ => (Tex.Texture.fwd_load _).bind fun _ => .pure _
    exact Fwd.u32.bind fun _ => (this.times _).bind fun _ => .pure _
  · exact (f (Mesh.fwd_onChunkV _ _ _ _)).bind fun _ _ => .pure trivial

theorem WholeMesh.load_runs {data : Bytes} (hl : data.length < 2 ^ 32) (wide : Bool) (m : WholeMesh) :
    RunsAt data (MeshWrong data) (fun _ => True) (WholeMesh.load wide m) :=
  (RunsAt.chunked (WholeMesh.onChunk_runs hl wide) (m, 0)).bind fun _ _ => .pure trivial

/-- Files without the names of the formats of archives that are not safe. -/
def plainFiles : Mode := ⟨True, fun data => ¬ b!"BIN_SAFE" <:+: data ∧ ¬ b!"ASCII" <:+: data⟩

theorem loadParts_fwd (n : Nat) : Fwd plainFiles (Material.loadParts n) := by
  intro data pos ⟨hl, hb, ha⟩ hp
  rcases loadParts_runs hl n pos hp with ⟨a, p', e, b, l, _⟩ | ⟨e, he, ⟨x, rfl⟩ | ⟨_, h⟩ | ⟨h, _⟩⟩
  · exact .inl ⟨a, p', e, b, l⟩
  · exact .inr ⟨trivial, x, he⟩
  · exact absurd h hb
  · exact absurd h ha

end Verif
