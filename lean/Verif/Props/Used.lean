import Verif.Lemmas.Used

/-! # C108: loading into objects that were used before -/

namespace Verif.Props

open Verif Verif.Spec Verif.Tex

/-- **C108** — hierarchies: with any payloads, loading into a used object fails as loading into a new one does, or gives what that gives, with
the members of chunks that the file does not have as they were before. -/
theorem c108_hierarchy {data : Bytes} {ts : List (BitVec 16)} (hl : data.length < 2 ^ 32) (hc : Chunks (some 0xD120) data ts) (old new : Hierarchy) :
    Hierarchy.load old ⟨data, 0⟩ = (Hierarchy.load new ⟨data, 0⟩).map fun r => (hierarchyOver ts old r.1, r.2) := by
  have := TwinAt.loads (data := data) (cb := Hierarchy.onChunk) (cb' := Hierarchy.onChunk) (R := fun seen a b => a = hierarchyOver seen old b)
    (fun seen t rest m n _ hr => by rw [hr]; exact hierarchy_twin hl old seen t n) hc (m := old) (n := new) rfl
  rcases this with ⟨a, b, s, e1, e2, e3⟩ | ⟨e, e1, e2⟩
  · unfold Hierarchy.load
    rw [e1, e2, e3]
    rfl
  · unfold Hierarchy.load
    rw [e1, e2]
    rfl

/-- **C108** — hierarchies: nothing of what the object held is left if the file has both chunks, as all saved ones do. -/
theorem c108_hierarchy_partial {data : Bytes} {ts : List (BitVec 16)} (hl : data.length < 2 ^ 32) (hc : Chunks (some 0xD120) data ts)
    (h1 : 0xD100 ∈ ts) (h2 : 0xD110 ∈ ts) (old new : Hierarchy) : Hierarchy.load old ⟨data, 0⟩ = Hierarchy.load new ⟨data, 0⟩ := by
  rw [c108_hierarchy hl hc old new]
  cases Hierarchy.load new ⟨data, 0⟩ with
  | error e => rfl
  | ok r =>
    have : hierarchyOver ts old r.1 = r.1 := by simp only [hierarchyOver, pick_mem h1, pick_mem h2]
    show Except.ok (hierarchyOver ts old r.1, r.2) = .ok r
    rw [this]

/-- **C108** — animations, in whose files the samples follow the header. -/
theorem c108_animation {data : Bytes} {ts : List (BitVec 16)} (hl : data.length < 2 ^ 32) (hc : Chunks none data ts) (hh : HeaderFirst ts) (o : SampleOps)
    (old new : Animation) : Animation.load o old ⟨data, 0⟩ = (Animation.load o new ⟨data, 0⟩).map fun r => (animationOver ts old r.1, r.2) := by
  have := TwinAt.loads (data := data) (cb := Animation.onChunk o) (cb' := Animation.onChunk o) (R := fun seen a b => a = animationOver seen old b)
    (fun seen t rest m n ha hr => by rw [hr]; exact animation_twin hl o old seen t n fun ht => hh seen rest (by rw [ha, ht])) hc (m := old) (n := new) rfl
  rcases this with ⟨a, b, s, e1, e2, e3⟩ | ⟨e, e1, e2⟩
  · unfold Animation.load
    rw [e1, e2, e3]
    rfl
  · unfold Animation.load
    rw [e1, e2]
    rfl

/-- **C108** — animations: nothing is left if the file has the four chunks. -/
theorem c108_animation_partial {data : Bytes} {ts : List (BitVec 16)} (hl : data.length < 2 ^ 32) (hc : Chunks none data ts) (hh : HeaderFirst ts)
    (h1 : 0xA010 ∈ ts) (h2 : 0xA020 ∈ ts) (h3 : 0xA030 ∈ ts) (h4 : 0xA090 ∈ ts) (o : SampleOps) (old new : Animation) :
    Animation.load o old ⟨data, 0⟩ = Animation.load o new ⟨data, 0⟩ := by
  rw [c108_animation hl hc hh o old new]
  cases Animation.load o new ⟨data, 0⟩ with
  | error e => rfl
  | ok r =>
    have : animationOver ts old r.1 = r.1 := by simp only [animationOver, pick_mem h1, pick_mem h2, pick_mem h3, pick_mem h4]
    show Except.ok (animationOver ts old r.1, r.2) = .ok r
    rw [this]

/-- **C108** — the claim is false of animations without events, of which there are many: the events of the animation that was loaded before stay. -/
theorem c108_animation_violation {data : Bytes} {ts : List (BitVec 16)} (hl : data.length < 2 ^ 32) (hc : Chunks none data ts) (hh : HeaderFirst ts)
    (h : 0xA030 ∉ ts) (o : SampleOps) (old x : Animation) (s : Rs) (hx : Animation.load o old ⟨data, 0⟩ = .ok (x, s)) : x.events = old.events := by
  rw [c108_animation hl hc hh o old old] at hx
  cases hr : Animation.load o old ⟨data, 0⟩ with
  | error e => rw [hr] at hx; cases hx
  | ok r =>
    rw [hr] at hx
    cases hx
    exact if_neg h

/-- **C108** — meshes: nothing but the alpha test depends on what was there before. -/
theorem c108_mesh_partial {T : Mode} {data : Bytes} {ts : List (BitVec 16)} (hl : data.length < 2 ^ 32 ∧ T.files data) {μ : Type} {mats : Nat → Rd (List μ)}
    (hm : ∀ n, Fwd T (mats n)) (hc : Chunks (some 0xB1FF) data ts) (h : 0xB100 ∈ ts) (old new : Mrm μ) :
    (∃ x y s, Mrm.load mats old ⟨data, 0⟩ = .ok (x, s) ∧ Mrm.load mats new ⟨data, 0⟩ = .ok (y, s) ∧ MeshOver old new x y) ∨
      ∃ e, Mrm.load mats old ⟨data, 0⟩ = .error e ∧ Mrm.load mats new ⟨data, 0⟩ = .error e := by
  have := TwinAt.loads (data := data) (cb := Mrm.onChunk mats) (cb' := Mrm.onChunk mats)
    (R := fun seen a b => if 0xB100 ∈ seen then MeshOver old new a b else a = old ∧ b = new)
    (fun seen t rest m n _ hr => mesh_twin hl hm seen t hr) hc (m := old) (n := new) ⟨rfl, rfl⟩
  rcases this with ⟨a, b, s, e1, e2, e3⟩ | h'
  · rw [if_pos h] at e3
    exact .inl ⟨a, b, s, e1, e2, e3⟩
  · exact .inr h'

/-- **C108** — soft skins whose weights follow the mesh. -/
theorem c108_skin_partial {T : Mode} {data : Bytes} {ts : List (BitVec 16)} (hl : data.length < 2 ^ 32 ∧ T.files data) {μ : Type} {mats : Nat → Rd (List μ)}
    (hm : ∀ n, Fwd T (mats n)) (hc : Chunks (some 0xE110) data ts) (hh : MeshFirst ts) (old new : SoftSkin μ) :
    (∃ x y s, SoftSkin.load mats old ⟨data, 0⟩ = .ok (x, s) ∧ SoftSkin.load mats new ⟨data, 0⟩ = .ok (y, s) ∧ SkinOver ts old new x y) ∨
      ∃ e, SoftSkin.load mats old ⟨data, 0⟩ = .error e ∧ SoftSkin.load mats new ⟨data, 0⟩ = .error e :=
  TwinAt.loads (data := data) (cb := SoftSkin.onChunk mats) (cb' := SoftSkin.onChunk mats) (R := fun seen a b => SkinOver seen old new a b)
    (fun seen t rest _ _ ha hr => skin_twin hl hm seen t hr fun ht => hh seen rest (by rw [ha, ht])) hc (m := old) (n := new)
    ⟨⟨rfl, rfl⟩, rfl, rfl, rfl, rfl⟩

/-- **C108** — textures: on any bytes, the images are put behind those from before, and the palette stays unless the new texture has one. -/
theorem c108_texture (t new : Texture) (hn : new.textures = []) (s : Rs) : t.load s =
    (new.load s).map fun r => ({ r.1 with palette := if r.1.format = p8 then r.1.palette else t.palette, textures := t.textures ++ r.1.textures }, r.2) := by
  revert s
  show Alters (fun r : Texture => { r with palette := if r.format = p8 then r.palette else t.palette, textures := t.textures ++ r.textures }) t.load new.load
  unfold Texture.load
  refine .same fun sig => .ite (fun _ => .fail) fun _ => .same fun version => .ite (fun _ => .fail) fun _ => .same fun format => .same fun width =>
    .same fun height => .same fun mips => .same fun _ => .same fun _ => .same fun _ => ?_
  have hlv : Alters (fun l => t.textures ++ l) (loadLevels format width height (max1 mips).toNat t.textures)
      (loadLevels format width height (max1 mips).toNat new.textures) := fun s => by
    rw [hn]
    have := loadLevels_over format width height (max1 mips).toNat t.textures [] s
    rwa [List.append_nil] at this
  unfold loadPalette
  by_cases hf : format = p8
  · rw [if_pos hf, if_pos hf]
    exact .same fun pal => hlv.bind fun l => .pure (by simp only [if_pos hf])
  · rw [if_neg hf, if_neg hf]
    exact hlv.bind fun l => .pure (by simp only [if_neg hf])

/-- **C108** — the claim is false of textures: if the used texture has at least as many images as the file, then what is shown with the size and
format of the new texture are the images of the old one, on all levels. -/
theorem c108_texture_violation (t new : Texture) (hn : new.textures = []) (s s' : Rs) (x : Texture) (hx : new.load s = .ok (x, s'))
    (h : x.mipmaps.toNat ≤ t.textures.length) :
    ∃ y, t.load s = .ok (y, s') ∧ y.width = x.width ∧ y.height = x.height ∧ y.format = x.format ∧ y.mipmaps = x.mipmaps ∧
      ∀ level : BitVec 32, level.toNat < x.mipmaps.toNat → ∃ old, t.textures[x.mipmaps.toNat - 1 - level.toNat]? = some old ∧ y.data level = .ok old := by
  refine ⟨{ x with palette := if x.format = p8 then x.palette else t.palette, textures := t.textures ++ x.textures },
    by rw [c108_texture t new hn, hx]; rfl, rfl, rfl, rfl, rfl, fun level hl => ?_⟩
  have e : (x.mipmaps - 1 - level).toNat = x.mipmaps.toNat - 1 - level.toNat := by
    have h1 : (x.mipmaps - 1).toNat = x.mipmaps.toNat - 1 := by
      rw [BitVec.toNat_sub]
      have := x.mipmaps.isLt
      show (2 ^ 32 - 1 + x.mipmaps.toNat) % 2 ^ 32 = _
      omega
    rw [BitVec.toNat_sub, h1]
    have := x.mipmaps.isLt
    omega
  have hi : x.mipmaps.toNat - 1 - level.toNat < t.textures.length := by omega
  refine ⟨_, List.getElem?_eq_getElem hi, ?_⟩
  unfold Texture.data
  dsimp only
  rw [e, List.getElem?_append_left hi, List.getElem?_eq_getElem hi]

namespace Again

/-- A file with two pixels. -/
def file : Bytes := b!"ZTEX" ++ [0, 0, 0, 0, 1, 0, 0, 0, 2, 0, 0, 0, 1, 0, 0, 0, 1, 0, 0, 0, 2, 0, 0, 0, 1, 0, 0, 0, 0, 0, 0, 0, 1, 2, 3, 4, 5, 6, 7, 8]

/-- Textures without and with one pixel. -/
def new : Texture := { palette := [] }
def small : Texture := { format := 1, width := 1, height := 1, refWidth := 1, refHeight := 1, mipmaps := 1, textures := [[9, 9, 9, 9]], palette := [] }

def got : Texture := { format := 1, width := 2, height := 1, refWidth := 2, refHeight := 1, mipmaps := 1, textures := [[1, 2, 3, 4, 5, 6, 7, 8]], palette := [] }

theorem load_new : new.load ⟨file, 0⟩ = .ok (got, ⟨file, 44⟩) := by decide +kernel

example : ∃ y, small.load ⟨file, 0⟩ = .ok (y, ⟨file, 44⟩) ∧ y.width = 2 := by
  obtain ⟨y, h1, h2, -⟩ := c108_texture_violation small new rfl _ _ _ load_new (by decide)
  exact ⟨y, h1, h2⟩

end Again

/-- **C108** — with a larger image, the pixels are read from behind the old one. -/
theorem c108_texture_bounds_violation (sq : Squish) :
    ∃ (t : Texture) (file : Bytes) (y : Texture) (s : Rs), t.load ⟨file, 0⟩ = .ok (y, s) ∧ y.asRgba8 sq 0 = .error .ub := by
  refine ⟨Again.small, Again.file, { Again.got with textures := [[9, 9, 9, 9], [1, 2, 3, 4, 5, 6, 7, 8]] }, ⟨Again.file, 44⟩, ?_, rfl⟩
  rw [c108_texture Again.small Again.new rfl, Again.load_new]
  rfl

namespace Again

/-- Files with any payloads meet the conditions. -/
example (p q r : Bytes) (hp : p.length < 2 ^ 32) (hq : q.length < 2 ^ 32) :
    Chunks (some 0xD120) (header 0xD100 p ++ p ++ (header 0xD110 q ++ q ++ (header 0xD120 [] ++ [] ++ r))) [0xD100, 0xD110, 0xD120] :=
  .next (by decide) hp (.next (by decide) hq (.stop rfl (by decide)))

example (p q r : Bytes) (hp : p.length < 2 ^ 32) (hq : q.length < 2 ^ 32) (hr : r.length < 2 ^ 32) :
    Chunks none (header 0xA010 p ++ p ++ (header 0xA020 q ++ q ++ (header 0xA090 r ++ r))) [0xA010, 0xA020, 0xA090] :=
  .next (by decide) hp (.next (by decide) hq (.fin (by decide) hr))

example : HeaderFirst [0xA010, 0xA020, 0xA090] := by
  intro seen rest h
  match seen, h with
  | [], h => simp at h
  | [a], h => simp at h
  | [a, b], h => simp only [List.cons_append, List.cons.injEq] at h; simp [← h.2.1]
  | a :: b :: c :: _, h => simp at h

end Again

/-- **C108** — meshes of Gothic 1 have no alpha test in their files: whatever the mesh that was loaded before had stays. -/
theorem c108_mesh_violation {T : Mode} {μ : Type} {mats : Nat → Rd (List μ)} (hm : ∀ n, Fwd T (mats n)) (p q post : Bytes) (data : Bytes)
    (hd : data = header 0xB100 (0x05 :: 0x03 :: p) ++ (0x05 :: 0x03 :: p) ++ (header 0xB1FF q ++ q ++ post)) (hl : data.length < 2 ^ 32 ∧ T.files data)
    (old x : Mrm μ) (s : Rs) (hx : Mrm.load mats old ⟨data, 0⟩ = .ok (x, s)) : x.alphaTest = old.alphaTest := by
  have hlen : data.length = 6 + (2 + p.length) + (6 + q.length + post.length) := by rw [hd]; simp [header]; omega
  have r1 := TwinAt.round (data := data) (pre := []) (Mrm.onChunk mats) old (t := 0xB100) (payload := 0x05 :: 0x03 :: p) (post := header 0xB1FF q ++ q ++ post) hd
    (by simp only [List.length_cons]; omega) (data.length - 0)
  have hv : Rd.u16 ⟨data, 6⟩ = .ok (0x305, ⟨data, 8⟩) := by
    have := (Reads.u16 0x305) (header 0xB100 (0x05 :: 0x03 :: p)) (p ++ (header 0xB1FF q ++ q ++ post))
    rw [show header 0xB100 (0x05 :: 0x03 :: p) ++ encW 2 0x305 ++ (p ++ (header 0xB1FF q ++ q ++ post)) = data by
      rw [hd, show encW 2 (0x305 : BitVec 16) = [0x05, 0x03] by decide]; simp] at this
    simpa [header] using this
  rcases Mrm.fwd_from hm old data 6 hl (by omega) with ⟨y, pos', e, -, -⟩ | ⟨-, e, he⟩
  · have hy := loadFrom_alpha hv (by decide) (by decide) e
    have hc : Mrm.onChunk mats old 0xB100 ⟨data, 6⟩ = .ok ((y, false), ⟨data, pos'⟩) := by
      unfold Mrm.onChunk
      rw [if_pos rfl, Rd.bind_ok e]
      rfl
    have hx' := (r1.2 y false pos' hc).symm.trans hx
    rw [if_neg (by
      rintro (h | h)
      · cases h
      · have := congrArg List.length h
        simp [header] at this)] at hx'
    have r2 := TwinAt.round (data := data) (pre := header 0xB100 (0x05 :: 0x03 :: p) ++ (0x05 :: 0x03 :: p)) (Mrm.onChunk mats) y (t := 0xB1FF) (payload := q) (post := post)
      hd (by omega) (data.length - 1)
    rw [show (header 0xB100 (0x05 :: 0x03 :: p) ++ (0x05 :: 0x03 :: p)).length = 6 + (2 + p.length) by simp [header]; omega] at r2
    have hq := r2.2 y true (6 + (2 + p.length) + 6) (by
      unfold Mrm.onChunk
      rw [if_neg (by decide), if_pos rfl]
      rfl)
    rw [if_pos (.inl rfl), show data.length - 1 + 1 = data.length - 0 by omega] at hq
    have hx2 : readChunkedFuel (simpleCb (Mrm.onChunk mats)) (data.length - 0) y ⟨data, 6 + (2 + p.length)⟩ = .ok (x, s) := by
      rw [← hx']
      congr 2
      simp only [List.length_nil, List.length_cons]
      omega
    cases hq.symm.trans hx2
    exact hy
  · have hc : Mrm.onChunk mats old 0xB100 ⟨data, 6⟩ = .error (.throw e) := by
      unfold Mrm.onChunk
      rw [if_pos rfl, Rd.bind_err he]
    have := (r1.1 _ hc).symm.trans hx
    cases this

end Verif.Props
