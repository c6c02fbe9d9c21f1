import Verif.Lemmas.Texture

/-! # Properties of textures: C40, C41, C42, C71 -/

namespace Verif.Props

open Tex

/-! ## C40 -/

/-- A texture whose mipmaps have the sizes the reader expects is read back. -/
theorem c40_expected (t : Texture) (h1 : t.mipmaps ≠ 0) (hn : t.textures.length = t.mipmaps.toNat)
    (hs : ∀ i m, t.textures[i]? = some m →
      m.length = (mipmapSize t.format t.width t.height (t.mipmaps.toNat - 1 - i)).toNat)
    (hp : t.palette.length = 256) (hp' : t.format ≠ p8 → t.palette = List.replicate 256 {})
    (w : Ws) (hw : w.pos ≤ w.data.length) (post : Bytes) :
    Texture.load {} ⟨(t.save w).data ++ post, w.pos⟩ = .ok (t, ⟨(t.save w).data ++ post, (t.save w).pos⟩) := by
  have hm : max1 t.mipmaps = t.mipmaps := if_neg h1
  rw [t.emits w hw]
  have := Reads.of_write (t.reads {} (fun _ => hp) (by rw [hm]; exact hn)
    (by intro i m h; rw [hn]; exact hs i m h)) w hw post
  rw [this, hm]
  have hpal : (if t.format = p8 then t.palette else ({} : Texture).palette) = t.palette := by
    by_cases h : t.format = p8
    · rw [if_pos h]
    · rw [if_neg h]; exact (hp' h).symm
  rw [hpal]
  rfl

/-- **C40** — a texture with at least one mipmap, whose mipmaps have the sizes its format and dimensions imply, is read back
from the file exactly, wherever the file lies in a stream. The palette is part of a file only for the paletted format; other
textures have the empty palette of a new object. Missing: images in blocks with sides that are longer than a block and not
whole blocks (`c40_blocks_violation`). -/
theorem c40_round_trip_partial (t : Texture) (h1 : t.mipmaps ≠ 0) (hs : t.Sized) (hb : t.Whole)
    (hp : t.palette.length = 256) (hp' : t.format ≠ p8 → t.palette = List.replicate 256 {})
    (w : Ws) (hw : w.pos ≤ w.data.length) (post : Bytes) :
    Texture.load {} ⟨(t.save w).data ++ post, w.pos⟩ = .ok (t, ⟨(t.save w).data ++ post, (t.save w).pos⟩) := by
  refine c40_expected t h1 hs.1 ?_ hp hp' w hw post
  intro i m h
  have hi : i < t.mipmaps.toNat := by rw [← hs.1]; exact (List.getElem?_eq_some_iff.mp h).1
  exact (hs.2 i m h).size (hb _ (by omega))

/-- Images whose sides are powers of two have no such sides. -/
theorem c40_power_of_two (t : Texture) (i j : Nat) (hw : t.width.toNat = 2 ^ i) (hh : t.height.toNat = 2 ^ j) : t.Whole :=
  fun level _ => LevelWhole.pow2 hw hh level

/-- A file with another signature or of another version is refused. -/
theorem c40_foreign (t : Texture) (sig : Bytes) (version : BitVec 32) (rest pre : Bytes) (hl : sig.length = 4)
    (hz : sig ≠ b!"ZTEX" ∨ version ≠ 0) :
    t.load ⟨pre ++ sig ++ encW 4 version ++ rest, pre.length⟩ = .error (.throw .parser) := by
  have r1 := Reads.string sig pre (encW 4 version ++ rest)
  rw [hl] at r1
  unfold Texture.load
  rw [Rd.bind_ok (by simpa only [List.append_assoc] using r1)]
  by_cases h : sig = b!"ZTEX"
  · rw [if_neg (by simpa using h)]
    have r2 := Reads.u32 version (pre ++ sig) rest
    rw [List.length_append] at r2
    rw [Rd.bind_ok (by simpa only [List.append_assoc, hl] using r2)]
    rw [if_pos (by simpa [h] using hz)]
    rfl
  · rw [if_pos h]
    rfl

example : b!"ZTEX".length = 4 ∧ (1 : BitVec 32) ≠ 0 := by decide

/-- A texture of 2 by 2 pixels with two mipmaps. -/
def tex22 : Texture :=
  { format := r8g8b8a8, width := 2, height := 2, refWidth := 2, refHeight := 2, mipmaps := 2,
    textures := [[1, 2, 3, 4], [1, 2, 3, 4, 5, 6, 7, 8, 9, 10, 11, 12, 13, 14, 15, 16]] }

example : tex22.mipmaps ≠ 0 ∧ tex22.Sized ∧ tex22.Whole ∧ tex22.palette.length = 256 := by
  refine ⟨by decide, ⟨rfl, ?_⟩, c40_power_of_two tex22 1 1 rfl rfl, List.length_replicate⟩
  intro i m h
  match i, h with
  | 0, h => cases h; exact ⟨.pixel 4, rfl, by decide, by decide⟩
  | 1, h => cases h; exact ⟨.pixel 4, rfl, by decide, by decide⟩

/-- Five by five pixels in four blocks. -/
def tex55 : Texture := { format := dxt1, width := 5, height := 5, mipmaps := 1, textures := [List.replicate 32 7] }

/-- Five by five pixels take four blocks; only the first comes back. -/
theorem c40_blocks_violation :
    ∃ t : Texture, t.mipmaps ≠ 0 ∧ t.Sized ∧ t.palette = List.replicate 256 {} ∧
      ∃ u s, Texture.load {} ⟨(t.save Ws.empty).data, 0⟩ = .ok (u, s) ∧
        t.data 0 = .ok (List.replicate 32 7) ∧ u.data 0 = .ok (List.replicate 8 7) := by
  have h : (Texture.load {} ⟨(tex55.save Ws.empty).data, 0⟩).toOption.map (fun x => x.1.data 0) =
      some (.ok (List.replicate 8 7)) := by decide +kernel
  refine ⟨tex55, by decide, ⟨rfl, ?_⟩, rfl, ?_⟩
  · intro i m h
    match i, h with
    | 0, h => cases h; exact ⟨.block 8, rfl, by decide, by decide⟩
  · cases hr : Texture.load {} ⟨(tex55.save Ws.empty).data, 0⟩ with
    | error e => rw [hr] at h; cases h
    | ok x =>
      rw [hr] at h
      exact ⟨x.1, x.2, rfl, by decide, by simpa [Except.toOption] using h⟩

/-- A texture without mipmaps (the builder makes one) comes back with one. -/
theorem c40_empty_violation :
    ∃ (t : Texture) (b : Builder) (sq : Squish), b.build sq r8g8b8a8 = .ok t ∧
      ∀ t' s, Texture.load {} ⟨(t.save Ws.empty).data, 0⟩ = .ok (t', s) → t'.mipmaps ≠ t.mipmaps := by
  refine ⟨{ format := r8g8b8a8, width := 1, height := 1, refWidth := 1, refHeight := 1 }, ⟨1, 1, []⟩, ⟨fun _ b _ _ => b⟩, rfl, ?_⟩
  intro t' s h
  generalize hr : Texture.load {} ⟨(Texture.save { format := r8g8b8a8, width := 1, height := 1, refWidth := 1, refHeight := 1 }
    Ws.empty).data, 0⟩ = r at h
  have : r.toOption.map (fun x => x.1.mipmaps) = some 1 := by rw [← hr]; decide +kernel
  rw [h] at this
  have e : t'.mipmaps = 1 := by simpa [Except.toOption] using this
  rw [e]
  decide

/-- Loading into an object that holds a texture already: the new levels are added behind the old ones, and `data` shows the
old ones. -/
theorem c40_reuse_violation :
    ∃ (t u : Texture) (data : Bytes), (Texture.load {} ⟨data, 0⟩).toOption.map (fun x => x.1.data 0) = some (.ok [5, 6, 7, 8]) ∧
      (t.load ⟨data, 0⟩).toOption.map (fun x => x.1) = some u ∧ u.data 0 = .ok [1, 2, 3, 4] := by
  refine ⟨{ format := r8g8b8a8, width := 1, height := 1, mipmaps := 1, textures := [[1, 2, 3, 4]] },
    { format := r8g8b8a8, width := 1, height := 1, mipmaps := 1, textures := [[1, 2, 3, 4], [5, 6, 7, 8]] },
    (Texture.save { format := r8g8b8a8, width := 1, height := 1, mipmaps := 1, textures := [[5, 6, 7, 8]] } Ws.empty).data,
    ?_, ?_, rfl⟩ <;> decide +kernel

/-! ## C71 -/

/-- The number of pixels of a level (every side is at least one pixel long). -/
def pixels (w h : BitVec 32) (level : Nat) : Nat := max 1 (w.toNat / 2 ^ level) * max 1 (h.toNat / 2 ^ level)

theorem asRgba8_eq (sq : Squish) (t : Texture) (level : BitVec 32) (m : Bytes) (hd : t.data level = .ok m)
    (hl : level.toNat < 32) (hf : t.format ≠ p8) :
    t.asRgba8 sq level = toRgba sq m (t.width >>> level.toNat) (t.height >>> level.toNat) t.format := by
  unfold Texture.asRgba8
  rw [hd]
  show (shr _ _ >>= fun w => shr _ _ >>= fun h => _) = _
  unfold shr
  rw [if_pos hl, if_pos hl]
  show (if t.format = p8 then _ else _) = _
  rw [if_neg hf]

theorem shift_pixels (w h : BitVec 32) (l : Nat) (hw : 1 ≤ w.toNat / 2 ^ l) (hh : 1 ≤ h.toNat / 2 ^ l)
    (hk : pixels w h l < 2 ^ 32) : ((w >>> l) * (h >>> l)).toNat = pixels w h l := by
  unfold pixels at *
  rw [show max 1 (w.toNat / 2 ^ l) = w.toNat / 2 ^ l by omega, show max 1 (h.toNat / 2 ^ l) = h.toNat / 2 ^ l by omega] at *
  rw [BitVec.toNat_mul, BitVec.toNat_ushiftRight, BitVec.toNat_ushiftRight, Nat.shiftRight_eq_div_pow, Nat.shiftRight_eq_div_pow,
    Nat.mod_eq_of_lt hk]

/-- **C71**, formats of whole bytes — `as_rgba8` gives every pixel of a level with the channels the format stores, as long as
both sides of the level are at least a pixel long by the shift the code uses. -/
theorem c71_bytes_partial (sq : Squish) (t : Texture) (level : BitVec 32) (ps : List Px)
    (hf : t.format ∈ alphaFormats ∨ t.format ∈ opaqueFormats) (hd : t.data level = .ok (ps.flatMap (Px.bytes t.format)))
    (hl : level.toNat < 32) (hw : 1 ≤ t.width.toNat / 2 ^ level.toNat) (hh : 1 ≤ t.height.toNat / 2 ^ level.toNat)
    (hn : ps.length = pixels t.width t.height level.toNat) (hk : ps.length * 4 < 2 ^ 32) :
    t.asRgba8 sq level = .ok (ps.flatMap fun p => (p.shown t.format).rgba) := by
  have hp : t.format ≠ p8 := by intro h; rw [h] at hf; exact absurd hf (by decide)
  rw [asRgba8_eq sq t level _ hd hl hp, toRgba_ok sq _ hf ps _ _ (by rw [shift_pixels _ _ _ hw hh (by omega), hn]) hk]

example : tex22.format ∈ alphaFormats ∧ tex22.data 0 = .ok
    ([⟨1, 2, 3, 4⟩, ⟨5, 6, 7, 8⟩, ⟨9, 10, 11, 12⟩, ⟨13, 14, 15, 16⟩].flatMap (Px.bytes tex22.format)) ∧
    4 = pixels tex22.width tex22.height 0 := by decide +kernel

/-- **C71**, A4R4G4B4. -/
theorem c71_4444_partial (sq : Squish) (t : Texture) (level : BitVec 32) (ps : List Px4)
    (hf : t.format = a4r4g4b4) (hd : t.data level = .ok (ps.flatMap Px4.bytes))
    (hl : level.toNat < 32) (hw : 1 ≤ t.width.toNat / 2 ^ level.toNat) (hh : 1 ≤ t.height.toNat / 2 ^ level.toNat)
    (hn : ps.length = pixels t.width t.height level.toNat) (hk : ps.length * 4 < 2 ^ 32) :
    t.asRgba8 sq level = .ok (ps.flatMap Px4.rgba) := by
  rw [asRgba8_eq sq t level _ hd hl (by rw [hf]; decide), hf,
    toRgba_4444 sq ps _ _ (by rw [shift_pixels _ _ _ hw hh (by omega), hn]) hk]

/-- **C71**, R5G6B5, for pixels whose green is not full. -/
theorem c71_565_partial (sq : Squish) (t : Texture) (level : BitVec 32) (ps : List Px565) (hg : ∀ p ∈ ps, p.g ≠ 63)
    (hf : t.format = r5g6b5) (hd : t.data level = .ok (ps.flatMap Px565.bytes))
    (hl : level.toNat < 32) (hw : 1 ≤ t.width.toNat / 2 ^ level.toNat) (hh : 1 ≤ t.height.toNat / 2 ^ level.toNat)
    (hn : ps.length = pixels t.width t.height level.toNat) (hk : ps.length * 4 < 2 ^ 32) :
    t.asRgba8 sq level = .ok (ps.flatMap Px565.rgba) := by
  rw [asRgba8_eq sq t level _ hd hl (by rw [hf]; decide), hf,
    toRgba_565 sq ps hg _ _ (by rw [shift_pixels _ _ _ hw hh (by omega), hn]) hk]

-- Textures with one pixel of the two formats.
example : (Texture.data { format := r5g6b5, width := 1, height := 1, mipmaps := 1, textures := [[0x34, 0x12]] } 0) =
    .ok ([(⟨2, 17, 20⟩ : Px565)].flatMap Px565.bytes) ∧
  (Texture.data { format := a4r4g4b4, width := 1, height := 1, mipmaps := 1, textures := [[0x34, 0x12]] } 0) =
    .ok ([(⟨1, 2, 3, 4⟩ : Px4)].flatMap Px4.bytes) := by decide +kernel

/-- **C71** is false of paletted textures: reading one as RGBA writes outside of the buffer, whatever the image. -/
theorem c71_palette_violation (sq : Squish) (t : Texture) (level : BitVec 32) (m : Bytes) (hf : t.format = p8)
    (hd : t.data level = .ok m) (hl : level.toNat < 32) (hw : 1 ≤ t.width.toNat / 2 ^ level.toNat)
    (hh : 1 ≤ t.height.toNat / 2 ^ level.toNat) (hn : m.length = pixels t.width t.height level.toNat)
    (hk : m.length < 2 ^ 32) : t.asRgba8 sq level = .error .ub := by
  have hwh := shift_pixels _ _ _ hw hh (hn ▸ hk)
  have hpos : 1 ≤ pixels t.width t.height level.toNat := by
    unfold pixels
    exact Nat.mul_pos (by omega) (by omega)
  unfold Texture.asRgba8
  rw [hd]
  show (shr _ _ >>= fun w => shr _ _ >>= fun h => _) = _
  unfold shr
  rw [if_pos hl, if_pos hl]
  show (if t.format = p8 then _ else _) = _
  rw [if_pos hf]
  unfold forU32
  obtain ⟨n, hn'⟩ : ∃ n, ((t.width >>> level.toNat) * (t.height >>> level.toNat)).toNat = n + 1 := ⟨_, by rw [hwh]; exact (Nat.succ_pred_eq_of_pos hpos).symm⟩
  rw [hn']
  simp only [rounds]
  match m, hn, hpos with
  | [], h, h' => simp at h; omega
  | x :: m, _, _ =>
    show ((match t.palette[x.toNat]? with
      | none => .error .ub
      | some c => do
        let conv ← put [] (0 * 4 + 0) ⟨c.r⟩
        let conv ← put conv (0 * 4 + 1) ⟨c.g⟩
        let conv ← put conv (0 * 4 + 2) ⟨c.b⟩
        put conv (0 * 4 + 3) ⟨c.a⟩ : Except Fail Bytes) >>= fun c => _) = _
    cases t.palette[x.toNat]? <;> rfl

example : (Texture.data { format := p8, width := 2, height := 1, mipmaps := 1, textures := [[7, 0]] } 0) = .ok [7, 0] := by
  decide +kernel

/-- **C71** is false of the lower levels of images that are not square: a level of 2 by 1 pixels is followed by one of 1 by 1,
which `as_rgba8` shows as nothing. -/
theorem c71_narrow_violation (sq : Squish) :
    ∃ (t : Texture) (p : Px), t.data 1 = .ok (p.bytes t.format) ∧ pixels t.width t.height 1 = 1 ∧
      t.Sized ∧ t.asRgba8 sq 1 = .ok [] := by
  refine ⟨{ format := r8g8b8a8, width := 2, height := 1, mipmaps := 2, textures := [[1, 2, 3, 4], [1, 2, 3, 4, 5, 6, 7, 8]] },
    ⟨1, 2, 3, 4⟩, by decide +kernel, by decide, ⟨rfl, ?_⟩, rfl⟩
  intro i m h
  match i, h with
  | 0, h => cases h; exact ⟨.pixel 4, rfl, by decide, by decide⟩
  | 1, h => cases h; exact ⟨.pixel 4, rfl, by decide, by decide⟩

/-- **C71** is false of R5G6B5 white: its green channel is 254. -/
theorem c71_white_violation (sq : Squish) :
    ∃ t : Texture, t.data 0 = .ok (Px565.bytes ⟨31, 63, 31⟩) ∧ t.asRgba8 sq 0 = .ok [255, 254, 255, 255] :=
  ⟨{ format := r5g6b5, width := 1, height := 1, mipmaps := 1, textures := [[255, 255]] }, by decide +kernel, rfl⟩

/-! ## C41 -/

/-- Build a texture of format `f` from an RGBA image, then read it as RGBA. -/
def viaFormat (sq : Squish) (f : Format) (w h : BitVec 32) (img : Bytes) : Except Fail Bytes := do
  let b ← (Builder.mk w h []).add img r8g8b8a8
  let t ← b.build sq f
  t.asRgba8 sq 0

theorem mipmapSize_rgba (w h : BitVec 32) (hw : w ≠ 0) (hh : h ≠ 0) : mipmapSize r8g8b8a8 w h 0 = w * h * 4 := by
  simp only [mipmapSize, halve, max1, if_neg hw, if_neg hh]
  rfl

theorem viaFormat_ok (sq : Squish) (f : Format) (hf : f = r8g8b8a8 ∨ f = a8b8g8r8 ∨ f = b8g8r8 ∨ f = r8g8b8)
    (w h : BitVec 32) (hw : w ≠ 0) (hh : h ≠ 0) (ps : List Px) (hn : ps.length = w.toNat * h.toNat) (hk : ps.length * 4 < 2 ^ 32) :
    viaFormat sq f w h (ps.flatMap Px.rgba) = .ok (ps.flatMap fun p => (p.shown f).rgba) := by
  have hwh : (w * h).toNat = ps.length := by rw [BitVec.toNat_mul, ← hn, Nat.mod_eq_of_lt (by omega)]
  have hlen : (ps.flatMap Px.rgba).length = 4 * ps.length := flatMap_length4 _ _ 4 (fun _ _ => rfl)
  have hsz : (w * h * 4).toNat = 4 * ps.length := size_toNat w h 4 _ hwh hk (by decide)
  have hw0 : w >>> 0 = w := BitVec.ushiftRight_zero _
  have hh0 : h >>> 0 = h := BitVec.ushiftRight_zero _
  have hw1 : 1 ≤ w.toNat / 2 ^ 0 := by
    have : w.toNat ≠ 0 := fun e => hw (BitVec.eq_of_toNat_eq (by simpa using e))
    rw [Nat.pow_zero, Nat.div_one]; omega
  have hh1 : 1 ≤ h.toNat / 2 ^ 0 := by
    have : h.toNat ≠ 0 := fun e => hh (BitVec.eq_of_toNat_eq (by simpa using e))
    rw [Nat.pow_zero, Nat.div_one]; omega
  have hc : convert sq (ps.flatMap Px.rgba) w h r8g8b8a8 f = .ok (ps.flatMap (Px.bytes f)) := by
    unfold convert
    split
    · rename_i e
      rw [mipmapSize_rgba w h hw hh, assign_ok _ _ (by rw [hsz, hlen]), ← e]
      rfl
    · have := toRgba_ok sq r8g8b8a8 (by decide) ps w h hwh hk
      rw [show ps.flatMap Px.rgba = ps.flatMap (Px.bytes r8g8b8a8) from rfl, this]
      exact fromRgba_ok f hf ps w h hwh hk
  have hp : f ≠ p8 := by rcases hf with rfl | rfl | rfl | rfl <;> decide
  unfold viaFormat Builder.add
  rw [if_neg (by
    show ¬ _ ≠ (mipmapSize r8g8b8a8 w h 0).toNat
    rw [mipmapSize_rgba w h hw hh, hsz, hlen]; simp)]
  show (Builder.build sq { width := w, height := h, mipmaps := [(ps.flatMap Px.rgba, r8g8b8a8)] } f >>= fun t => _) = _
  unfold Builder.build
  rw [if_neg hp]
  simp only [Builder.levels, shr, if_pos (show 0 < 32 by decide), hw0, hh0]
  show (((convert sq (ps.flatMap Px.rgba) w h r8g8b8a8 f >>= fun m => _) >>= fun t => _) >>= fun t => _) = _
  rw [hc]
  show Texture.asRgba8 sq
    { format := f, width := w, height := h, refWidth := w, refHeight := h, mipmaps := 1, textures := [ps.flatMap (Px.bytes f)] }
    0 = _
  refine c71_bytes_partial sq _ 0 ps ?_ (by simp [Texture.data]) (by decide) hw1 hh1 ?_ hk
  · show f ∈ alphaFormats ∨ f ∈ opaqueFormats
    rcases hf with rfl | rfl | rfl | rfl <;> decide
  · rw [hn]
    unfold pixels
    show _ = max 1 (w.toNat / 2 ^ 0) * max 1 (h.toNat / 2 ^ 0)
    rw [Nat.pow_zero, Nat.div_one, Nat.div_one] at *
    rw [show max 1 w.toNat = w.toNat by omega, show max 1 h.toNat = h.toNat by omega]

/-- **C41** for R8G8B8A8 and A8B8G8R8 — the image comes back unchanged. -/
theorem c41_partial (sq : Squish) (f : Format) (hf : f = r8g8b8a8 ∨ f = a8b8g8r8) (w h : BitVec 32) (hw : w ≠ 0) (hh : h ≠ 0)
    (img : Bytes) (hn : img.length = 4 * (w.toNat * h.toNat)) (hk : img.length < 2 ^ 32) :
    viaFormat sq f w h img = .ok img := by
  obtain ⟨ps, hps, hl⟩ : ∃ ps : List Px, img = ps.flatMap Px.rgba ∧ ps.length = w.toNat * h.toNat := by
    generalize w.toNat * h.toNat = n at hn
    clear hk
    induction n generalizing img with
    | zero => exact ⟨[], List.length_eq_zero_iff.1 (by omega), rfl⟩
    | succ n ih =>
      match img, hn with
      | a :: b :: c :: d :: img, hn =>
        simp only [List.length_cons] at hn
        obtain ⟨ps, h1, h2⟩ := ih img (by omega)
        exact ⟨⟨a, b, c, d⟩ :: ps, by rw [h1]; rfl, by simp [h2]⟩
  have := viaFormat_ok sq f (by rcases hf with h | h <;> simp [h]) w h hw hh ps hl
    (by rw [hps, flatMap_length4 _ _ 4 (fun _ _ => rfl)] at hk; omega)
  rw [hps, this]
  rcases hf with rfl | rfl <;> rfl

example : viaFormat ⟨fun _ b _ _ => b⟩ a8b8g8r8 2 1 [1, 2, 3, 4, 5, 6, 7, 8] = .ok [1, 2, 3, 4, 5, 6, 7, 8] :=
  c41_partial _ _ (.inr rfl) 2 1 (by decide) (by decide) _ rfl (by decide)

/-- **C41** for the two 24-bit formats — the colours come back, opaque. -/
theorem c41_opaque_partial (sq : Squish) (f : Format) (hf : f ∈ opaqueFormats) (w h : BitVec 32) (hw : w ≠ 0) (hh : h ≠ 0)
    (ps : List Px) (hn : ps.length = w.toNat * h.toNat) (hk : ps.length * 4 < 2 ^ 32) :
    viaFormat sq f w h (ps.flatMap Px.rgba) = .ok (ps.flatMap fun p => [p.r, p.g, p.b, 255]) := by
  have hf' : f = b8g8r8 ∨ f = r8g8b8 := by simpa [opaqueFormats] using hf
  have := viaFormat_ok sq f (by rcases hf' with h | h <;> simp [h]) w h hw hh ps hn hk
  rw [this]
  rcases hf' with rfl | rfl <;> rfl

/-- **C41** is false of A8R8G8B8: the channels of a single pixel are rotated. -/
theorem c41_argb_violation (sq : Squish) : viaFormat sq a8r8g8b8 1 1 [1, 2, 3, 4] = .ok [3, 4, 1, 2] := rfl

/-- **C41** is false of B8G8R8A8 from two pixels on. -/
theorem c41_bgra_violation (sq : Squish) :
    viaFormat sq b8g8r8a8 2 1 [1, 2, 3, 4, 5, 6, 7, 8] ≠ .ok [1, 2, 3, 4, 5, 6, 7, 8] := by
  have h : viaFormat sq b8g8r8a8 2 1 [1, 2, 3, 4, 5, 6, 7, 8] = .ok [3, 4, 3, 2, 0, 0, 5, 0] := rfl
  rw [h]
  decide

/-- Building a R5G6B5 texture from a bright image is undefined behaviour (a conversion out of range). -/
theorem c41_565_violation (sq : Squish) : viaFormat sq r5g6b5 1 1 [255, 255, 255, 255] = .error .ub := rfl

/-- **C41** for R5G6B5, in place of the image coming back: of an image that is dark enough, what is stored and shown of a pixel is the
pixel `stored565`, in which red and blue are exchanged. -/
theorem c41_565_shown_partial (sq : Squish) (w h : BitVec 32) (hw : w ≠ 0) (hh : h ≠ 0)
    (ps : List Px) (hd : ∀ p ∈ ps, p.r < 160 ∧ p.g < 192 ∧ p.b < 160) (hg : ∀ p ∈ ps, p.stored565.g ≠ 63)
    (hn : ps.length = w.toNat * h.toNat) (hk : ps.length * 4 < 2 ^ 32) :
    viaFormat sq r5g6b5 w h (ps.flatMap Px.rgba) = .ok (ps.flatMap fun p => p.stored565.rgba) := by
  have hwh : (w * h).toNat = ps.length := by rw [BitVec.toNat_mul, ← hn, Nat.mod_eq_of_lt (by omega)]
  have hlen : (ps.flatMap Px.rgba).length = 4 * ps.length := flatMap_length4 _ _ 4 (fun _ _ => rfl)
  have hsz : (w * h * 4).toNat = 4 * ps.length := size_toNat w h 4 _ hwh hk (by decide)
  have hw0 : w >>> 0 = w := BitVec.ushiftRight_zero _
  have hh0 : h >>> 0 = h := BitVec.ushiftRight_zero _
  have hw1 : 1 ≤ w.toNat / 2 ^ 0 := by
    have : w.toNat ≠ 0 := fun e => hw (BitVec.eq_of_toNat_eq (by simpa using e))
    rw [Nat.pow_zero, Nat.div_one]; omega
  have hh1 : 1 ≤ h.toNat / 2 ^ 0 := by
    have : h.toNat ≠ 0 := fun e => hh (BitVec.eq_of_toNat_eq (by simpa using e))
    rw [Nat.pow_zero, Nat.div_one]; omega
  have hc : convert sq (ps.flatMap Px.rgba) w h r8g8b8a8 r5g6b5 = .ok (ps.flatMap fun p => p.stored565.bytes) := by
    unfold convert
    rw [if_neg (by decide)]
    have := toRgba_ok sq r8g8b8a8 (by decide) ps w h hwh hk
    rw [show ps.flatMap Px.rgba = ps.flatMap (Px.bytes r8g8b8a8) from rfl, this]
    exact fromRgba_565 ps hd w h hwh hk
  unfold viaFormat Builder.add
  rw [if_neg (by
    show ¬ _ ≠ (mipmapSize r8g8b8a8 w h 0).toNat
    rw [mipmapSize_rgba w h hw hh, hsz, hlen]; simp)]
  show (Builder.build sq { width := w, height := h, mipmaps := [(ps.flatMap Px.rgba, r8g8b8a8)] } r5g6b5 >>= fun t => _) = _
  unfold Builder.build
  rw [if_neg (by decide)]
  simp only [Builder.levels, shr, if_pos (show 0 < 32 by decide), hw0, hh0]
  show (((convert sq (ps.flatMap Px.rgba) w h r8g8b8a8 r5g6b5 >>= fun m => _) >>= fun t => _) >>= fun t => _) = _
  rw [hc]
  have e1 : (ps.flatMap fun p => p.stored565.bytes) = (ps.map Px.stored565).flatMap Px565.bytes := by rw [List.flatMap_map]
  have e2 : (ps.flatMap fun p => p.stored565.rgba) = (ps.map Px.stored565).flatMap Px565.rgba := by rw [List.flatMap_map]
  rw [e1, e2]
  show Texture.asRgba8 sq
    { format := r5g6b5, width := w, height := h, refWidth := w, refHeight := h, mipmaps := 1,
      textures := [(ps.map Px.stored565).flatMap Px565.bytes] } 0 = _
  refine c71_565_partial sq _ 0 (ps.map Px.stored565) ?_ rfl (by simp [Texture.data]) (by decide) hw1 hh1 ?_ (by simpa using hk)
  · intro q hq
    obtain ⟨p, hp, rfl⟩ := List.mem_map.1 hq
    exact hg p hp
  · rw [List.length_map, hn]
    unfold pixels
    show _ = max 1 (w.toNat / 2 ^ 0) * max 1 (h.toNat / 2 ^ 0)
    rw [Nat.pow_zero, Nat.div_one, Nat.div_one] at *
    rw [show max 1 w.toNat = w.toNat by omega, show max 1 h.toNat = h.toNat by omega]

example : ∀ p ∈ [(⟨10, 20, 3, 255⟩ : Px), ⟨150, 100, 60, 0⟩], (p.r < 160 ∧ p.g < 192 ∧ p.b < 160) ∧ p.stored565.g ≠ 63 := by decide

/-- A dark red pixel comes back as a brighter blue one. -/
theorem c41_565_colour_violation (sq : Squish) : viaFormat sq r5g6b5 1 1 [15, 0, 0, 255] = .ok [0, 0, 197, 255] := rfl

/-- Building a DXT texture writes to an empty buffer, whatever the image. -/
theorem c41_dxt_violation (sq : Squish) (f : Format) (hf : f = dxt1 ∨ f = dxt3 ∨ f = dxt5) (w h : BitVec 32) (hw : w ≠ 0) (hh : h ≠ 0)
    (img : Bytes) (hn : img.length = 4 * (w.toNat * h.toNat)) (hk : img.length < 2 ^ 32) :
    viaFormat sq f w h img = .error .ub := by
  have hwh : (w * h).toNat = w.toNat * h.toNat := by rw [BitVec.toNat_mul, Nat.mod_eq_of_lt (by omega)]
  have hsz : (w * h * 4).toNat = img.length := (size_toNat w h 4 _ hwh (by omega) (by decide)).trans hn.symm
  unfold viaFormat Builder.add
  rw [if_neg (by
    show ¬ _ ≠ (mipmapSize r8g8b8a8 w h 0).toNat
    rw [mipmapSize_rgba w h hw hh, hsz]; simp)]
  show (Builder.build sq { width := w, height := h, mipmaps := [(img, r8g8b8a8)] } f >>= fun t => _) = _
  have hc : convert sq img w h r8g8b8a8 f = .error .ub := by
    unfold convert
    rw [if_neg (by rcases hf with rfl | rfl | rfl <;> decide)]
    have : toRgba sq img w h r8g8b8a8 = .ok img := assign_ok _ _ hsz
    rw [this]
    rcases hf with rfl | rfl | rfl <;> rfl
  unfold Builder.build
  rw [if_neg (by rcases hf with rfl | rfl | rfl <;> decide)]
  simp only [Builder.levels, shr, if_pos (show 0 < 32 by decide), BitVec.ushiftRight_zero]
  show (((convert sq img w h r8g8b8a8 f >>= fun m => _) >>= fun t => _) >>= fun t => _) = _
  rw [hc]
  rfl

/-! ## C42 -/

/-- Add mipmaps of one format in turn. -/
def addAll (b : Builder) (f : Format) : List Bytes → Except Fail Builder
  | [] => .ok b
  | m :: ms => do
    let b ← b.add m f
    addAll b f ms

theorem addAll_ok (b : Builder) (f : Format) (ms : List Bytes) (hl : b.mipmaps.length + ms.length ≤ 32)
    (hs : ∀ i m, ms[i]? = some m → m.length = (mipmapSize f b.width b.height (b.mipmaps.length + i)).toNat) :
    addAll b f ms = .ok { b with mipmaps := b.mipmaps ++ ms.map (fun m => (m, f)) } := by
  induction ms generalizing b with
  | nil => simp [addAll]
  | cons m ms ih =>
    simp only [List.length_cons] at hl
    have h0 := hs 0 m rfl
    have ha : b.add m f = .ok { b with mipmaps := b.mipmaps ++ [(m, f)] } := by
      unfold Builder.add
      rw [if_neg]
      rw [Nat.mod_eq_of_lt (by omega), h0]
      simp
    unfold addAll
    rw [ha]
    show addAll _ f ms = _
    rw [ih]
    · simp
    · simp; omega
    · intro i x hx
      have := hs (i + 1) x (by simpa using hx)
      rw [this]
      simp [Nat.add_assoc, Nat.add_comm]

theorem levels_ok (sq : Squish) (w h : BitVec 32) (f : Format) (k : Nat) (ms : List Bytes) (hl : k + ms.length ≤ 32)
    (hs : ∀ i m, ms[i]? = some m → m.length = (mipmapSize f w h (k + i)).toNat) :
    Builder.levels sq w h f k (ms.map fun m => (m, f)) = .ok ms := by
  induction ms generalizing k with
  | nil => rfl
  | cons m ms ih =>
    simp only [List.length_cons] at hl
    have h0 := hs 0 m rfl
    simp only [List.map_cons, Builder.levels, shr, if_pos (show k < 32 by omega)]
    show (convert sq m (w >>> k) (h >>> k) f f >>= fun x => _) = _
    have hc : convert sq m (w >>> k) (h >>> k) f f = .ok m := by
      unfold convert
      rw [if_pos rfl, mipmapSize_level, assign_ok _ _ (by rw [h0]; rfl)]
    rw [hc]
    show (Builder.levels sq w h f (k + 1) _ >>= fun x => _) = _
    rw [ih (k + 1) (by omega) (fun i x hx => by rw [hs (i + 1) x (by simpa using hx)]; simp [Nat.add_comm, Nat.add_left_comm])]
    rfl

/-- What a built texture shows: level `i` is the mipmap added `i`-th to last. -/
theorem c42_order (sq : Squish) (w h : BitVec 32) (f : Format) (hf : f ≠ p8) (ms : List Bytes) (hl : ms.length ≤ 32)
    (hs' : ∀ i m, ms[i]? = some m → LevelBytes f w h i m.length) (hw : ∀ i, i < ms.length → LevelWhole f w h i) :
    ∃ b t, addAll ⟨w, h, []⟩ f ms = .ok b ∧ b.build sq f = .ok t ∧ t.mipmaps.toNat = ms.length ∧
      ∀ i : Nat, i < ms.length → ∃ m, ms[ms.length - 1 - i]? = some m ∧ t.data (BitVec.ofNat 32 i) = .ok m := by
  have hs : ∀ i m, ms[i]? = some m → m.length = (mipmapSize f w h i).toNat := fun i m hi =>
    (hs' i m hi).size (hw i (List.getElem?_eq_some_iff.mp hi).1)
  refine ⟨_, { format := f, width := w, height := h, refWidth := w, refHeight := h,
               mipmaps := BitVec.ofNat 32 ms.length, textures := ms },
    addAll_ok ⟨w, h, []⟩ f ms (by simpa using hl) (by simpa using hs), ?_, ?_, ?_⟩
  · unfold Builder.build
    rw [if_neg hf]
    simp only [List.nil_append]
    rw [levels_ok sq w h f 0 ms (by omega) (by simpa using hs)]
    simp only [List.length_map]
    rfl
  · simp only [BitVec.toNat_ofNat]
    omega
  · intro i hi
    have hx : ms.length - 1 - i < ms.length := by omega
    refine ⟨ms[ms.length - 1 - i], by simp, ?_⟩
    unfold Texture.data
    have e : (BitVec.ofNat 32 ms.length - 1 - BitVec.ofNat 32 i).toNat = ms.length - 1 - i := by
      have : BitVec.ofNat 32 ms.length - 1 - BitVec.ofNat 32 i = BitVec.ofNat 32 (ms.length - 1 - i) := by
        apply BitVec.eq_of_toNat_eq
        simp only [BitVec.toNat_sub, BitVec.toNat_ofNat, show (1 : BitVec 32).toNat = 1 from rfl]
        omega
      rw [this, BitVec.toNat_ofNat]
      omega
    dsimp only
    rw [e, List.getElem?_eq_getElem hx]

/-- **C42** for one mipmap. -/
theorem c42_single_partial (sq : Squish) (w h : BitVec 32) (f : Format) (hf : f ≠ p8) (m : Bytes)
    (hs : LevelBytes f w h 0 m.length) (hw : LevelWhole f w h 0) :
    ∃ b t, (Builder.mk w h []).add m f = .ok b ∧ b.build sq f = .ok t ∧ t.data 0 = .ok m := by
  obtain ⟨b, t, h1, h2, _, h3⟩ := c42_order sq w h f hf [m] (by simp) (by
    intro i x hx
    match i, hx with
    | 0, hx => cases hx; exact hs) (by
    intro i hi
    match i, hi with
    | 0, _ => exact hw)
  obtain ⟨x, h4, h5⟩ := h3 0 (by simp)
  cases h4
  refine ⟨b, t, ?_, h2, h5⟩
  have : addAll ⟨w, h, []⟩ f [m] = (Builder.mk w h []).add m f := by
    unfold addAll
    cases (Builder.mk w h []).add m f <;> rfl
  rw [← this, h1]

example : LevelBytes dxt1 2 2 0 [1, 2, 3, 4, 5, 6, 7, (8 : Byte)].length ∧ LevelWhole dxt1 2 2 0 :=
  ⟨⟨.block 8, rfl, by decide, by decide⟩, LevelWhole.pow2 (i := 1) (j := 1) rfl rfl 0⟩

/-- **C42** is false with two levels: level 0 of the built texture is the smaller mipmap; and a file made of it does not even
hold it. -/
theorem c42_violation (sq : Squish) :
    ∃ b t, addAll ⟨2, 1, []⟩ r8g8b8a8 [[1, 2, 3, 4, 5, 6, 7, 8], [9, 10, 11, 12]] = .ok b ∧ b.build sq r8g8b8a8 = .ok t ∧
      t.data 0 = .ok [9, 10, 11, 12] ∧ t.data 1 = .ok [1, 2, 3, 4, 5, 6, 7, 8] ∧
      (Texture.load {} ⟨(t.save Ws.empty).data, 0⟩).toOption.map (fun x => (x.1.data 0, x.1.data 1)) =
        some (.ok [5, 6, 7, 8, 9, 10, 11, 12], .ok [1, 2, 3, 4]) := by
  refine ⟨⟨2, 1, [([1, 2, 3, 4, 5, 6, 7, 8], r8g8b8a8), ([9, 10, 11, 12], r8g8b8a8)]⟩,
    { format := r8g8b8a8, width := 2, height := 1, refWidth := 2, refHeight := 1, mipmaps := 2,
      textures := [[1, 2, 3, 4, 5, 6, 7, 8], [9, 10, 11, 12]] }, by decide +kernel, rfl, ?_, ?_, ?_⟩ <;> decide +kernel

end Verif.Props
