import Verif.Lemmas.Dds
import Verif.Props.Texture

/-! # Properties of converted textures: C94 -/

namespace Verif.Props

open Tex

/-- A texture all of whose levels are there with the bytes its format and dimensions imply, in whole blocks (or less than one). -/
structure Convertible (t : Texture) : Prop where
  levels : t.mipmaps ≠ 0
  sized : t.Sized
  whole : t.Whole

theorem Convertible.layout {t : Texture} (h : Convertible t) : ∃ lay, layouts[t.format.toNat]? = some lay := by
  obtain ⟨hn, hs⟩ := h.sized
  have hm : t.mipmaps.toNat ≠ 0 := fun e => h.levels (BitVec.eq_of_toNat_eq (by simpa using e))
  have h0 : 0 < t.textures.length := by omega
  obtain ⟨lay, hl, _⟩ := hs 0 _ (List.getElem?_eq_getElem h0)
  exact ⟨lay, hl⟩

theorem Convertible.read {t : Texture} (h : Convertible t) (hf : t.format ≠ p8) :
    ∃ file px, toDds t = .ok file ∧ ddsPixels t.format = some px ∧
      Dds.read file = some ⟨t.width.toNat, t.height.toNat, px, [], t.textures.reverse⟩ := by
  obtain ⟨lay, hl⟩ := h.layout
  obtain ⟨px, h1, h2⟩ := read_ok t h.levels h.sized h.whole lay hl hf
  exact ⟨_, px, toDds_ok t h.sized.1, h1, h2⟩

theorem Convertible.level {t : Texture} (h : Convertible t) (l : Nat) (m : Bytes) (hl : t.textures.reverse[l]? = some m) :
    t.data (BitVec.ofNat 32 l) = .ok m := by
  have hlt : l < t.mipmaps.toNat := by
    have := (List.getElem?_eq_some_iff.mp hl).1
    rw [List.length_reverse, h.sized.1] at this
    exact this
  obtain ⟨m', h1, h2⟩ := data_level t h.sized.1 l hlt
  rw [hl] at h1
  rw [h2, Option.some.inj h1]

/-- **C94**, dimensions and levels — what `to_dds` makes of a texture is a DDS file that a strict reader accepts: header, sizes
of lines and levels, number of levels and length are right, and the levels are those of the texture, the largest first. Missing:
paletted images (`c94_palette_violation`), and images in blocks with sides that are not whole blocks (`c94_blocks_violation`). -/
theorem c94_file_partial (t : Texture) (h : Convertible t) (hf : t.format ≠ p8) :
    ∃ file img, toDds t = .ok file ∧ Dds.read file = some img ∧ img.width = t.width.toNat ∧ img.height = t.height.toNat ∧
      img.levels.length = t.mipmaps.toNat ∧ ∀ l m, img.levels[l]? = some m → t.data (BitVec.ofNat 32 l) = .ok m := by
  obtain ⟨file, px, h1, _, h2⟩ := h.read hf
  exact ⟨file, _, h1, h2, rfl, rfl, by simp [h.sized.1], fun l m hm => h.level l m hm⟩

example : Convertible tex22 ∧ tex22.format ≠ p8 := by
  refine ⟨⟨by decide, ⟨rfl, ?_⟩, c40_power_of_two tex22 1 1 rfl rfl⟩, by decide⟩
  intro i m h
  match i, h with
  | 0, h => cases h; exact ⟨.pixel 4, rfl, by decide, by decide⟩
  | 1, h => cases h; exact ⟨.pixel 4, rfl, by decide, by decide⟩

/-- **C94**, the rest of the header, for every texture: the number of levels is given exactly if there are several of them, and all
words that mean nothing for an image of two dimensions are zero. -/
theorem c94_header (t : Texture) (hn : t.textures.length = t.mipmaps.toNat) :
    ∃ file, toDds t = .ok file ∧ Dds.word file 2 = t.height.toNat ∧ Dds.word file 3 = t.width.toNat ∧
      (Dds.has (Dds.word file 1) 0x20000 = decide (1 < t.mipmaps.toNat)) ∧
      Dds.word file 6 = (if 1 < t.mipmaps.toNat then t.mipmaps.toNat else 0) ∧
      Dds.word file 26 = (if 1 < t.mipmaps.toNat then 0x401008 else 0x1000) ∧
      ∀ i ∈ [5, 7, 8, 9, 10, 11, 12, 13, 14, 15, 16, 17, 27, 28, 29, 30], Dds.word file i = 0 := by
  have hm : (t.mipmaps > 1) ↔ 1 < t.mipmaps.toNat := by rw [gt_iff_lt, BitVec.lt_def]; exact Iff.rfl
  refine ⟨_, toDds_ok t hn, ?_, ?_, ?_, ?_, ?_, ?_⟩
  · rw [word_at b!"DDS " _ rfl _ 2 _ rfl]; rfl
  · rw [word_at b!"DDS " _ rfl _ 3 _ rfl]; rfl
  · rw [word_at b!"DDS " _ rfl _ 1 _ rfl]
    by_cases h : 1 < t.mipmaps.toNat
    · simp only [ddsHeader, if_pos (hm.mpr h), h, decide_true]
      split <;> (dsimp only; decide)
    · simp only [ddsHeader, if_neg (fun e => h (hm.mp e)), h, decide_false]
      split <;> (dsimp only; decide)
  · rw [word_at b!"DDS " _ rfl _ 6 _ rfl]
    by_cases h : 1 < t.mipmaps.toNat
    · simp only [ddsHeader, if_pos (hm.mpr h), if_pos h]
    · simp only [ddsHeader, if_neg (fun e => h (hm.mp e)), if_neg h]; rfl
  · rw [word_at b!"DDS " _ rfl _ 26 _ rfl]
    by_cases h : 1 < t.mipmaps.toNat
    · simp only [ddsHeader, if_pos (hm.mpr h), if_pos h]; rfl
    · simp only [ddsHeader, if_neg (fun e => h (hm.mp e)), if_neg h]; rfl
  · intro i hi
    simp only [List.mem_cons, List.not_mem_nil, or_false] at hi
    rcases hi with rfl | rfl | rfl | rfl | rfl | rfl | rfl | rfl | rfl | rfl | rfl | rfl | rfl | rfl | rfl | rfl <;>
      exact word_at b!"DDS " _ rfl _ _ 0 rfl

example : tex22.textures.length = tex22.mipmaps.toNat := rfl
/-- Images in blocks keep the name of their compression. -/
theorem c94_compressed (t : Texture) (h : Convertible t) (hf : t.format ∈ [dxt1, dxt2, dxt3, dxt4, dxt5]) :
    ∃ file img, toDds t = .ok file ∧ Dds.read file = some img ∧
      (t.format, img.pixels) ∈ [(dxt1, .blocks b!"DXT1" 8), (dxt2, .blocks b!"DXT2" 16), (dxt3, .blocks b!"DXT3" 16),
        (dxt4, .blocks b!"DXT4" 16), (dxt5, .blocks b!"DXT5" 16)] := by
  have hp : t.format ≠ p8 := by intro e; rw [e] at hf; simp at hf
  obtain ⟨file, px, h1, h2, h3⟩ := h.read hp
  refine ⟨file, _, h1, h3, ?_⟩
  have all : ∀ f ∈ [dxt1, dxt2, dxt3, dxt4, dxt5], ∀ px, ddsPixels f = some px →
      (f, px) ∈ [(dxt1, Dds.Pixels.blocks b!"DXT1" 8), (dxt2, .blocks b!"DXT2" 16), (dxt3, .blocks b!"DXT3" 16),
        (dxt4, .blocks b!"DXT4" 16), (dxt5, .blocks b!"DXT5" 16)] := by
    have e : ([dxt1, dxt2, dxt3, dxt4, dxt5].all fun f => (ddsPixels f).any (fun px => decide ((f, px) ∈
        [(dxt1, Dds.Pixels.blocks b!"DXT1" 8), (dxt2, .blocks b!"DXT2" 16), (dxt3, .blocks b!"DXT3" 16),
        (dxt4, .blocks b!"DXT4" 16), (dxt5, .blocks b!"DXT5" 16)]))) = true := by decide +kernel
    intro f hf px hpx
    have := List.all_eq_true.mp e f hf
    rw [hpx] at this
    simpa using this
  exact all _ hf _ h2

example : Convertible { format := dxt1, width := 4, height := 4, mipmaps := 1, textures := [[1, 2, 3, 4, 5, 6, 7, 8]] } := by
  refine ⟨by decide, ⟨rfl, ?_⟩, c40_power_of_two _ 2 2 rfl rfl⟩
  intro i m h
  match i, h with
  | 0, h => cases h; exact ⟨.block 8, rfl, by decide, by decide⟩

/-- The colours of all levels, for a format whose pixels a DDS reader shows. -/
theorem colours {α} (t : Texture) (h : Convertible t) (hf : t.format ≠ p8) (n r g b a : Nat)
    (hpx : ddsPixels t.format = some (.rgb n r g b a)) (hn : 0 < n) (enc rgba : α → Bytes) (he : ∀ p, (enc p).length = n)
    (hc : ∀ p, (Dds.Pixels.rgb n r g b a).pixel (leNat (enc p)) = rgba p) :
    ∃ file img, toDds t = .ok file ∧ Dds.read file = some img ∧
      ∀ l (ps : List α), l < t.mipmaps.toNat → t.data (BitVec.ofNat 32 l) = .ok (ps.flatMap enc) →
        ∃ m, img.levels[l]? = some m ∧ img.pixels.rgba m = ps.flatMap rgba := by
  obtain ⟨file, px, h1, h2, h3⟩ := h.read hf
  refine ⟨file, _, h1, h3, ?_⟩
  intro l ps hl hd
  obtain ⟨m, g1, g2⟩ := data_level t h.sized.1 l hl
  refine ⟨m, g1, ?_⟩
  rw [g2] at hd
  rw [hpx] at h2
  rw [Except.ok.inj hd, ← Option.some.inj h2]
  show (Dds.Pixels.rgb n r g b a).rgba _ = _
  rw [rgba_flatMap n r g b a hn ps enc he]
  exact congrArg (fun f => List.flatMap f ps) (funext hc)

/-- **C94**, colours of A4R4G4B4: a DDS reader shows the pixels of every level as `as_rgba8` does (`c71_4444_partial`). -/
theorem c94_4444 (t : Texture) (h : Convertible t) (hf : t.format = a4r4g4b4) :
    ∃ file img, toDds t = .ok file ∧ Dds.read file = some img ∧
      ∀ l (ps : List Px4), l < t.mipmaps.toNat → t.data (BitVec.ofNat 32 l) = .ok (ps.flatMap Px4.bytes) →
        ∃ m, img.levels[l]? = some m ∧ img.pixels.rgba m = ps.flatMap Px4.rgba :=
  colours t h (by rw [hf]; decide) 2 0xF00 0xF0 0xF 0xF000 (by rw [hf]; decide +kernel) (by decide) Px4.bytes Px4.rgba
    (fun _ => leBytes_length _ _) px4444

/-- **C94**, colours of R5G6B5: as `as_rgba8` shows them (`c71_565_partial`), except that full green is full. -/
theorem c94_565 (t : Texture) (h : Convertible t) (hf : t.format = r5g6b5) :
    ∃ file img, toDds t = .ok file ∧ Dds.read file = some img ∧
      ∀ l (ps : List Px565), l < t.mipmaps.toNat → t.data (BitVec.ofNat 32 l) = .ok (ps.flatMap Px565.bytes) →
        ∃ m, img.levels[l]? = some m ∧ img.pixels.rgba m = ps.flatMap Px565.rgba :=
  colours t h (by rw [hf]; decide) 2 0xF800 0x7E0 0x1F 0 (by rw [hf]; decide +kernel) (by decide) Px565.bytes Px565.rgba
    (fun _ => leBytes_length _ _) px565

/-- **C94**, colours of A1R5G5B5, which `as_rgba8` does not support. -/
theorem c94_1555 (t : Texture) (h : Convertible t) (hf : t.format = a1r5g5b5) :
    ∃ file img, toDds t = .ok file ∧ Dds.read file = some img ∧
      ∀ l (ps : List Px1555), l < t.mipmaps.toNat → t.data (BitVec.ofNat 32 l) = .ok (ps.flatMap Px1555.bytes) →
        ∃ m, img.levels[l]? = some m ∧ img.pixels.rgba m = ps.flatMap Px1555.rgba :=
  colours t h (by rw [hf]; decide) 2 0x7C00 0x3E0 0x1F 0x8000 (by rw [hf]; decide +kernel) (by decide) Px1555.bytes Px1555.rgba
    (fun _ => leBytes_length _ _) px1555

example : Convertible { format := r5g6b5, width := 1, height := 1, mipmaps := 1, textures := [[0x34, 0x12]] } ∧
    [0x34, 0x12] = [(⟨2, 17, 20⟩ : Px565)].flatMap Px565.bytes ∧ [0x34, 0x12] = [(⟨1, 2, 3, 4⟩ : Px4)].flatMap Px4.bytes ∧
    [0x34, 0x12] = [(⟨0, 4, 17, 20⟩ : Px1555)].flatMap Px1555.bytes := by
  refine ⟨⟨by decide, ⟨rfl, ?_⟩, c40_power_of_two _ 0 0 rfl rfl⟩, by decide, by decide, by decide⟩
  intro i m h
  match i, h with
  | 0, h => cases h; exact ⟨.pixel 2, rfl, by decide, by decide⟩

/-- **C94**, colours of the formats of whole bytes: the file shows the right colours if the bytes of every pixel are in the
opposite of the order in which `as_rgba8` takes them. The file says how to read its pixels as words (the first channel of the
name of the format in the highest bits), `as_rgba8` reads them as bytes (the first channel first). -/
theorem c94_bytes_partial (t : Texture) (h : Convertible t) (hf : t.format ∈ alphaFormats ∨ t.format ∈ opaqueFormats) :
    ∃ file img, toDds t = .ok file ∧ Dds.read file = some img ∧
      ∀ l (ps : List Px), l < t.mipmaps.toNat → t.data (BitVec.ofNat 32 l) = .ok (ps.flatMap fun p => (p.bytes t.format).reverse) →
        ∃ m, img.levels[l]? = some m ∧ img.pixels.rgba m = ps.flatMap fun p => (p.shown t.format).rgba := by
  obtain ⟨n, r, g, b, a, h1, h2, h3, h4⟩ := pxBytes t.format hf
  have hp : t.format ≠ p8 := by intro e; rw [e] at hf; simp [alphaFormats, opaqueFormats] at hf
  exact colours t h hp n r g b a h1 h2 _ _ h3 h4

/-- A texture of one pixel. -/
def texPx (f : Format) (p : Px) : Texture := { format := f, width := 1, height := 1, mipmaps := 1, textures := [p.bytes f] }

/-- **C94** is false of the colours of these formats: a red pixel (with some blue) has other colours in the file than those
`as_rgba8` gives, in each of the six formats. -/
theorem c94_colours_violation (sq : Squish) (f : Format) (hf : f ∈ alphaFormats ∨ f ∈ opaqueFormats) :
    ∃ (t : Texture) (file : Bytes) (img : Dds.Image) (m : Bytes), Convertible t ∧ t.format = f ∧ toDds t = .ok file ∧
      Dds.read file = some img ∧ img.levels[0]? = some m ∧ t.asRgba8 sq 0 = .ok [255, 0, 1, 255] ∧
      img.pixels.rgba m ≠ [255, 0, 1, 255] := by
  have hf' : f ∈ alphaFormats ++ opaqueFormats := by simpa using hf
  have conv : Convertible (texPx f ⟨255, 0, 1, 255⟩) := by
    refine ⟨by show (1 : BitVec 32) ≠ 0; decide, ⟨rfl, ?_⟩, c40_power_of_two _ 0 0 rfl rfl⟩
    have key := List.all_eq_true.mp (by decide +kernel : ((alphaFormats ++ opaqueFormats).all fun f =>
      decide (layouts[f.toNat]? = some (.pixel (Px.bytes f ⟨255, 0, 1, 255⟩).length) ∧ (Px.bytes f ⟨255, 0, 1, 255⟩).length < 2 ^ 32)) = true)
      f hf'
    have key := of_decide_eq_true key
    intro i m h
    match i, h with
    | 0, h =>
      cases h
      refine ⟨_, key.1, ?_, key.2⟩
      have e : levelSide 1 (1 - 1 - 0) = 1 := by decide
      show _ = levelSide 1 (1 - 1 - 0) * levelSide 1 (1 - 1 - 0) * _
      rw [e, Nat.one_mul]
  have hp : f ≠ p8 := by intro e; rw [e] at hf; simp [alphaFormats, opaqueFormats] at hf
  obtain ⟨file, px, h1, h2, h3⟩ := conv.read hp
  refine ⟨_, file, _, _, conv, rfl, h1, h3, rfl, ?_, ?_⟩
  · have := c71_bytes_partial sq (texPx f ⟨255, 0, 1, 255⟩) 0 [⟨255, 0, 1, 255⟩] hf (by
      show Texture.data _ _ = .ok (Px.bytes f ⟨255, 0, 1, 255⟩ ++ [])
      rw [List.append_nil]
      unfold Texture.data
      have i0 : ((texPx f ⟨255, 0, 1, 255⟩).mipmaps - 1 - 0).toNat = 0 := by show ((1 : BitVec 32) - 1 - 0).toNat = 0; decide
      rw [i0]
      rfl) (by decide) (by show 1 ≤ (1 : BitVec 32).toNat / 2 ^ 0; decide)
      (by show 1 ≤ (1 : BitVec 32).toNat / 2 ^ 0; decide) (by show 1 = pixels 1 1 0; decide) (by decide)
    rw [this]
    have sh := of_decide_eq_true (List.all_eq_true.mp (by decide +kernel : ((alphaFormats ++ opaqueFormats).all fun f =>
      decide ((Px.shown f ⟨255, 0, 1, 255⟩).rgba = [255, 0, 1, 255])) = true) f hf')
    simp only [List.flatMap_cons, List.flatMap_nil, List.append_nil]
    exact congrArg Except.ok sh
  · have all := of_decide_eq_true (List.all_eq_true.mp (by decide +kernel : ((alphaFormats ++ opaqueFormats).all fun f =>
      decide ((ddsPixels f).map (fun px => px.rgba (Px.bytes f ⟨255, 0, 1, 255⟩)) ≠ some [255, 0, 1, 255])) = true) f hf')
    intro e
    refine all ?_
    have h2' : ddsPixels f = some px := h2
    rw [h2']
    exact congrArg some e

/-- **C94** is false of paletted images: the header of none of them says that a pixel is a byte (the number of bits is zero), so
that the file cannot be read. -/
theorem c94_palette_violation (t : Texture) (hn : t.textures.length = t.mipmaps.toNat) (hf : t.format = p8) :
    ∃ file, toDds t = .ok file ∧ Dds.word file 21 = 0 ∧ Dds.read file = none := by
  refine ⟨_, toDds_ok t hn, ?_, ?_⟩
  · rw [word_at b!"DDS " _ rfl _ 21 _ rfl, show (ddsHeader t).format = ddsFormat t.format from rfl, hf]
    rfl
  · unfold Dds.read
    rw [word_at b!"DDS " _ rfl _ 19 _ rfl, word_at b!"DDS " _ rfl _ 20 _ rfl, word_at b!"DDS " _ rfl _ 21 _ rfl,
      word_at b!"DDS " _ rfl _ 22 _ rfl, word_at b!"DDS " _ rfl _ 23 _ rfl, word_at b!"DDS " _ rfl _ 24 _ rfl,
      word_at b!"DDS " _ rfl _ 25 _ rfl]
    rw [show (ddsHeader t).format = ddsFormat t.format from rfl, hf]
    have hp : Dds.pixels (ddsFormat p8).flags.toNat (ddsFormat p8).fourCC.toNat (ddsFormat p8).bits.toNat (ddsFormat p8).r.toNat
      (ddsFormat p8).g.toNat (ddsFormat p8).b.toNat (ddsFormat p8).a.toNat = none := by decide +kernel
    rw [hp]
    split
    · rfl
    · split <;> rfl

/-- But for the header the file of a paletted image is complete: 256 entries of blue, green, red and alpha, then the levels. -/
theorem c94_palette_partial (t : Texture) (hn : t.textures.length = t.mipmaps.toNat) (hf : t.format = p8) :
    ∃ header, toDds t = .ok (header ++ (t.palette.flatMap fun c => [⟨c.b⟩, ⟨c.g⟩, ⟨c.r⟩, ⟨c.a⟩]) ++ t.textures.reverse.flatten) ∧
      header.length = 128 := by
  refine ⟨b!"DDS " ++ (ddsHeader t).words.flatMap (encW 4), ?_, ?_⟩
  · have hb : ∀ x : BitVec 8, encW 1 x = [⟨x⟩] := by
      intro x
      show [UInt8.ofNat (x.toNat % 256)] = _
      rw [Nat.mod_eq_of_lt x.isLt]
      simp [UInt8.ofNat]
    have he : t.palette.map Color.enc = t.palette.map fun c => [⟨c.b⟩, ⟨c.g⟩, ⟨c.r⟩, ⟨c.a⟩] :=
      List.map_congr_left fun c _ => by simp [Color.enc, hb]
    rw [toDds_ok t hn, paletteBytes, if_pos hf, he, ← List.flatMap_def]
    simp only [List.append_assoc]
  · rw [List.length_append, flatMap_word_length]
    rfl

/-- **C94** is false of images in blocks whose sides are not whole blocks: five by five pixels are four blocks, but the file
declares the bytes of one. -/
theorem c94_blocks_violation :
    ∃ t : Texture, t.mipmaps ≠ 0 ∧ t.Sized ∧ ∃ file, toDds t = .ok file ∧ Dds.word file 4 = 8 ∧ Dds.read file = none := by
  refine ⟨tex55, by decide, ⟨rfl, ?_⟩, _, toDds_ok tex55 rfl, by decide +kernel, by decide +kernel⟩
  intro i m h
  match i, h with
  | 0, h => cases h; exact ⟨.block 8, rfl, by decide, by decide⟩

/-- A texture that declares more levels than it has terminates the program (`data` is `noexcept`), for instance a file of a
texture whose levels were never filled in. -/
theorem c94_missing_levels (t : Texture) (hn : t.textures = []) (hm : t.mipmaps ≠ 0) : toDds t = .error .terminate := by
  have hm0 : 1 ≤ t.mipmaps.toNat := by
    have : t.mipmaps.toNat ≠ 0 := fun e => hm (BitVec.eq_of_toNat_eq (by simpa using e))
    omega
  obtain ⟨k, hk⟩ : ∃ k, t.mipmaps.toNat = k + 1 := ⟨t.mipmaps.toNat - 1, by omega⟩
  have hd : ∀ w, ddsData t w = .error .terminate := by
    intro w
    unfold ddsData
    rw [hk, List.range_succ_eq_map]
    show ((t.data _ >>= _) >>= _) = _
    have : t.data (BitVec.ofNat 32 0) = .error .terminate := by unfold Texture.data; rw [hn]; rfl
    rw [this]
    rfl
  unfold toDds
  dsimp only
  rw [hd]
  rfl

example : ({ mipmaps := 1 } : Texture).textures = [] ∧ ({ mipmaps := 1 } : Texture).mipmaps ≠ 0 := by decide

end Verif.Props
