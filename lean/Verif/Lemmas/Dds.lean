import Verif.Model.Dds
import Verif.Spec.Dds
import Verif.Lemmas.Texture

/-! # Lemmas about DDS files -/

namespace Verif.Tex

theorem words_length (h : DdsHeader) : h.words.length = 31 := rfl

theorem emits_words (ws : List (BitVec 32)) : Emits (fun w => ws.foldl (fun w x => w.u32 x) w) (ws.flatMap (encW 4)) := by
  induction ws with
  | nil => exact Emits.id
  | cons a ws ih => exact (Emits.u32 a).comp ih

theorem flatMap_word_length (ws : List (BitVec 32)) : (ws.flatMap (encW 4)).length = 4 * ws.length := by
  induction ws with
  | nil => rfl
  | cons a ws ih => rw [List.flatMap_cons, List.length_append, ih, encW_length, List.length_cons]; omega

/-- The words of a header that was written. -/
theorem word_at (m rest : Bytes) (hm : m.length = 4) (ws : List (BitVec 32)) (i : Nat) (x : BitVec 32) (h : ws[i]? = some x) :
    Dds.word (m ++ ws.flatMap (encW 4) ++ rest) i = x.toNat := by
  unfold Dds.word
  have hi : i < ws.length := (List.getElem?_eq_some_iff.mp h).1
  have hx : ws[i] = x := (List.getElem?_eq_some_iff.mp h).2
  have hs : ws = ws.take i ++ x :: ws.drop (i + 1) := by
    rw [← hx, List.getElem_cons_drop hi, List.take_append_drop]
  have e : m ++ ws.flatMap (encW 4) ++ rest =
      (m ++ (ws.take i).flatMap (encW 4)) ++ (encW 4 x ++ ((ws.drop (i + 1)).flatMap (encW 4) ++ rest)) := by
    conv => lhs; rw [hs]
    simp only [List.flatMap_append, List.flatMap_cons, List.append_assoc]
  have hl : (m ++ (ws.take i).flatMap (encW 4)).length = 4 + 4 * i := by
    rw [List.length_append, flatMap_word_length, List.length_take, hm]; omega
  rw [e, ← hl, List.drop_left, List.take_left' (encW_length 4 x)]
  exact (leNat_leBytes 4 x.toNat).trans (Nat.mod_eq_of_lt x.isLt)

theorem data_level (t : Texture) (hn : t.textures.length = t.mipmaps.toNat) (l : Nat) (hl : l < t.mipmaps.toNat) :
    ∃ m, t.textures.reverse[l]? = some m ∧ t.data (BitVec.ofNat 32 l) = .ok m := by
  have hlt := t.mipmaps.isLt
  have e : (t.mipmaps - 1 - BitVec.ofNat 32 l).toNat = t.mipmaps.toNat - 1 - l := by
    have h1 : (1 : BitVec 32) ≤ t.mipmaps := by rw [BitVec.le_def]; show 1 ≤ _; omega
    have h2 : (BitVec.ofNat 32 l) ≤ t.mipmaps - 1 := by
      rw [BitVec.le_def, BitVec.toNat_sub_of_le h1, BitVec.toNat_ofNat, Nat.mod_eq_of_lt (by omega)]
      show l ≤ _ - 1
      omega
    rw [BitVec.toNat_sub_of_le h2, BitVec.toNat_sub_of_le h1, BitVec.toNat_ofNat, Nat.mod_eq_of_lt (by omega)]
    rfl
  have hi : t.mipmaps.toNat - 1 - l < t.textures.length := by omega
  refine ⟨t.textures[t.mipmaps.toNat - 1 - l], ?_, ?_⟩
  · rw [List.getElem?_reverse (by omega), hn, List.getElem?_eq_getElem hi]
  · unfold Texture.data
    rw [e, List.getElem?_eq_getElem hi]

theorem ddsData_ok (t : Texture) (hn : t.textures.length = t.mipmaps.toNat) (w : Ws) (hw : w.pos ≤ w.data.length) :
    ddsData t w = .ok (w.write t.textures.reverse.flatten) := by
  have key : ∀ n, n ≤ t.mipmaps.toNat → (List.range n).foldlM (fun w level => do
      let data ← t.data (BitVec.ofNat 32 level)
      return w.write data) w = (.ok (w.write (t.textures.reverse.take n).flatten) : Except Fail Ws) := by
    intro n
    induction n with
    | zero =>
      intro _
      have := Emits.id w hw
      rw [List.take_zero, List.flatten_nil, ← this]
      rfl
    | succ n ih =>
      intro h
      obtain ⟨m, h1, h2⟩ := data_level t hn n (by omega)
      rw [List.range_succ, List.foldlM_append, ih (by omega)]
      show ((t.data (BitVec.ofNat 32 n) >>= fun data => pure ((w.write _).write data)) >>= pure) = _
      rw [h2]
      have hc := ((Emits.write (t.textures.reverse.take n).flatten).comp (Emits.write m)) w hw
      rw [List.take_add_one, h1]
      simp only [Option.toList_some, List.flatten_append, List.flatten_cons, List.flatten_nil, List.append_nil]
      exact congrArg Except.ok hc
  unfold ddsData
  rw [key _ (Nat.le_refl _), ← hn, ← List.length_reverse, List.take_length]

/-- The bytes of a palette. -/
def paletteBytes (t : Texture) : Bytes := if t.format = p8 then (t.palette.map Color.enc).flatten else []

theorem toDds_ok (t : Texture) (hn : t.textures.length = t.mipmaps.toNat) :
    toDds t = .ok (b!"DDS " ++ (ddsHeader t).words.flatMap (encW 4) ++ (paletteBytes t ++ t.textures.reverse.flatten)) := by
  have hp : Emits (fun w => if t.format = p8 then t.palette.foldl (fun w c => c.save w) w else w) (paletteBytes t) := by
    unfold paletteBytes
    by_cases h : t.format = p8
    · simp only [if_pos h]
      exact Emits.foldl Color.save _ Color.emits t.palette
    · simp only [if_neg h]
      exact Emits.id
  have h1 := ((Emits.string b!"DDS ").comp (emits_words (ddsHeader t).words)).comp hp
  have e1 := h1 Ws.empty (Nat.le_refl _)
  have h2 := (h1.comp (Emits.write t.textures.reverse.flatten)) Ws.empty (Nat.le_refl _)
  have e0 : toDds t = (ddsData t ((fun w => if t.format = p8 then
      List.foldl (fun w c => c.save w) (List.foldl (fun w x => Ws.u32 x w) (Ws.string b!"DDS " w) (ddsHeader t).words) t.palette
      else List.foldl (fun w x => Ws.u32 x w) (Ws.string b!"DDS " w) (ddsHeader t).words) Ws.empty) >>= fun w => pure w.data) := rfl
  rw [e0]
  rw [e1, ddsData_ok t hn _ (by simp [Ws.write, Ws.empty, splice])]
  show Except.ok _ = _
  refine congrArg Except.ok ?_
  have h3 := h2
  dsimp only at h3 e1
  rw [e1] at h3
  rw [h3]
  simp [Ws.write, Ws.empty, splice]

theorem cut_flatten (ls : List Bytes) : Dds.cut (ls.map List.length) ls.flatten = some ls := by
  induction ls with
  | nil => rfl
  | cons l ls ih =>
    simp only [List.map_cons, List.flatten_cons, Dds.cut, List.length_append]
    rw [if_neg (by omega), List.drop_left, List.take_left, ih]
    rfl

/-- The kind of image that a format becomes. -/
def ddsPixels (f : Format) : Option Dds.Pixels :=
  Dds.pixels (ddsFormat f).flags.toNat (ddsFormat f).fourCC.toNat (ddsFormat f).bits.toNat (ddsFormat f).r.toNat
    (ddsFormat f).g.toNat (ddsFormat f).b.toNat (ddsFormat f).a.toNat

theorem format_cases (f : Format) (lay : Layout) (h : layouts[f.toNat]? = some lay) : ∃ i : Fin 15, f = BitVec.ofNat 32 i.val := by
  have hlt : f.toNat < 15 := by
    have := (List.getElem?_eq_some_iff.mp h).1
    simpa [layouts] using this
  exact ⟨⟨f.toNat, hlt⟩, by simp⟩

theorem ddsPixels_layout (f : Format) (lay : Layout) (h : layouts[f.toNat]? = some lay) (hf : f ≠ p8) :
    ∃ px, ddsPixels f = some px ∧ px.layout = lay ∧ px ≠ .indexed := by
  obtain ⟨i, rfl⟩ := format_cases f lay h
  have all : ∀ i : Fin 15, i.val ≠ 9 →
      (ddsPixels (BitVec.ofNat 32 i.val)).map Dds.Pixels.layout = layouts[(BitVec.ofNat 32 i.val).toNat]? ∧
      ddsPixels (BitVec.ofNat 32 i.val) ≠ some .indexed := by decide +kernel
  obtain ⟨this, hne⟩ := all i (by intro e; apply hf; rw [e]; rfl)
  rw [h] at this
  cases hp : ddsPixels (BitVec.ofNat 32 i.val) with
  | none => rw [hp] at this; cases this
  | some px => rw [hp] at this; exact ⟨px, rfl, by simpa using this, fun e => hne (by rw [hp, e])⟩

/-- The flags of a header, and what they say. -/
theorem header_flags (t : Texture) (lay : Layout) (hl : layouts[t.format.toNat]? = some lay) :
    Dds.has (ddsHeader t).flags.toNat 0x1007 = true ∧ Dds.has (ddsHeader t).caps1.toNat 0x1000 = true ∧
    Dds.has (ddsHeader t).flags.toNat 0x20000 = decide (1 < t.mipmaps.toNat) ∧
    (1 < t.mipmaps.toNat → Dds.has (ddsHeader t).caps1.toNat 0x400008 = true ∧ (ddsHeader t).mipMapCount = t.mipmaps) ∧
    (Dds.has (ddsHeader t).flags.toNat 0x8 = true → (∃ n, lay = .pixel n) ∧ (ddsHeader t).pitch = mipmapSize t.format t.width 1 0) ∧
    (Dds.has (ddsHeader t).flags.toNat 0x80000 = true → (ddsHeader t).pitch = mipmapSize t.format t.width t.height 0) := by
  have hd : (t.format ≠ dxt1 ∧ t.format ≠ dxt2 ∧ t.format ≠ dxt3 ∧ t.format ≠ dxt4 ∧ t.format ≠ dxt5) ↔ ∃ n, lay = .pixel n := by
    obtain ⟨i, hi⟩ := format_cases t.format lay hl
    rw [hi] at hl ⊢
    have all : ∀ i : Fin 15, ∀ lay ∈ layouts, layouts[(BitVec.ofNat 32 i.val).toNat]? = some lay →
        (((BitVec.ofNat 32 i.val : Format) ≠ dxt1 ∧ (BitVec.ofNat 32 i.val : Format) ≠ dxt2 ∧ (BitVec.ofNat 32 i.val : Format) ≠ dxt3 ∧
          (BitVec.ofNat 32 i.val : Format) ≠ dxt4 ∧ (BitVec.ofNat 32 i.val : Format) ≠ dxt5) ↔
        (match lay with | .pixel _ => true | .block _ => false) = true) := by
      decide +kernel
    rw [all i lay (List.mem_of_getElem? hl) hl]
    cases lay <;> simp
  have hm : (t.mipmaps > 1) = (1 < t.mipmaps.toNat) := by
    simp [BitVec.lt_def]
  unfold ddsHeader
  by_cases h1 : ∃ n, lay = .pixel n <;> by_cases h2 : 1 < t.mipmaps.toNat
  · simp only [if_pos (hd.mpr h1), hm, if_pos h2, decide_eq_true h2]
    exact ⟨by decide, by decide, by decide, fun _ => ⟨by decide, trivial⟩, fun _ => ⟨h1, trivial⟩, fun h => absurd h (by decide)⟩
  · simp only [if_pos (hd.mpr h1), hm, if_neg h2, decide_eq_false h2]
    exact ⟨by decide, by decide, by decide, fun h => absurd h h2, fun _ => ⟨h1, trivial⟩, fun h => absurd h (by decide)⟩
  · simp only [if_neg (fun h => h1 (hd.mp h)), hm, if_pos h2, decide_eq_true h2]
    exact ⟨by decide, by decide, by decide, fun _ => ⟨by decide, trivial⟩, fun h => absurd h (by decide), fun _ => trivial⟩
  · simp only [if_neg (fun h => h1 (hd.mp h)), hm, if_neg h2, decide_eq_false h2]
    exact ⟨by decide, by decide, by decide, fun h => absurd h h2, fun h => absurd h (by decide), fun _ => trivial⟩

/-- A DDS reader gets the levels. -/
theorem read_ok (t : Texture) (h1 : t.mipmaps ≠ 0) (hs : t.Sized) (hb : t.Whole) (lay : Layout)
    (hl : layouts[t.format.toNat]? = some lay) (hf : t.format ≠ p8) :
    ∃ px, ddsPixels t.format = some px ∧
      Dds.read (b!"DDS " ++ (ddsHeader t).words.flatMap (encW 4) ++ (paletteBytes t ++ t.textures.reverse.flatten)) =
        some ⟨t.width.toNat, t.height.toNat, px, [], t.textures.reverse⟩ := by
  obtain ⟨px, hpx, hpl, hpi⟩ := ddsPixels_layout t.format lay hl hf
  refine ⟨px, hpx, ?_⟩
  obtain ⟨f1, f2, f3, f4, f5, f6⟩ := header_flags t lay hl
  have hm0 : 1 ≤ t.mipmaps.toNat := by
    have : t.mipmaps.toNat ≠ 0 := fun e => h1 (BitVec.eq_of_toNat_eq (by simpa using e))
    omega
  have hpal : paletteBytes t = [] := if_neg hf
  rw [hpal, List.nil_append]
  generalize hrest : t.textures.reverse.flatten = rest
  generalize hfile : b!"DDS " ++ (ddsHeader t).words.flatMap (encW 4) ++ rest = file
  have wd : ∀ i x, (ddsHeader t).words[i]? = some x → Dds.word file i = x.toNat := fun i x h => by
    rw [← hfile]; exact word_at b!"DDS " rest rfl _ i x h
  have hlen : (b!"DDS " ++ (ddsHeader t).words.flatMap (encW 4)).length = 128 := by
    rw [List.length_append, flatMap_word_length]; rfl
  have hlong : ¬ file.length < 128 := by rw [← hfile, List.length_append, hlen]; omega
  have htake : file.take 4 = b!"DDS " := by rw [← hfile, List.append_assoc]; rfl
  have hdrop : file.drop 128 = rest := by rw [← hfile, ← hlen, List.drop_left]
  -- the bytes of the levels
  have lv : ∀ l, l < t.mipmaps.toNat → ∃ m, t.textures.reverse[l]? = some m ∧
      m.length = px.layout.bytes (levelSide t.width.toNat l) (levelSide t.height.toNat l) ∧
      m.length = (mipmapSize t.format t.width t.height l).toNat := by
    intro l hlt
    obtain ⟨m, g1, _⟩ := data_level t hs.1 l hlt
    refine ⟨m, g1, ?_⟩
    have g2 : t.textures[t.mipmaps.toNat - 1 - l]? = some m := by
      rw [List.getElem?_reverse (by rw [hs.1]; exact hlt), hs.1] at g1
      exact g1
    have lb := hs.2 _ m g2
    rw [show t.mipmaps.toNat - 1 - (t.mipmaps.toNat - 1 - l) = l by omega] at lb
    refine ⟨?_, lb.size (hb l hlt)⟩
    obtain ⟨lay', e1, e2, _⟩ := lb
    rw [hl] at e1
    rw [e2, hpl, Option.some.inj e1]
  have sizes : (List.range t.mipmaps.toNat).map (fun l => px.layout.bytes (levelSide t.width.toNat l) (levelSide t.height.toNat l)) =
      t.textures.reverse.map List.length := by
    apply List.ext_getElem?
    intro l
    by_cases hlt : l < t.mipmaps.toNat
    · obtain ⟨m, g1, g2, _⟩ := lv l hlt
      rw [List.getElem?_map, List.getElem?_map, g1, List.getElem?_range hlt]
      simp only [Option.map_some, g2]
    · rw [List.getElem?_eq_none (by simp; omega), List.getElem?_eq_none (by simp [hs.1]; omega)]
  have count : (if Dds.has (Dds.word file 1) 0x20000 then Dds.word file 6 else 1) = t.mipmaps.toNat := by
    rw [wd 1 _ rfl, wd 6 _ rfl, f3]
    by_cases h : 1 < t.mipmaps.toNat
    · rw [if_pos (by simpa using h), (f4 h).2]
    · rw [if_neg (by simpa using h)]; omega
  unfold Dds.read
  rw [if_neg (by
    rw [wd 0 _ rfl, wd 18 _ rfl, htake]
    simp only [not_or, ne_eq, not_not]
    exact ⟨hlong, trivial, rfl, rfl⟩)]
  rw [if_neg (by rw [wd 1 _ rfl, wd 26 _ rfl, f1, f2]; decide)]
  rw [count]
  rw [wd 19 _ rfl, wd 20 _ rfl, wd 21 _ rfl, wd 22 _ rfl, wd 23 _ rfl, wd 24 _ rfl, wd 25 _ rfl]
  have hpx' : Dds.pixels (ddsHeader t).format.flags.toNat (ddsHeader t).format.fourCC.toNat (ddsHeader t).format.bits.toNat
    (ddsHeader t).format.r.toNat (ddsHeader t).format.g.toNat (ddsHeader t).format.b.toNat (ddsHeader t).format.a.toNat = some px := hpx
  rw [hpx']
  dsimp only
  rw [wd 2 _ rfl, wd 3 _ rfl, wd 1 _ rfl, wd 4 _ rfl, wd 26 _ rfl, hdrop]
  have hw : (ddsHeader t).width = t.width := rfl
  have hh : (ddsHeader t).height = t.height := rfl
  rw [hw, hh]
  obtain ⟨m0, _, z1, z2⟩ := lv 0 (by omega)
  rw [if_neg (by
    rintro ⟨a, b⟩
    obtain ⟨⟨n, hn⟩, e⟩ := f5 a
    apply b
    rw [e, hpl]
    have hlt : lay.bytes (levelSide t.width.toNat 0) (levelSide (1 : BitVec 32).toNat 0) < 2 ^ 32 := by
      have : m0.length < 2 ^ 32 := by rw [z2]; exact BitVec.isLt _
      rw [z1, hpl, hn] at this
      rw [hn]
      simp only [Layout.bytes] at this ⊢
      have hp : 1 ≤ levelSide t.height.toNat 0 := by unfold levelSide; omega
      refine Nat.lt_of_le_of_lt (Nat.mul_le_mul_right _ (Nat.mul_le_mul_left _ ?_)) this
      exact hp
    exact mipmapSize_bytes t.format lay hl t.width 1 0 (by rw [hn]; trivial) hlt)]
  rw [if_neg (by
    rintro ⟨a, b⟩
    apply b
    rw [f6 a, ← z1, z2])]
  rw [if_neg (by
    rintro ⟨a, b⟩
    rw [(f4 a).1] at b
    cases b)]
  rw [if_neg hpi, if_neg hpi, sizes, ← hrest, cut_flatten]
  rfl

/-! ## Colours -/

theorem rgba_flatMap {α} (n r g b a : Nat) (hn : 0 < n) (ps : List α) (enc : α → Bytes) (he : ∀ p, (enc p).length = n) :
    (Dds.Pixels.rgb n r g b a).rgba (ps.flatMap enc) = ps.flatMap fun p => (Dds.Pixels.rgb n r g b a).pixel (leNat (enc p)) := by
  have hlen : (ps.flatMap enc).length / n = ps.length := by
    rw [flatMap_length4 ps enc n (fun p _ => he p), Nat.mul_div_cancel_left _ hn]
  show (List.range ((ps.flatMap enc).length / n)).flatMap _ = _
  rw [hlen, List.flatMap_def, List.flatMap_def]
  refine congrArg List.flatten ?_
  apply List.ext_getElem?
  intro i
  by_cases hi : i < ps.length
  · rw [List.getElem?_map, List.getElem?_map, List.getElem?_range hi, List.getElem?_eq_getElem hi]
    simp only [Option.map_some]
    refine congrArg some (congrArg _ (congrArg leNat ?_))
    have hs : ps = ps.take i ++ ps[i] :: ps.drop (i + 1) := by rw [List.getElem_cons_drop hi, List.take_append_drop]
    have e : (ps.take i ++ ps[i] :: ps.drop (i + 1)).flatMap enc =
        (ps.take i).flatMap enc ++ (enc ps[i] ++ (ps.drop (i + 1)).flatMap enc) := by
      rw [List.flatMap_append, List.flatMap_cons]
    have hl : ((ps.take i).flatMap enc).length = n * i := by
      rw [flatMap_length4 _ enc n (fun p _ => he p), List.length_take, Nat.min_eq_left (by omega)]
    have e2 : (ps.flatMap enc).drop (n * i) = enc ps[i] ++ (ps.drop (i + 1)).flatMap enc := by
      rw [← hl, show ps.flatMap enc = _ from (congrArg (List.flatMap enc) hs).trans e, List.drop_left]
    rw [← List.flatMap_def, e2, List.take_left' (he _)]
  · rw [List.getElem?_eq_none (by simp; omega), List.getElem?_eq_none (by simp; omega)]

/-- A channel of `k` bits at bit `s`. -/
theorem channel_bits (v mask absent s k : Nat) (hm : mask ≠ 0) (hs : Dds.shift mask = s) (hk : mask >>> s = 2 ^ k - 1) :
    Dds.channel v mask absent = UInt8.ofNat (255 * (v / 2 ^ s % 2 ^ k) / (2 ^ k - 1)) := by
  unfold Dds.channel
  rw [if_neg hm, hs, Nat.shiftRight_and_distrib, hk, Nat.and_two_pow_sub_one_eq_mod, Nat.shiftRight_eq_div_pow]

theorem px4444 (p : Px4) : (Dds.Pixels.rgb 2 0xF00 0xF0 0xF 0xF000).pixel (leNat p.bytes) = p.rgba := by
  obtain ⟨⟨a, ha⟩, ⟨r, hr⟩, ⟨g, hg⟩, ⟨b, hb⟩⟩ := p
  unfold Px4.bytes
  rw [leNat_leBytes]
  simp only [Dds.Pixels.pixel, Px4.rgba, List.map_cons, List.map_nil]
  rw [channel_bits _ 0xF00 _ 8 4 (by decide) (by decide) (by decide), channel_bits _ 0xF0 _ 4 4 (by decide) (by decide) (by decide),
    channel_bits _ 0xF _ 0 4 (by decide) (by decide) (by decide), channel_bits _ 0xF000 _ 12 4 (by decide) (by decide) (by decide)]
  norm_num
  refine ⟨?_, ?_, ?_, ?_⟩ <;> (congr 2; congr 1; omega)

theorem px1555 (p : Px1555) : (Dds.Pixels.rgb 2 0x7C00 0x3E0 0x1F 0x8000).pixel (leNat p.bytes) = p.rgba := by
  obtain ⟨⟨a, ha⟩, ⟨r, hr⟩, ⟨g, hg⟩, ⟨b, hb⟩⟩ := p
  unfold Px1555.bytes
  rw [leNat_leBytes]
  simp only [Dds.Pixels.pixel, Px1555.rgba]
  rw [channel_bits _ 0x7C00 _ 10 5 (by decide) (by decide) (by decide), channel_bits _ 0x3E0 _ 5 5 (by decide) (by decide) (by decide),
    channel_bits _ 0x1F _ 0 5 (by decide) (by decide) (by decide), channel_bits _ 0x8000 _ 15 1 (by decide) (by decide) (by decide)]
  generalize hv : (a * 32768 + r * 1024 + g * 32 + b) % 256 ^ 2 = v
  have e1 : v / 2 ^ 10 % 2 ^ 5 = r := by omega
  have e2 : v / 2 ^ 5 % 2 ^ 5 = g := by omega
  have e3 : v / 2 ^ 0 % 2 ^ 5 = b := by omega
  have e4 : v / 2 ^ 15 % 2 ^ 1 = a := by omega
  rw [e1, e2, e3, e4, show (2 ^ 1 - 1 : Nat) = 1 from rfl, Nat.div_one]
  rfl

theorem px565 (p : Px565) : (Dds.Pixels.rgb 2 0xF800 0x7E0 0x1F 0).pixel (leNat p.bytes) = p.rgba := by
  obtain ⟨⟨r, hr⟩, ⟨g, hg⟩, ⟨b, hb⟩⟩ := p
  unfold Px565.bytes
  rw [leNat_leBytes]
  simp only [Dds.Pixels.pixel, Px565.rgba]
  rw [channel_bits _ 0xF800 _ 11 5 (by decide) (by decide) (by decide), channel_bits _ 0x7E0 _ 5 6 (by decide) (by decide) (by decide),
    channel_bits _ 0x1F _ 0 5 (by decide) (by decide) (by decide)]
  have h0 : ∀ v, Dds.channel v 0 255 = 255 := fun v => rfl
  rw [h0]
  norm_num
  refine ⟨?_, ?_, ?_⟩ <;> (congr 1; omega)

theorem byte_channel (v mask absent s : Nat) (c : Byte) (hm : mask ≠ 0) (hs : Dds.shift mask = s) (hk : mask >>> s = 2 ^ 8 - 1)
    (hv : v / 2 ^ s % 256 = c.toNat) : Dds.channel v mask absent = c := by
  rw [channel_bits v mask absent s 8 hm hs hk, show (2 : Nat) ^ 8 = 256 from rfl, hv, Nat.mul_div_cancel_left _ (by decide)]
  simp

/-- Pixels of whole bytes: the channels are in the opposite order. -/
theorem pxBytes (f : Format) (hf : f ∈ alphaFormats ∨ f ∈ opaqueFormats) :
    ∃ n r g b a, ddsPixels f = some (.rgb n r g b a) ∧ 0 < n ∧ (∀ p : Px, (p.bytes f).reverse.length = n) ∧
      ∀ p : Px, (Dds.Pixels.rgb n r g b a).pixel (leNat (p.bytes f).reverse) = (p.shown f).rgba := by
  have hf' : f = b8g8r8a8 ∨ f = r8g8b8a8 ∨ f = a8b8g8r8 ∨ f = a8r8g8b8 ∨ f = b8g8r8 ∨ f = r8g8b8 := by
    simpa [alphaFormats, opaqueFormats, or_assoc] using hf
  have nat4 : ∀ a b c d : Byte, leNat [a, b, c, d] = a.toNat + 256 * (b.toNat + 256 * (c.toNat + 256 * d.toNat)) := by
    intro a b c d; simp [leNat]
  have nat3 : ∀ a b c : Byte, leNat [a, b, c] = a.toNat + 256 * (b.toNat + 256 * c.toNat) := by
    intro a b c; simp [leNat]
  have lt : ∀ a : Byte, a.toNat < 256 := fun a => a.toNat_lt
  rcases hf' with rfl | rfl | rfl | rfl | rfl | rfl
  · refine ⟨4, 0xFF00, 0xFF0000, 0xFF000000, 0xFF, by decide +kernel, by decide, fun _ => rfl, ?_⟩
    rintro ⟨r, g, b, a⟩
    show [_, _, _, _] = [r, g, b, a]
    have h1 := lt r; have h2 := lt g; have h3 := lt b; have h4 := lt a
    have e : leNat (Px.bytes b8g8r8a8 ⟨r, g, b, a⟩).reverse = _ := nat4 a r g b
    rw [e, byte_channel _ 0xFF00 _ 8 r (by decide) (by decide) (by decide) (by omega),
      byte_channel _ 0xFF0000 _ 16 g (by decide) (by decide) (by decide) (by omega),
      byte_channel _ 0xFF000000 _ 24 b (by decide) (by decide) (by decide) (by omega),
      byte_channel _ 0xFF _ 0 a (by decide) (by decide) (by decide) (by omega)]
  · refine ⟨4, 0xFF000000, 0xFF0000, 0xFF00, 0xFF, by decide +kernel, by decide, fun _ => rfl, ?_⟩
    rintro ⟨r, g, b, a⟩
    show [_, _, _, _] = [r, g, b, a]
    have h1 := lt r; have h2 := lt g; have h3 := lt b; have h4 := lt a
    have e : leNat (Px.bytes r8g8b8a8 ⟨r, g, b, a⟩).reverse = _ := nat4 a b g r
    rw [e, byte_channel _ 0xFF000000 _ 24 r (by decide) (by decide) (by decide) (by omega),
      byte_channel _ 0xFF0000 _ 16 g (by decide) (by decide) (by decide) (by omega),
      byte_channel _ 0xFF00 _ 8 b (by decide) (by decide) (by decide) (by omega),
      byte_channel _ 0xFF _ 0 a (by decide) (by decide) (by decide) (by omega)]
  · refine ⟨4, 0xFF, 0xFF00, 0xFF0000, 0xFF000000, by decide +kernel, by decide, fun _ => rfl, ?_⟩
    rintro ⟨r, g, b, a⟩
    show [_, _, _, _] = [r, g, b, a]
    have h1 := lt r; have h2 := lt g; have h3 := lt b; have h4 := lt a
    have e : leNat (Px.bytes a8b8g8r8 ⟨r, g, b, a⟩).reverse = _ := nat4 r g b a
    rw [e, byte_channel _ 0xFF _ 0 r (by decide) (by decide) (by decide) (by omega),
      byte_channel _ 0xFF00 _ 8 g (by decide) (by decide) (by decide) (by omega),
      byte_channel _ 0xFF0000 _ 16 b (by decide) (by decide) (by decide) (by omega),
      byte_channel _ 0xFF000000 _ 24 a (by decide) (by decide) (by decide) (by omega)]
  · refine ⟨4, 0xFF0000, 0xFF00, 0xFF, 0xFF000000, by decide +kernel, by decide, fun _ => rfl, ?_⟩
    rintro ⟨r, g, b, a⟩
    show [_, _, _, _] = [r, g, b, a]
    have h1 := lt r; have h2 := lt g; have h3 := lt b; have h4 := lt a
    have e : leNat (Px.bytes a8r8g8b8 ⟨r, g, b, a⟩).reverse = _ := nat4 b g r a
    rw [e, byte_channel _ 0xFF0000 _ 16 r (by decide) (by decide) (by decide) (by omega),
      byte_channel _ 0xFF00 _ 8 g (by decide) (by decide) (by decide) (by omega),
      byte_channel _ 0xFF _ 0 b (by decide) (by decide) (by decide) (by omega),
      byte_channel _ 0xFF000000 _ 24 a (by decide) (by decide) (by decide) (by omega)]
  · refine ⟨3, 0xFF, 0xFF00, 0xFF0000, 0, by decide +kernel, by decide, fun _ => rfl, ?_⟩
    rintro ⟨r, g, b, a⟩
    show [_, _, _, (255 : Byte)] = [r, g, b, 255]
    have h1 := lt r; have h2 := lt g; have h3 := lt b
    have e : leNat (Px.bytes b8g8r8 ⟨r, g, b, a⟩).reverse = _ := nat3 r g b
    rw [e, byte_channel _ 0xFF _ 0 r (by decide) (by decide) (by decide) (by omega),
      byte_channel _ 0xFF00 _ 8 g (by decide) (by decide) (by decide) (by omega),
      byte_channel _ 0xFF0000 _ 16 b (by decide) (by decide) (by decide) (by omega)]
  · refine ⟨3, 0xFF0000, 0xFF00, 0xFF, 0, by decide +kernel, by decide, fun _ => rfl, ?_⟩
    rintro ⟨r, g, b, a⟩
    show [_, _, _, (255 : Byte)] = [r, g, b, 255]
    have h1 := lt r; have h2 := lt g; have h3 := lt b
    have e : leNat (Px.bytes r8g8b8 ⟨r, g, b, a⟩).reverse = _ := nat3 b g r
    rw [e, byte_channel _ 0xFF0000 _ 16 r (by decide) (by decide) (by decide) (by omega),
      byte_channel _ 0xFF00 _ 8 g (by decide) (by decide) (by decide) (by omega),
      byte_channel _ 0xFF _ 0 b (by decide) (by decide) (by decide) (by omega)]

end Verif.Tex
