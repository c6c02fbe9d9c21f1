import Verif.Lemmas.Stream
import Verif.Spec.Texture
import Mathlib.Tactic.IntervalCases

/-! # Lemmas about textures -/

namespace Verif.Tex

/-! ## Files -/

def Color.enc (c : Color) : Bytes := encW 1 c.b ++ encW 1 c.g ++ encW 1 c.r ++ encW 1 c.a

theorem Color.reads (c : Color) : Reads Color.load c.enc c := by
  have h := (Reads.u8 c.b).bind (f := fun b => do
      let g ← Rd.u8; let r ← Rd.u8; let a ← Rd.u8; return (⟨a, r, g, b⟩ : Color))
    ((Reads.u8 c.g).bind ((Reads.u8 c.r).bind ((Reads.u8 c.a).bind_pure)))
  exact h.congr (by simp [Color.enc]) rfl

theorem Color.emits (c : Color) : Emits c.save c.enc :=
  (((Emits.u8 c.b).comp (Emits.u8 c.g)).comp (Emits.u8 c.r)).comp (Emits.u8 c.a)

/-- The levels that are still to be read have the sizes that are expected. -/
def SizesFrom (f : Format) (w h : BitVec 32) (ms : List Bytes) : Prop :=
  ∀ i m, ms[i]? = some m → m.length = (mipmapSize f w h (ms.length - 1 - i)).toNat

theorem loadLevels_reads (f : Format) (w h : BitVec 32) (ms : List Bytes) (hs : SizesFrom f w h ms) (acc : List Bytes) :
    Reads (loadLevels f w h ms.length acc) ms.flatten (acc ++ ms) := by
  induction ms generalizing acc with
  | nil => simpa [loadLevels] using Reads.pure acc
  | cons m ms ih =>
    have hm : m.length = (mipmapSize f w h ms.length).toNat := by simpa using hs 0 m rfl
    have hs' : SizesFrom f w h ms := by
      intro i x hx
      have := hs (i + 1) x (by simpa using hx)
      simp only [List.length_cons] at this
      rw [this]
      congr 2
      omega
    simp only [List.length_cons, loadLevels, List.flatten_cons]
    refine Reads.bind (a := m) (by rw [← hm]; exact Reads.readPadded m) ?_
    exact (ih hs' (acc ++ [m])).congr rfl (by simp)

/-- The bytes of a file. -/
def Texture.enc (t : Texture) : Bytes :=
  b!"ZTEX" ++ (encW 4 (0 : BitVec 32) ++ (encW 4 t.format ++ (encW 4 t.width ++ (encW 4 t.height ++ (encW 4 t.mipmaps ++
    (encW 4 t.refWidth ++ (encW 4 t.refHeight ++ (encW 4 t.averageColor ++
      ((if t.format = p8 then (t.palette.map Color.enc).flatten else []) ++ t.textures.flatten)))))))))

theorem Texture.emits (t : Texture) : Emits t.save t.enc := by
  have hp : Emits (fun w => if t.format = p8 then t.palette.foldl (fun w c => c.save w) w else w)
      (if t.format = p8 then (t.palette.map Color.enc).flatten else []) := by
    split
    · exact Emits.foldl Color.save Color.enc Color.emits t.palette
    · exact Emits.id
  have hm : Emits (fun w => t.textures.foldl (fun w m => w.write m) w) t.textures.flatten :=
    (Emits.foldl Ws.write (fun m => m) Emits.write t.textures).congr (by simp)
  have := (((((((((Emits.string b!"ZTEX").comp (Emits.u32 0)).comp (Emits.u32 t.format)).comp (Emits.u32 t.width)).comp
    (Emits.u32 t.height)).comp (Emits.u32 t.mipmaps)).comp (Emits.u32 t.refWidth)).comp (Emits.u32 t.refHeight)).comp
    (Emits.u32 t.averageColor)).comp (hp.comp hm)
  exact this.congr (by simp only [Texture.enc, List.append_assoc])

theorem Texture.reads (t u : Texture) (hpal : t.format = p8 → t.palette.length = 256)
    (hn : t.textures.length = (max1 t.mipmaps).toNat) (hs : SizesFrom t.format t.width t.height t.textures) :
    Reads u.load t.enc { t with palette := if t.format = p8 then t.palette else u.palette, mipmaps := max1 t.mipmaps,
                                textures := u.textures ++ t.textures } := by
  unfold Texture.load Texture.enc
  refine Reads.bind (Reads.string b!"ZTEX") ?_
  rw [if_neg (by simp)]
  refine Reads.bind (Reads.u32 0) ?_
  rw [if_neg (by simp)]
  refine (Reads.u32 _).bind ((Reads.u32 _).bind ((Reads.u32 _).bind ((Reads.u32 _).bind ((Reads.u32 _).bind
    ((Reads.u32 _).bind ((Reads.u32 _).bind (Reads.bind (a := if t.format = p8 then t.palette else u.palette) ?_ ?_))))))) 
  · unfold loadPalette
    split
    · rename_i hf
      have := Reads.times (p := Color.load) (enc := Color.enc) t.palette (fun c _ => c.reads)
      rwa [hpal hf] at this
    · exact Reads.pure _
  · rw [← hn]
    exact (loadLevels_reads _ _ _ _ hs _).bind_pure

/-! ## Sizes -/

theorem max1_toNat (x : BitVec 32) : (max1 x).toNat = max 1 x.toNat := by
  unfold max1
  split
  · rename_i h; rw [h]; rfl
  · rename_i h
    have : x.toNat ≠ 0 := fun h0 => h (BitVec.eq_of_toNat_eq (by simpa using h0))
    omega

theorem halve_toNat (n : Nat) (x : BitVec 32) (hx : 1 ≤ x.toNat) : (halve n x).toNat = max 1 (x.toNat / 2 ^ n) := by
  induction n generalizing x with
  | zero => simp only [halve, Nat.pow_zero, Nat.div_one]; omega
  | succ n ih =>
    simp only [halve]
    split
    · rename_i h
      have h1 : 1 < x.toNat := by simpa [BitVec.lt_def] using h
      have e : (x >>> 1).toNat = x.toNat / 2 := by simp [BitVec.toNat_ushiftRight, Nat.shiftRight_eq_div_pow]
      rw [ih _ (by rw [e]; omega), e, Nat.div_div_eq_div_mul, Nat.pow_succ, Nat.mul_comm]
    · rename_i h
      have h1 : ¬ 1 < x.toNat := by simpa [BitVec.lt_def] using h
      have h2 : x.toNat = 1 := by omega
      rw [ih _ hx, h2]
      have a : 1 / 2 ^ n ≤ 1 := Nat.div_le_self _ _
      have b : 1 / 2 ^ (n + 1) ≤ 1 := Nat.div_le_self _ _
      omega

theorem halve_max1 (n : Nat) (x : BitVec 32) : halve n (max1 x) = max1 (x >>> n) := by
  apply BitVec.eq_of_toNat_eq
  rw [halve_toNat _ _ (by rw [max1_toNat]; omega), max1_toNat, max1_toNat, BitVec.toNat_ushiftRight, Nat.shiftRight_eq_div_pow]
  rcases Nat.eq_zero_or_pos x.toNat with h | h
  · rw [h]
    have : 1 / 2 ^ n ≤ 1 := Nat.div_le_self _ _
    simp only [Nat.zero_div, show max 1 0 = 1 from rfl]
    omega
  · rw [show max 1 x.toNat = x.toNat by omega]

theorem ceil_four (x : Nat) (h1 : 1 ≤ x) (h : x ≤ 4 ∨ 4 ∣ x) : max 1 (x / 4) = (x + 3) / 4 := by omega

theorem div4_toNat (x : BitVec 32) : (x / 4).toNat = x.toNat / 4 := by simp [BitVec.toNat_udiv]

theorem prod_toNat (x y : BitVec 32) (k : BitVec 32) (h : x.toNat * y.toNat * k.toNat < 2 ^ 32) (hk : 1 ≤ k.toNat) :
    (x * y * k).toNat = x.toNat * y.toNat * k.toNat := by
  have h1 : x.toNat * y.toNat < 2 ^ 32 := Nat.lt_of_le_of_lt (Nat.le_mul_of_pos_right _ hk) h
  rw [BitVec.toNat_mul, BitVec.toNat_mul, Nat.mod_eq_of_lt h1, Nat.mod_eq_of_lt h]

theorem prod_toNat' (x y : BitVec 32) (h : x.toNat * y.toNat * 1 < 2 ^ 32) :
    (x * y).toNat = x.toNat * y.toNat * 1 := by
  rw [Nat.mul_one] at h ⊢
  rw [BitVec.toNat_mul, Nat.mod_eq_of_lt h]

/-- A level of a known format takes the bytes that its layout implies. -/
theorem mipmapSize_bytes (f : Format) (lay : Layout) (hl : layouts[f.toNat]? = some lay) (w h : BitVec 32) (level : Nat)
    (hf : lay.fits (levelSide w.toNat level) (levelSide h.toNat level))
    (hb : lay.bytes (levelSide w.toNat level) (levelSide h.toNat level) < 2 ^ 32) :
    (mipmapSize f w h level).toNat = lay.bytes (levelSide w.toNat level) (levelSide h.toNat level) := by
  have side : ∀ x : BitVec 32, (halve level (max1 x)).toNat = levelSide x.toNat level := by
    intro x
    rw [halve_max1, max1_toNat, BitVec.toNat_ushiftRight, Nat.shiftRight_eq_div_pow]
    rfl
  have pos : ∀ x : Nat, 1 ≤ levelSide x level := fun x => by unfold levelSide; omega
  have hx := side w
  have hy := side h
  have px := pos w.toNat
  have py := pos h.toNat
  unfold mipmapSize
  dsimp only
  generalize halve level (max1 w) = x at *
  generalize halve level (max1 h) = y at *
  generalize levelSide w.toNat level = a at *
  generalize levelSide h.toNat level = b at *
  have blocks : ∀ k : BitVec 32, 1 ≤ k.toNat → (a ≤ 4 ∨ 4 ∣ a) ∧ (b ≤ 4 ∨ 4 ∣ b) → (a + 3) / 4 * ((b + 3) / 4) * k.toNat < 2 ^ 32 →
      (max1 (x / 4) * max1 (y / 4) * k).toNat = (a + 3) / 4 * ((b + 3) / 4) * k.toNat := by
    intro k hk hd hb
    have e1 : (max1 (x / 4)).toNat = (a + 3) / 4 := by rw [max1_toNat, div4_toNat, hx]; exact ceil_four a px hd.1
    have e2 : (max1 (y / 4)).toNat = (b + 3) / 4 := by rw [max1_toNat, div4_toNat, hy]; exact ceil_four b py hd.2
    rw [prod_toNat _ _ _ (by rw [e1, e2]; exact hb) hk, e1, e2]
  have hlt : f.toNat < 15 := by
    have := (List.getElem?_eq_some_iff.mp hl).1
    simpa [layouts] using this
  obtain ⟨n, hn⟩ : ∃ n, f.toNat = n := ⟨_, rfl⟩
  have hfn : f = BitVec.ofNat 32 n := by rw [← hn]; simp
  rw [hn] at hl hlt
  subst hfn
  subst hx hy
  have four := prod_toNat x y 4
  have three := prod_toNat x y 3
  have two := prod_toNat x y 2
  have one := prod_toNat' x y
  have eight := blocks 8
  have sixteen := blocks 16
  interval_cases n <;> cases hl <;> first
    | exact four hb (by decide)
    | exact three hb (by decide)
    | exact two hb (by decide)
    | exact one hb
    | exact eight (by decide) hf hb
    | exact sixteen (by decide) hf hb

theorem LevelBytes.size {f : Format} {w h : BitVec 32} {level n : Nat} (hb : LevelBytes f w h level n)
    (hw : LevelWhole f w h level) : n = (mipmapSize f w h level).toNat := by
  obtain ⟨lay, h1, h2, h3⟩ := hb
  rw [mipmapSize_bytes f lay h1 w h level (hw lay h1) (h2 ▸ h3)]
  exact h2

/-- The sides of levels of images whose sides are powers of two are whole blocks or less than one. -/
theorem LevelWhole.pow2 {f : Format} {w h : BitVec 32} {i j : Nat} (hw : w.toNat = 2 ^ i) (hh : h.toNat = 2 ^ j) (level : Nat) :
    LevelWhole f w h level := by
  have side : ∀ i, levelSide (2 ^ i) level ≤ 4 ∨ 4 ∣ levelSide (2 ^ i) level := by
    intro i
    unfold levelSide
    by_cases hle : level ≤ i
    · rw [Nat.pow_div hle (by decide)]
      by_cases h2 : i - level < 2
      · left
        have : 2 ^ (i - level) ≤ 2 ^ 1 := Nat.pow_le_pow_right (by decide) (by omega)
        omega
      · right
        have h4 : 4 ∣ 2 ^ (i - level) := (Nat.pow_dvd_pow 2 (show 2 ≤ i - level by omega))
        have h1 : 1 ≤ 2 ^ (i - level) := Nat.one_le_two_pow
        rwa [Nat.max_eq_right h1]
    · left
      have : 2 ^ i < 2 ^ level := Nat.pow_lt_pow_right (by decide) (by omega)
      rw [Nat.div_eq_of_lt this]
      decide
  intro lay _
  rw [hw, hh]
  cases lay with
  | pixel n => trivial
  | block n => exact ⟨side i, side j⟩

/-- The size of a level is the size of the image of that level. -/
theorem mipmapSize_level (f : Format) (w h : BitVec 32) (i : Nat) :
    mipmapSize f (w >>> i) (h >>> i) 0 = mipmapSize f w h i := by
  simp only [mipmapSize, halve_max1, BitVec.ushiftRight_zero]

/-! ## Pixels -/

theorem get_block (bp px bq : Bytes) (ss : Nat) (i : Nat) (s : Nat) (b : Byte) (hb : bp.length = ss * i) (hs : px[s]? = some b)
    (hlt : i * ss + s < 2 ^ 32) :
    get (bp ++ px ++ bq) (BitVec.ofNat 32 i * BitVec.ofNat 32 ss + BitVec.ofNat 32 s) = .ok b := by
  have e : (BitVec.ofNat 32 i * BitVec.ofNat 32 ss + BitVec.ofNat 32 s).toNat = bp.length + s := by
    have : BitVec.ofNat 32 i * BitVec.ofNat 32 ss + BitVec.ofNat 32 s = BitVec.ofNat 32 (i * ss + s) := by
      rw [BitVec.ofNat_add, BitVec.ofNat_mul]
    rw [this, BitVec.toNat_ofNat, Nat.mod_eq_of_lt hlt, hb, Nat.mul_comm]
  unfold get
  rw [e]
  have hl : s < px.length := by
    rcases Nat.lt_or_ge s px.length with h | h
    · exact h
    · rw [List.getElem?_eq_none h] at hs; cases hs
  rw [List.append_assoc, List.getElem?_append_right (by omega), Nat.add_sub_cancel_left, List.getElem?_append_left hl, hs]

theorem put_block (pre mid post : Bytes) (ds : Nat) (i d : Nat) (b : Byte) (hp : pre.length = ds * i) (hd : d < mid.length)
    (hlt : i * ds + d < 2 ^ 32) :
    put (pre ++ mid ++ post) (BitVec.ofNat 32 i * BitVec.ofNat 32 ds + BitVec.ofNat 32 d) b = .ok (pre ++ mid.set d b ++ post) := by
  have e : (BitVec.ofNat 32 i * BitVec.ofNat 32 ds + BitVec.ofNat 32 d).toNat = pre.length + d := by
    have : BitVec.ofNat 32 i * BitVec.ofNat 32 ds + BitVec.ofNat 32 d = BitVec.ofNat 32 (i * ds + d) := by
      rw [BitVec.ofNat_add, BitVec.ofNat_mul]
    rw [this, BitVec.toNat_ofNat, Nat.mod_eq_of_lt hlt, hp, Nat.mul_comm]
  unfold put
  rw [e, if_pos (by simp only [List.length_append]; omega)]
  congr 1
  rw [List.append_assoc, List.set_append_right _ _ (by omega), Nat.add_sub_cancel_left, List.set_append_left _ _ hd,
    List.append_assoc]

/-- One round: the block of the pixel is replaced. -/
def Step (bytes : Bytes) (ss ds : Nat) (body : BitVec 32 → Bytes → Except Fail Bytes) (i : Nat) (px out : Bytes) : Prop :=
  ∀ bp bq pre mid post, bytes = bp ++ px ++ bq → bp.length = ss * i → pre.length = ds * i → mid.length = ds →
    body (BitVec.ofNat 32 i) (pre ++ mid ++ post) = .ok (pre ++ out ++ post)

theorem rounds_ok {α} (bytes : Bytes) (ss ds : Nat) (body : BitVec 32 → Bytes → Except Fail Bytes) (src out : α → Bytes)
    (as : List α) (hsrc : ∀ a ∈ as, (src a).length = ss) (hout : ∀ a ∈ as, (out a).length = ds) (k : Nat)
    (hstep : ∀ a ∈ as, ∀ i, i < k + as.length → Step bytes ss ds body i (src a) (out a))
    (bp bq pre junk : Bytes) (hb : bytes = bp ++ as.flatMap src ++ bq) (hbp : bp.length = ss * k) (hpre : pre.length = ds * k)
    (hj : junk.length = ds * as.length) :
    rounds body as.length (BitVec.ofNat 32 k) (pre ++ junk) = .ok (pre ++ as.flatMap out) := by
  induction as generalizing k bp pre junk with
  | nil =>
    have : junk = [] := List.length_eq_zero_iff.1 (by simpa using hj)
    subst this
    rfl
  | cons a as ih =>
    have hs := hstep a (by simp) k (by simp) bp (as.flatMap src ++ bq) pre (junk.take ds) (junk.drop ds)
      (by rw [hb]; simp) hbp hpre (by rw [List.length_take, hj, List.length_cons, Nat.mul_add]; omega)
    have hk : BitVec.ofNat 32 k + 1 = BitVec.ofNat 32 (k + 1) := by rw [BitVec.ofNat_add]; rfl
    have hi := ih (fun a h => hsrc a (by simp [h])) (fun a h => hout a (by simp [h])) (k + 1)
      (fun a h i hi => hstep a (by simp [h]) i (by simp only [List.length_cons]; omega)) (bp ++ src a) (pre ++ out a) (junk.drop ds)
      (by rw [hb]; simp) (by rw [List.length_append, hbp, hsrc a (by simp), Nat.mul_add, Nat.mul_one])
      (by rw [List.length_append, hpre, hout a (by simp), Nat.mul_add, Nat.mul_one])
      (by rw [List.length_drop, hj, List.length_cons, Nat.mul_add]; omega)
    rw [List.append_assoc, List.take_append_drop] at hs
    simp only [List.length_cons, rounds]
    rw [hs, hk]
    show rounds body as.length _ _ = _
    rw [hi]
    simp

theorem forU32_ok {α} (bytes : Bytes) (ss ds : Nat) (body : BitVec 32 → Bytes → Except Fail Bytes) (src out : α → Bytes)
    (as : List α) (hsrc : ∀ a ∈ as, (src a).length = ss) (hout : ∀ a ∈ as, (out a).length = ds)
    (hstep : ∀ a ∈ as, ∀ i, i < as.length → Step bytes ss ds body i (src a) (out a))
    (n : BitVec 32) (hn : n.toNat = as.length) (conv : Bytes) (hb : bytes = as.flatMap src)
    (hj : conv.length = ds * as.length) :
    forU32 n body conv = .ok (as.flatMap out) := by
  have := rounds_ok bytes ss ds body src out as hsrc hout 0 (by simpa using hstep) [] [] [] conv (by simpa using hb) (by simp)
    (by simp) hj
  simpa [forU32, hn] using this

/-- What the assignments of one round make of a block. -/
def moved (px : Bytes) : List (Nat × Nat) → Bytes → Bytes
  | [], mid => mid
  | (d, s) :: more, mid => moved px more (mid.set d (px.getD s 0))

/-- The pairs as machine words. -/
def words (ps : List (Nat × Nat)) : List (BitVec 32 × BitVec 32) := ps.map fun p => (BitVec.ofNat 32 p.1, BitVec.ofNat 32 p.2)

theorem moves_block (bp px bq pre mid post : Bytes) (ss ds : Nat) (ps : List (Nat × Nat)) (i : Nat) (hbp : bp.length = ss * i)
    (hpre : pre.length = ds * i) (hmid : mid.length = ds) (hps : ∀ p ∈ ps, p.1 < ds ∧ p.2 < px.length) (hpx : px.length = ss)
    (hs : (i + 1) * ss < 2 ^ 32) (hd : (i + 1) * ds < 2 ^ 32) :
    moves (bp ++ px ++ bq) (BitVec.ofNat 32 ds) (BitVec.ofNat 32 ss) (words ps) (BitVec.ofNat 32 i) (pre ++ mid ++ post) =
      .ok (pre ++ moved px ps mid ++ post) := by
  induction ps generalizing mid with
  | nil => rfl
  | cons p ps ih =>
    obtain ⟨d, s⟩ := p
    obtain ⟨h1, h2⟩ := hps (d, s) (by simp)
    simp only at h1 h2
    rw [Nat.add_mul, Nat.one_mul] at hs hd
    simp only [words, List.map_cons, moves]
    rw [get_block bp px bq ss i s (px.getD s 0) hbp (by rw [List.getD_eq_getElem?_getD, List.getElem?_eq_getElem h2]; rfl) (by omega)]
    show (put _ _ _ >>= fun conv => _) = _
    rw [put_block pre mid post ds i d _ hpre (by omega) (by omega)]
    exact ih (mid.set d (px.getD s 0)) (by simpa using hmid) (fun p h => hps p (by simp [h]))

end Verif.Tex

namespace Verif.Tex

theorem moves_step (bytes : Bytes) (ss ds : Nat) (ps : List (Nat × Nat)) (i : Nat) (px out : Bytes)
    (hps : ∀ p ∈ ps, p.1 < ds ∧ p.2 < ss) (hpx : px.length = ss) (hs : (i + 1) * ss < 2 ^ 32) (hd : (i + 1) * ds < 2 ^ 32)
    (hm : ∀ mid : Bytes, mid.length = ds → moved px ps mid = out) :
    Step bytes ss ds (moves bytes (BitVec.ofNat 32 ds) (BitVec.ofNat 32 ss) (words ps)) i px out := by
  intro bp bq pre mid post hb hbp hpre hmid
  rw [hb, moves_block bp px bq pre mid post ss ds ps i hbp hpre hmid (by rw [hpx]; exact hps) hpx hs hd, hm mid hmid]

theorem len4 {m : Bytes} (h : m.length = 4) : ∃ a b c d, m = [a, b, c, d] := by
  match m, h with
  | [a, b, c, d], _ => exact ⟨a, b, c, d, rfl⟩

theorem len3 {m : Bytes} (h : m.length = 3) : ∃ a b c, m = [a, b, c] := by
  match m, h with
  | [a, b, c], _ => exact ⟨a, b, c, rfl⟩

/-- As `moves_step`, followed by an assignment to the fourth byte. -/
theorem moves_alpha_step (bytes : Bytes) (ss : Nat) (ps : List (Nat × Nat)) (i : Nat) (px out : Bytes)
    (hps : ∀ p ∈ ps, p.1 < 4 ∧ p.2 < ss) (hpx : px.length = ss) (hs : (i + 1) * ss < 2 ^ 32) (hd : (i + 1) * 4 < 2 ^ 32)
    (hlen : ∀ mid : Bytes, mid.length = 4 → (moved px ps mid).length = 4)
    (hm : ∀ mid : Bytes, mid.length = 4 → (moved px ps mid).set 3 0xff = out) :
    Step bytes ss 4 (fun i c => do
      let c ← moves bytes (BitVec.ofNat 32 4) (BitVec.ofNat 32 ss) (words ps) i c
      put c (i * 4 + 3) 0xff) i px out := by
  intro bp bq pre mid post hb hbp hpre hmid
  show (moves bytes _ _ _ _ _ >>= fun c => put c _ _) = _
  rw [hb, moves_block bp px bq pre mid post ss 4 ps i hbp hpre hmid (by rw [hpx]; exact hps) hpx hs hd]
  show put _ (BitVec.ofNat 32 i * BitVec.ofNat 32 4 + BitVec.ofNat 32 3) _ = _
  rw [put_block pre _ post 4 i 3 _ hpre (by rw [hlen mid hmid]; omega) (by omega), hm mid hmid]

theorem size_toNat (w h : BitVec 32) (k n : Nat) (hn : (w * h).toNat = n) (hk : n * k < 2 ^ 32) (hk2 : k < 2 ^ 32) :
    (w * h * BitVec.ofNat 32 k).toNat = k * n := by
  rw [BitVec.toNat_mul, hn, BitVec.toNat_ofNat, Nat.mod_eq_of_lt hk2, Nat.mod_eq_of_lt hk, Nat.mul_comm]

theorem assign_ok (bytes : Bytes) (n : BitVec 32) (h : n.toNat = bytes.length) : assign bytes n = .ok bytes := by
  unfold assign
  rw [if_pos (by omega), h, List.take_length]

theorem flatMap_length4 {α} (as : List α) (f : α → Bytes) (k : Nat) (h : ∀ a ∈ as, (f a).length = k) :
    (as.flatMap f).length = k * as.length := by
  induction as with
  | nil => simp
  | cons a as ih =>
    rw [List.flatMap_cons, List.length_append, h a (by simp), ih (fun b hb => h b (by simp [hb])), List.length_cons, Nat.mul_add]
    omega

theorem toRgba_ok (sq : Squish) (f : Format) (hf : f ∈ alphaFormats ∨ f ∈ opaqueFormats) (ps : List Px) (w h : BitVec 32)
    (hn : (w * h).toNat = ps.length) (hk : ps.length * 4 < 2 ^ 32) :
    toRgba sq (ps.flatMap (Px.bytes f)) w h f = .ok (ps.flatMap fun p => (p.shown f).rgba) := by
  have hsz : (w * h * 4).toNat = 4 * ps.length := size_toNat w h 4 _ hn hk (by decide)
  have go (ss : Nat) (body : BitVec 32 → Bytes → Except Fail Bytes) (hl : ∀ p : Px, (p.bytes f).length = ss)
      (hst : ∀ p : Px, ∀ i, i < ps.length → Step (ps.flatMap (Px.bytes f)) ss 4 body i (p.bytes f) (p.shown f).rgba) :
      forU32 (w * h) body (List.replicate (w * h * 4).toNat 0) = .ok (ps.flatMap fun p => (p.shown f).rgba) :=
    forU32_ok _ ss 4 body (Px.bytes f) (fun p => (p.shown f).rgba) ps (fun p _ => hl p) (fun _ _ => rfl) (fun p _ => hst p)
      _ hn _ rfl (by rw [List.length_replicate, hsz])
  unfold toRgba
  simp only [alphaFormats, opaqueFormats, List.mem_cons, List.not_mem_nil, or_false] at hf
  rcases hf with (rfl | rfl | rfl | rfl) | (rfl | rfl)
  · refine go 4 _ (fun _ => rfl) fun p i hi => ?_
    refine moves_step _ 4 4 [(0, 2), (1, 1), (2, 0), (3, 3)] i _ _ (by decide) rfl (by omega) (by omega) ?_
    intro mid hmid
    obtain ⟨a, b, c, d, rfl⟩ := len4 hmid
    rfl
  · show assign _ _ = _
    rw [assign_ok _ _ (by rw [flatMap_length4 _ _ 4 (fun _ _ => rfl)]; exact hsz)]
    rfl
  · refine go 4 _ (fun _ => rfl) fun p i hi => ?_
    refine moves_step _ 4 4 [(0, 3), (1, 2), (2, 1), (3, 0)] i _ _ (by decide) rfl (by omega) (by omega) ?_
    intro mid hmid
    obtain ⟨a, b, c, d, rfl⟩ := len4 hmid
    rfl
  · refine go 4 _ (fun _ => rfl) fun p i hi => ?_
    refine moves_step _ 4 4 [(0, 1), (1, 2), (2, 3), (3, 0)] i _ _ (by decide) rfl (by omega) (by omega) ?_
    intro mid hmid
    obtain ⟨a, b, c, d, rfl⟩ := len4 hmid
    rfl
  · refine go 3 _ (fun _ => rfl) fun p i hi => ?_
    refine moves_alpha_step _ 3 [(0, 2), (1, 1), (2, 0)] i _ _ (by decide) rfl (by omega) (by omega) ?_ ?_ <;>
    · intro mid hmid
      obtain ⟨a, b, c, d, rfl⟩ := len4 hmid
      rfl
  · refine go 3 _ (fun _ => rfl) fun p i hi => ?_
    refine moves_alpha_step _ 3 [(0, 0), (1, 1), (2, 2)] i _ _ (by decide) rfl (by omega) (by omega) ?_ ?_ <;>
    · intro mid hmid
      obtain ⟨a, b, c, d, rfl⟩ := len4 hmid
      rfl

theorem fromRgba_ok (f : Format) (hf : f = r8g8b8a8 ∨ f = a8b8g8r8 ∨ f = b8g8r8 ∨ f = r8g8b8) (ps : List Px) (w h : BitVec 32)
    (hn : (w * h).toNat = ps.length) (hk : ps.length * 4 < 2 ^ 32) :
    fromRgba (ps.flatMap Px.rgba) w h f = .ok (ps.flatMap (Px.bytes f)) := by
  have hsz : (w * h * 4).toNat = 4 * ps.length := size_toNat w h 4 _ hn hk (by decide)
  have hsz3 : (w * h * 3).toNat = 3 * ps.length := size_toNat w h 3 _ hn (by omega) (by decide)
  have go (ds : Nat) (body : BitVec 32 → Bytes → Except Fail Bytes) (hl : ∀ p : Px, (p.bytes f).length = ds)
      (c : Bytes) (hc : c.length = ds * ps.length)
      (hst : ∀ p : Px, ∀ i, i < ps.length → Step (ps.flatMap Px.rgba) 4 ds body i p.rgba (p.bytes f)) :
      forU32 (w * h) body c = .ok (ps.flatMap (Px.bytes f)) :=
    forU32_ok _ 4 ds body Px.rgba (Px.bytes f) ps (fun _ _ => rfl) (fun p _ => hl p) (fun p _ => hst p)
      _ hn _ rfl hc
  unfold fromRgba
  rcases hf with rfl | rfl | rfl | rfl
  · show assign _ _ = _
    rw [assign_ok _ _ (by rw [flatMap_length4 _ _ 4 (fun _ _ => rfl)]; exact hsz)]
    rfl
  · refine go 4 _ (fun _ => rfl) _ (by rw [List.length_replicate]; exact hsz) fun p i hi => ?_
    refine moves_step _ 4 4 [(0, 3), (1, 2), (2, 1), (3, 0)] i _ _ (by decide) rfl (by omega) (by omega) ?_
    intro mid hmid
    obtain ⟨a, b, c, d, rfl⟩ := len4 hmid
    rfl
  · refine go 3 _ (fun _ => rfl) _ (by rw [List.length_replicate]; exact hsz3) fun p i hi => ?_
    refine moves_step _ 4 3 [(0, 2), (1, 1), (2, 0)] i _ _ (by decide) rfl (by omega) (by omega) ?_
    intro mid hmid
    obtain ⟨a, b, c, rfl⟩ := len3 hmid
    rfl
  · refine go 3 _ (fun _ => rfl) _ (by rw [List.length_replicate]; exact hsz3) fun p i hi => ?_
    refine moves_step _ 4 3 [(0, 0), (1, 1), (2, 2)] i _ _ (by decide) rfl (by omega) (by omega) ?_
    intro mid hmid
    obtain ⟨a, b, c, rfl⟩ := len3 hmid
    rfl

end Verif.Tex

namespace Verif.Tex

theorem get_at (bp px bq : Bytes) (i s : Nat) (b : Byte) (hb : bp.length = 2 * i) (hs : px[s]? = some b)
    (hlt : i * 2 + s < 2 ^ 32) : get (bp ++ px ++ bq) (BitVec.ofNat 32 i * 2 + BitVec.ofNat 32 s) = .ok b :=
  get_block bp px bq 2 i s b hb hs hlt

theorem put_at (pre mid post : Bytes) (i d : Nat) (b : Byte) (hp : pre.length = 4 * i) (hd : d < mid.length)
    (hlt : i * 4 + d < 2 ^ 32) :
    put (pre ++ mid ++ post) (BitVec.ofNat 32 i * 4 + BitVec.ofNat 32 d) b = .ok (pre ++ mid.set d b ++ post) :=
  put_block pre mid post 4 i d b hp hd hlt

theorem from4444_step (bytes : Bytes) (i : Nat) (p : Px4) (hi : (i + 1) * 4 < 2 ^ 32) :
    Step bytes 2 4 (from4444 bytes) i p.bytes p.rgba := by
  intro bp bq pre mid post hb hbp hpre hmid
  obtain ⟨m0, m1, m2, m3, rfl⟩ := len4 hmid
  have h0 : p.bytes = [UInt8.ofNat (p.g.val * 16 + p.b.val), UInt8.ofNat (p.a.val * 16 + p.r.val)] := by
    obtain ⟨a, r, g, b⟩ := p
    simp only [Px4.bytes, leBytes]
    have e1 : (a.val * 4096 + r.val * 256 + g.val * 16 + b.val) % 256 = g.val * 16 + b.val := by omega
    have e2 : (a.val * 4096 + r.val * 256 + g.val * 16 + b.val) / 256 % 256 = a.val * 16 + r.val := by omega
    rw [e1, e2]
  have n : ∀ x y : Fin 16, (UInt8.ofNat (x.val * 16 + y.val) &&& 0x0F) * 17 = UInt8.ofNat (255 * y.val / 15) ∧
      (UInt8.ofNat (x.val * 16 + y.val) >>> 4 &&& 0x0F) * 17 = UInt8.ofNat (255 * x.val / 15) := by decide +kernel
  unfold from4444
  rw [hb, h0]
  rw [show BitVec.ofNat 32 i * 2 + 0 = BitVec.ofNat 32 i * 2 + BitVec.ofNat 32 0 from rfl,
    get_at bp _ bq i 0 _ hbp rfl (by omega)]
  show (get _ (BitVec.ofNat 32 i * 2 + BitVec.ofNat 32 1) >>= fun hi => _) = _
  rw [get_at bp _ bq i 1 _ hbp rfl (by omega)]
  show (put _ (BitVec.ofNat 32 i * 4 + BitVec.ofNat 32 2) _ >>= fun c => _) = _
  rw [put_at pre _ post i 2 _ hpre (by simp) (by omega)]
  show (put _ (BitVec.ofNat 32 i * 4 + BitVec.ofNat 32 1) _ >>= fun c => _) = _
  rw [put_at pre _ post i 1 _ hpre (by simp) (by omega)]
  show (put _ (BitVec.ofNat 32 i * 4 + BitVec.ofNat 32 0) _ >>= fun c => _) = _
  rw [put_at pre _ post i 0 _ hpre (by simp) (by omega)]
  show put _ (BitVec.ofNat 32 i * 4 + BitVec.ofNat 32 3) _ = _
  rw [put_at pre _ post i 3 _ hpre (by simp) (by omega)]
  simp only [List.set, (n p.g p.b).1, (n p.g p.b).2, (n p.a p.r).1, (n p.a p.r).2]
  rfl

theorem from565_step (bytes : Bytes) (i : Nat) (p : Px565) (hg : p.g ≠ 63) (hi : (i + 1) * 4 < 2 ^ 32) :
    Step bytes 2 4 (from565 bytes) i p.bytes p.rgba := by
  intro bp bq pre mid post hb hbp hpre hmid
  obtain ⟨m0, m1, m2, m3, rfl⟩ := len4 hmid
  have h0 : p.bytes = [UInt8.ofNat ((p.r.val * 2048 + p.g.val * 32 + p.b.val) % 256),
      UInt8.ofNat ((p.r.val * 2048 + p.g.val * 32 + p.b.val) / 256 % 256)] := rfl
  have hx : (UInt8.ofNat ((p.r.val * 2048 + p.g.val * 32 + p.b.val) % 256)).toNat +
      256 * (UInt8.ofNat ((p.r.val * 2048 + p.g.val * 32 + p.b.val) / 256 % 256)).toNat =
      p.r.val * 2048 + p.g.val * 32 + p.b.val := by
    simp only [UInt8.toNat_ofNat']
    omega
  have n5 : ∀ x : Fin 32, scale5 x.val = UInt8.ofNat (255 * x.val / 31) := by decide +kernel
  have n6 : ∀ x : Fin 64, x ≠ 63 → scale6 x.val = UInt8.ofNat (255 * x.val / 63) := by decide +kernel
  have d1 : (p.r.val * 2048 + p.g.val * 32 + p.b.val) / 2048 = p.r.val := by omega
  have d2 : (p.r.val * 2048 + p.g.val * 32 + p.b.val) / 32 % 64 = p.g.val := by omega
  have d3 : (p.r.val * 2048 + p.g.val * 32 + p.b.val) % 32 = p.b.val := by omega
  unfold from565
  rw [hb, h0]
  rw [show BitVec.ofNat 32 i * 2 = BitVec.ofNat 32 i * 2 + BitVec.ofNat 32 0 by simp,
    get_at bp _ bq i 0 _ hbp rfl (by omega)]
  rw [show BitVec.ofNat 32 i * 2 + BitVec.ofNat 32 0 + 1 = BitVec.ofNat 32 i * 2 + BitVec.ofNat 32 1 by simp]
  show (get _ (BitVec.ofNat 32 i * 2 + BitVec.ofNat 32 1) >>= fun hi => _) = _
  rw [get_at bp _ bq i 1 _ hbp rfl (by omega)]
  dsimp only [Bind.bind, Except.bind]
  rw [hx, d1, d2, d3]
  show (put _ (BitVec.ofNat 32 i * 4 + BitVec.ofNat 32 0) _ >>= fun c => _) = _
  rw [put_at pre _ post i 0 _ hpre (by simp) (by omega)]
  show (put _ (BitVec.ofNat 32 i * 4 + BitVec.ofNat 32 1) _ >>= fun c => _) = _
  rw [put_at pre _ post i 1 _ hpre (by simp) (by omega)]
  show (put _ (BitVec.ofNat 32 i * 4 + BitVec.ofNat 32 2) _ >>= fun c => _) = _
  rw [put_at pre _ post i 2 _ hpre (by simp) (by omega)]
  show put _ (BitVec.ofNat 32 i * 4 + BitVec.ofNat 32 3) _ = _
  rw [put_at pre _ post i 3 _ hpre (by simp) (by omega)]
  simp only [List.set, n5, n6 p.g hg]
  rfl

theorem toRgba_4444 (sq : Squish) (ps : List Px4) (w h : BitVec 32) (hn : (w * h).toNat = ps.length)
    (hk : ps.length * 4 < 2 ^ 32) : toRgba sq (ps.flatMap Px4.bytes) w h a4r4g4b4 = .ok (ps.flatMap Px4.rgba) := by
  have hsz : (w * h * 4).toNat = 4 * ps.length := size_toNat w h 4 _ hn hk (by decide)
  exact forU32_ok _ 2 4 _ Px4.bytes Px4.rgba ps (fun _ _ => rfl) (fun _ _ => rfl)
    (fun p _ i hi => from4444_step _ i p (by omega)) _ hn _ rfl (by rw [List.length_replicate, hsz])

theorem toRgba_565 (sq : Squish) (ps : List Px565) (hg : ∀ p ∈ ps, p.g ≠ 63) (w h : BitVec 32) (hn : (w * h).toNat = ps.length)
    (hk : ps.length * 4 < 2 ^ 32) : toRgba sq (ps.flatMap Px565.bytes) w h r5g6b5 = .ok (ps.flatMap Px565.rgba) := by
  have hsz : (w * h * 4).toNat = 4 * ps.length := size_toNat w h 4 _ hn hk (by decide)
  exact forU32_ok _ 2 4 _ Px565.bytes Px565.rgba ps (fun _ _ => rfl) (fun _ _ => rfl)
    (fun p hp i hi => from565_step _ i p (hg p hp) (by omega)) _ hn _ rfl (by rw [List.length_replicate, hsz])

theorem unscale_ok {n : Nat} {b : Byte} (h : b.toNat * 8 / n < 256) : unscale n b = .ok (UInt8.ofNat (b.toNat * 8 / n)) := if_pos h

theorem to565_step (bytes : Bytes) (i : Nat) (p : Px) (hr : p.r < 160) (hg : p.g < 192) (hb : p.b < 160) (hi : (i + 1) * 4 < 2 ^ 32) :
    Step bytes 4 2 (to565 bytes) i p.rgba p.stored565.bytes := by
  intro bp bq pre mid post hbs hbp hpre hmid
  obtain ⟨m0, m1, rfl⟩ : ∃ a b, mid = [a, b] := by
    match mid, hmid with
    | [a, b], _ => exact ⟨a, b, rfl⟩
  have hr' : p.r.toNat < 160 := UInt8.lt_iff_toNat_lt.1 hr
  have hg' : p.g.toNat < 192 := UInt8.lt_iff_toNat_lt.1 hg
  have hb' : p.b.toNat < 160 := UInt8.lt_iff_toNat_lt.1 hb
  unfold to565
  have g0 : get bytes (BitVec.ofNat 32 i * 4 + 0) = .ok p.r := by rw [hbs]; exact get_block bp p.rgba bq 4 i 0 p.r hbp rfl (by omega)
  have g1 : get bytes (BitVec.ofNat 32 i * 4 + 1) = .ok p.g := by rw [hbs]; exact get_block bp p.rgba bq 4 i 1 p.g hbp rfl (by omega)
  have g2 : get bytes (BitVec.ofNat 32 i * 4 + 2) = .ok p.b := by rw [hbs]; exact get_block bp p.rgba bq 4 i 2 p.b hbp rfl (by omega)
  have p0 : ∀ x, put (pre ++ [m0, m1] ++ post) (BitVec.ofNat 32 i * 2) x = .ok (pre ++ [x, m1] ++ post) := fun x => by
    have := put_block pre [m0, m1] post 2 i 0 x hpre (by simp) (by omega)
    simpa using this
  have p1 : ∀ x y, put (pre ++ [x, m1] ++ post) (BitVec.ofNat 32 i * 2 + 1) y = .ok (pre ++ [x, y] ++ post) := fun x y =>
    put_block pre [x, m1] post 2 i 1 y hpre (by simp) (by omega)
  rw [g0, g1, g2]
  simp only [Bind.bind, Except.bind, unscale_ok (n := 5) (b := p.r) (by omega), unscale_ok (n := 6) (b := p.g) (by omega),
    unscale_ok (n := 5) (b := p.b) (by omega), p0, p1]
  have e : ∀ x, UInt8.ofNat (x % 256) = UInt8.ofNat x := fun x => by
    apply UInt8.toNat_inj.1
    simp only [UInt8.toNat_ofNat']
    omega
  simp only [Px565.bytes, Px.stored565, leBytes, UInt8.toNat_ofNat', e]
  rw [show p.r.toNat * 8 / 5 % 2 ^ 8 % 32 + 32 * (p.g.toNat * 8 / 6 % 2 ^ 8 % 64) + 2048 * (p.b.toNat * 8 / 5 % 2 ^ 8 % 32) =
    p.b.toNat * 8 / 5 % 32 * 2048 + p.g.toNat * 8 / 6 % 64 * 32 + p.r.toNat * 8 / 5 % 32 by
      rw [Nat.mod_mod_of_dvd _ (show 32 ∣ 2 ^ 8 by decide), Nat.mod_mod_of_dvd _ (show 64 ∣ 2 ^ 8 by decide),
        Nat.mod_mod_of_dvd _ (show 32 ∣ 2 ^ 8 by decide)]
      omega]

theorem fromRgba_565 (ps : List Px) (hd : ∀ p ∈ ps, p.r < 160 ∧ p.g < 192 ∧ p.b < 160) (w h : BitVec 32) (hn : (w * h).toNat = ps.length)
    (hk : ps.length * 4 < 2 ^ 32) : fromRgba (ps.flatMap Px.rgba) w h r5g6b5 = .ok (ps.flatMap fun p => p.stored565.bytes) := by
  have hsz : (w * h * 2).toNat = 2 * ps.length := size_toNat w h 2 _ hn (by omega) (by decide)
  exact forU32_ok _ 4 2 _ Px.rgba (fun p => p.stored565.bytes) ps (fun _ _ => rfl) (fun _ _ => rfl)
    (fun p hp i hi => to565_step _ i p (hd p hp).1 (hd p hp).2.1 (hd p hp).2.2 (by omega)) _ hn _ rfl (by rw [List.length_replicate, hsz])

end Verif.Tex
