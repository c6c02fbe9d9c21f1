import Verif.Lemmas.Line
import Verif.Model.Font
import Verif.Model.Texture
import Verif.Model.Boxes

/-! # Lemmas: readers that cannot tell the end of a file from zero bytes -/

namespace Verif

/-- What is left of the stream, with zeroes behind the end. -/
def Rs.ahead (s : Rs) (i : Nat) : Byte := s.data.getD (s.pos + i) 0

/-- The position is not behind the end. -/
def Rs.Inside (s : Rs) : Prop := s.pos ≤ s.data.length

/-- Same outcome; the same is left of both streams. -/
def Alike {α} (x y : Except Fail (α × Rs)) : Prop :=
  match x, y with
  | .ok (a, s), .ok (b, t) => a = b ∧ s.ahead = t.ahead ∧ s.Inside ∧ t.Inside
  | .error e, .error f => e = f
  | _, _ => False

/-- The reader sees only what is ahead, with zeroes behind the end. -/
def Zf {α} (p : Rd α) : Prop := ∀ s t : Rs, s.Inside → t.Inside → s.ahead = t.ahead → Alike (p s) (p t)

theorem Alike.bind {α β} {p q : Rd α} {f g : α → Rd β} {s t : Rs} (h : Alike (p s) (q t))
    (hf : ∀ a s t, s.Inside → t.Inside → s.ahead = t.ahead → Alike (f a s) (g a t)) :
    Alike ((p >>= f) s) ((q >>= g) t) := by
  simp only [Rd.bind_def]
  revert h
  cases p s with
  | error e => cases q t with
    | error e' => intro h; exact h
    | ok y => intro h; exact h.elim
  | ok x => cases q t with
    | error e' => intro h; exact h.elim
    | ok y =>
      obtain ⟨a, s1⟩ := x
      obtain ⟨b, t1⟩ := y
      rintro ⟨rfl, h, h1, h2⟩
      exact hf a s1 t1 h1 h2 h

namespace Zf

theorem bind {α β} {p : Rd α} {f : α → Rd β} (hp : Zf p) (hf : ∀ a, Zf (f a)) : Zf (p >>= f) :=
  fun s t hs ht h => Alike.bind (hp s t hs ht h) fun a => hf a

theorem pure {α} (a : α) : Zf (Pure.pure a : Rd α) := fun _ _ hs ht h => ⟨rfl, h, hs, ht⟩

theorem fail {α} (e : Fail) : Zf (Rd.fail e : Rd α) := fun _ _ _ _ _ => rfl

theorem ite {α} {c : Prop} [Decidable c] {p q : Rd α} (hp : Zf p) (hq : Zf q) : Zf (if c then p else q) := by
  split <;> assumption

end Zf

theorem readPadded_ahead (n : Nat) (s : Rs) (h : s.Inside) :
    ∃ t : Rs, Rd.readPadded n s = .ok ((List.range n).map s.ahead, t) ∧ t.Inside ∧ t.data = s.data ∧
      t.pos = min (s.pos + n) s.data.length ∧ t.ahead = fun i => s.ahead (n + i) := by
  obtain ⟨data, pos⟩ := s
  simp only [Rs.Inside] at h
  refine ⟨⟨data, min (pos + n) data.length⟩, ?_, by simp only [Rs.Inside]; omega, rfl, rfl, ?_⟩
  · simp only [Rd.readPadded, Rd.read]
    have e : pos + (if pos + n > data.length then data.length - pos else n) = min (pos + n) data.length := by
      split <;> omega
    rw [e]
    congr 2
    apply List.ext_getElem?
    intro i
    simp only [List.getElem?_map]
    by_cases hi : i < n
    · rw [List.getElem?_range hi]
      simp only [Option.map_some]
      by_cases hd : pos + i < data.length
      · rw [List.getElem?_append_left (by simp; split <;> omega), List.getElem?_take_of_lt (by split <;> omega),
          List.getElem?_drop, Rs.ahead, List.getD_eq_getElem?_getD, List.getElem?_eq_getElem hd]
        rfl
      · rw [List.getElem?_append_right (by simp; split <;> omega), List.getElem?_replicate,
          if_pos (by simp; split <;> omega), Rs.ahead, List.getD_eq_getElem?_getD, List.getElem?_eq_none (by simp; omega)]
        rfl
    · rw [List.getElem?_eq_none (by simp; split <;> omega), List.getElem?_eq_none (by simp; omega)]
      rfl
  · funext i
    simp only [Rs.ahead, List.getD_eq_getElem?_getD]
    by_cases hd : pos + n ≤ data.length
    · rw [Nat.min_eq_left hd]; congr 2; omega
    · rw [List.getElem?_eq_none (by omega), List.getElem?_eq_none (by omega)]

namespace Zf

theorem readPadded (n : Nat) : Zf (Rd.readPadded n) := by
  intro s t hs ht h
  obtain ⟨s1, e1, i1, -, -, a1⟩ := readPadded_ahead n s hs
  obtain ⟨t1, e2, i2, -, -, a2⟩ := readPadded_ahead n t ht
  rw [e1, e2]
  exact ⟨by rw [h], by rw [a1, a2, h], i1, i2⟩

theorem word (w k : Nat) : Zf (Rd.word w k) := bind (readPadded k) fun _ => pure _
theorem char : Zf Rd.char := bind (readPadded 1) fun _ => pure _
theorem u8 : Zf Rd.u8 := word 8 1
theorem u16 : Zf Rd.u16 := word 16 2
theorem u32 : Zf Rd.u32 := word 32 4
theorem string (n : Nat) : Zf (Rd.string n) := readPadded n

theorem times {α} {p : Rd α} (hp : Zf p) : ∀ n, Zf (Rd.times p n)
  | 0 => pure _
  | n + 1 => bind hp fun _ => bind (times hp n) fun _ => pure _

end Zf

/-- One character. -/
theorem char_ahead (s : Rs) (h : s.Inside) :
    ∃ t : Rs, Rd.char s = .ok (s.ahead 0, t) ∧ t.Inside ∧ t.data = s.data ∧
      t.pos = min (s.pos + 1) s.data.length ∧ t.ahead = fun i => s.ahead (1 + i) := by
  obtain ⟨t, e, r⟩ := readPadded_ahead 1 s h
  refine ⟨t, ?_, r⟩
  simp only [Rd.char]
  rw [Rd.bind_ok e]
  rfl

theorem lineLoop_alike : ∀ (fuel fuel' : Nat) (acc : Bytes) (s t : Rs), s.Inside → t.Inside → s.ahead = t.ahead →
    s.data.length - s.pos < fuel → t.data.length - t.pos < fuel' →
    Alike (Rd.lineLoop fuel acc s) (Rd.lineLoop fuel' acc t)
  | 0, _, _, _, _, _, _, _, hf, _ => by omega
  | _ + 1, 0, _, _, _, _, _, _, _, hf => by omega
  | fuel + 1, fuel' + 1, acc, s, t, hs, ht, h, hf, hf' => by
    obtain ⟨s1, e1, i1, d1, p1, a1⟩ := char_ahead s hs
    obtain ⟨t1, e2, i2, d2, p2, a2⟩ := char_ahead t ht
    simp only [Rd.lineLoop]
    rw [Rd.bind_ok e1, Rd.bind_ok e2, h]
    by_cases he : Rd.isEol (t.ahead 0) = true
    · rw [if_pos he, if_pos he]
      exact ⟨rfl, by rw [a1, a2, h], i1, i2⟩
    · rw [if_neg he, if_neg he]
      have hn : t.ahead 0 ≠ 0 := by intro hc; rw [hc] at he; exact he rfl
      have lt : ∀ u : Rs, u.ahead 0 ≠ 0 → u.pos < u.data.length := by
        intro u hu
        by_contra hc
        apply hu
        simp only [Rs.ahead, List.getD_eq_getElem?_getD]
        rw [List.getElem?_eq_none (by omega)]
        rfl
      have l2 := lt t hn
      have l1 := lt s (by rw [h]; exact hn)
      refine lineLoop_alike fuel fuel' _ s1 t1 i1 i2 (by rw [a1, a2, h]) ?_ ?_
      · rw [d1, p1]; omega
      · rw [d2, p2]; omega

/-- The position behind the blanks, in terms of what is ahead. -/
def Blanks (chars : Bytes) (v : Nat → Byte) (n : Nat) : Prop :=
  (∀ i < n, v i ≠ 0 ∧ v i ∈ chars) ∧ ¬(v n ≠ 0 ∧ v n ∈ chars)

theorem Blanks.unique {chars : Bytes} {v : Nat → Byte} {n m : Nat} (hn : Blanks chars v n) (hm : Blanks chars v m) :
    n = m := by
  rcases Nat.lt_trichotomy n m with h | h | h
  · exact absurd (hm.1 n h) hn.2
  · exact h
  · exact absurd (hn.1 m h) hm.2

/-- The second half of `read_line_then_ignore`. -/
def ignoreTail (chars : Bytes) (fuel : Nat) (str : Bytes) : Rd Bytes := do
  let c ← Rd.ignoreLoop chars fuel
  let e ← Rd.eof
  if e && c == 0 then return str
  Rd.seek (-1) .cur
  return str

theorem ahead_of_drop (s : Rs) (bs : Bytes) (h : s.data.drop s.pos = bs) (i : Nat) : s.ahead i = bs.getD i 0 := by
  subst h
  simp [Rs.ahead, List.getD_eq_getElem?_getD, List.getElem?_drop]

theorem ignored_blanks (chars bs : Bytes) : Blanks chars (fun i => bs.getD i 0) (ignoredOf chars bs).length := by
  induction bs with
  | nil => simp [Blanks, ignoredOf]
  | cons b bs ih =>
    by_cases hb : (b != 0 && chars.contains b) = true
    · have e : ignoredOf chars (b :: bs) = b :: ignoredOf chars bs := by
        unfold ignoredOf
        rw [List.takeWhile_cons_of_pos (p := fun c => c != 0 && chars.contains c) hb]
      rw [e, List.length_cons]
      refine ⟨?_, ?_⟩
      · intro i hi
        cases i with
        | zero => simpa using hb
        | succ i => simpa using ih.1 i (by omega)
      · simpa using ih.2
    · have e : ignoredOf chars (b :: bs) = [] := by
        unfold ignoredOf
        rw [List.takeWhile_cons_of_neg (p := fun c => c != 0 && chars.contains c) hb]
      rw [e]
      exact ⟨by simp, by simpa using hb⟩

theorem ignoreTail_ahead (chars : Bytes) (fuel : Nat) (str : Bytes) (s : Rs) (hs : s.Inside)
    (hf : s.data.length - s.pos < fuel) :
    ∃ (t : Rs) (n : Nat), ignoreTail chars fuel str s = .ok (str, t) ∧ t.Inside ∧ Blanks chars s.ahead n ∧
      t.ahead = fun i => s.ahead (n + i) := by
  obtain ⟨data, pos⟩ := s
  simp only [Rs.Inside] at hs
  have hb := ignored_blanks chars (data.drop pos)
  have hv : (Rs.mk data pos).ahead = fun i => (data.drop pos).getD i 0 := by
    funext i; exact ahead_of_drop _ _ rfl i
  rw [← hv] at hb
  have hle : (ignoredOf chars (data.drop pos)).length ≤ data.length - pos := by
    have := (List.takeWhile_prefix (l := data.drop pos) fun c => c != 0 && chars.contains c).length_le
    simpa [ignoredOf] using this
  simp only [ignoreTail]
  rw [Rd.bind_ok (ignoreLoop_eq chars data fuel pos hs hf), Rd.bind_def]
  simp only [Rd.eof]
  generalize (ignoredOf chars (data.drop pos)).length = n at *
  have hc : (data.drop (pos + n)).headD 0 = (Rs.mk data pos).ahead n := by
    simp [Rs.ahead, List.headD_eq_head?_getD, List.head?_drop, List.getD_eq_getElem?_getD]
  rw [hc]
  by_cases hlt : pos + n < data.length
  · rw [if_pos hlt]
    by_cases hz : pos + n + 1 ≥ data.length ∧ (Rs.mk data pos).ahead n = 0
    · rw [if_pos (by simpa using hz)]
      refine ⟨⟨data, pos + n + 1⟩, n, rfl, hlt, hb, ?_⟩
      funext i
      have l : (Rs.mk data (pos + n + 1)).ahead i = 0 := by
        simp only [Rs.ahead, List.getD_eq_getElem?_getD]
        rw [List.getElem?_eq_none (by omega)]; rfl
      rw [l]
      cases i with
      | zero => exact hz.2.symm
      | succ i =>
        simp only [Rs.ahead, List.getD_eq_getElem?_getD]
        rw [List.getElem?_eq_none (by omega)]; rfl
    · rw [if_neg (by simpa using hz)]
      refine ⟨⟨data, pos + n⟩, n, ?_, by simp only [Rs.Inside]; omega, hb, ?_⟩
      · have e : ((pos + n + 1 : Nat) : Int) + -1 = ((pos + n : Nat) : Int) := by omega
        have hk : Rd.seek (-1) .cur ⟨data, pos + n + 1⟩ = .ok ((), ⟨data, pos + n⟩) := by
          simp only [Rd.seek]
          rw [if_neg (by simp only [Rd.seekTarget]; omega)]
          simp only [Rd.seekTarget, e, Int.toNat_natCast]
        exact Rd.bind_ok hk
      · funext i
        simp only [Rs.ahead, Nat.add_assoc]
  · rw [if_neg hlt]
    have he : pos + n = data.length := by omega
    have h0 : (Rs.mk data pos).ahead n = 0 := by
      simp only [Rs.ahead, List.getD_eq_getElem?_getD]
      rw [List.getElem?_eq_none (by omega)]; rfl
    rw [h0, if_pos (by simp)]
    refine ⟨⟨data, data.length⟩, n, rfl, Nat.le_refl _, hb, ?_⟩
    funext i
    simp only [Rs.ahead]
    rw [← Nat.add_assoc, he]

theorem lineThenIgnore_def (chars : Bytes) (s : Rs) : Rd.lineThenIgnore chars s =
    (Rd.lineLoop (s.data.length - s.pos + 1) [] >>= fun x => Rd.eof >>= fun e =>
      if (chars.isEmpty || x.2 == 0 || e) = true then Pure.pure x.1
      else ignoreTail chars (s.data.length - s.pos + 1) x.1) s := rfl

/-- A reader that stops at the end of the file, where the blanks end as well. -/
theorem blanks_eof (chars : Bytes) (s : Rs) (h : s.data.length ≤ s.pos) : Blanks chars s.ahead 0 := by
  refine ⟨by simp, ?_⟩
  intro hc
  apply hc.1
  simp only [Rs.ahead, List.getD_eq_getElem?_getD]
  rw [List.getElem?_eq_none (by omega)]; rfl

theorem lineLoop_pos (fuel : Nat) (acc : Bytes) (s t : Rs) (x : Bytes × Byte) (h : Rd.lineLoop fuel acc s = .ok (x, t)) :
    t.data = s.data ∧ s.pos ≤ t.pos := by
  induction fuel generalizing acc s with
  | zero => simp [Rd.lineLoop, Rd.fail] at h
  | succ fuel ih =>
    simp only [Rd.lineLoop] at h
    by_cases hl : s.pos < s.data.length
    · rw [Rd.bind_ok (Rd.char_at s.data s.pos hl)] at h
      split at h
      · cases h; exact ⟨rfl, by simp⟩
      · have := ih _ _ h
        exact ⟨this.1, by have := this.2; simp at this; omega⟩
    · rw [Rd.bind_ok (Rd.char_eof s.data s.pos (by omega))] at h
      split at h
      · cases h; exact ⟨rfl, by simp⟩
      · have := ih _ _ h
        exact ⟨this.1, by have := this.2; simpa using this⟩

theorem Zf.lineThenIgnore (chars : Bytes) : Zf (Rd.lineThenIgnore chars) := by
  intro s t hs ht h
  rw [lineThenIgnore_def, lineThenIgnore_def]
  have hl := lineLoop_alike (s.data.length - s.pos + 1) (t.data.length - t.pos + 1) [] s t hs ht h (by omega) (by omega)
  simp only [Rd.bind_def]
  revert hl
  cases e1 : Rd.lineLoop (s.data.length - s.pos + 1) [] s with
  | error e => cases e2 : Rd.lineLoop (t.data.length - t.pos + 1) [] t with
    | error e' => intro h; exact h
    | ok y => intro h; exact h.elim
  | ok x => cases e2 : Rd.lineLoop (t.data.length - t.pos + 1) [] t with
    | error e' => intro h; exact h.elim
    | ok y =>
      obtain ⟨⟨str, c⟩, s1⟩ := x
      obtain ⟨y, t1⟩ := y
      rintro ⟨rfl, h1, i1, i2⟩
      have hp1 := lineLoop_pos _ _ _ _ _ e1
      have hp2 := lineLoop_pos _ _ _ _ _ e2
      simp only [Rd.eof]
      by_cases hq : (chars.isEmpty || c == 0) = true
      · rw [if_pos (by rw [hq]; rfl), if_pos (by rw [hq]; rfl)]
        exact ⟨rfl, h1, i1, i2⟩
      · have key : ∀ (u : Rs) (fuel : Nat), u.Inside → u.data.length - u.pos < fuel → ∃ (w : Rs) (n : Nat),
            (if (chars.isEmpty || c == 0 || decide (u.pos ≥ u.data.length)) = true then (Pure.pure str : Rd Bytes)
              else ignoreTail chars fuel str) u = .ok (str, w) ∧ w.Inside ∧ Blanks chars u.ahead n ∧
              w.ahead = fun i => u.ahead (n + i) := by
          intro u fuel hu hf
          by_cases he : u.pos ≥ u.data.length
          · rw [if_pos (by simp [he])]
            exact ⟨u, 0, rfl, hu, blanks_eof chars u he, by simp⟩
          · rw [if_neg (by simp only [he, decide_false, Bool.or_false]; exact hq)]
            exact ignoreTail_ahead chars fuel str u hu hf
        obtain ⟨w1, n1, r1, j1, b1, a1⟩ := key s1 (s.data.length - s.pos + 1) i1 (by rw [hp1.1]; omega)
        obtain ⟨w2, n2, r2, j2, b2, a2⟩ := key t1 (t.data.length - t.pos + 1) i2 (by rw [hp2.1]; omega)
        rw [r1, r2]
        rw [h1] at b1
        have en := b1.unique b2
        subst en
        exact ⟨rfl, by rw [a1, a2, h1], j1, j2⟩

theorem Zf.line (b : Bool) : Zf (Rd.line b) := Zf.lineThenIgnore _

theorem Zf.vec2 : Zf Rd.vec2 := Zf.bind (Zf.readPadded _) fun _ => Zf.pure _
theorem Zf.vec3 : Zf Rd.vec3 := Zf.bind (Zf.readPadded _) fun _ => Zf.pure _

theorem Zf.font : Zf Font.load :=
  .bind (.line _) fun _ => .ite (.fail _) <| .bind (.line _) fun _ => .bind .u32 fun _ => .bind .u32 fun _ =>
    .bind (.times .u8 _) fun _ => .bind (.times .vec2 _) fun _ => .bind (.times .vec2 _) fun _ => .pure _

theorem Zf.levels (f : Tex.Format) (w h : BitVec 32) : ∀ (n : Nat) (acc : List Bytes), Zf (Tex.loadLevels f w h n acc)
  | 0, _ => .pure _
  | n + 1, _ => .bind (.readPadded _) fun _ => Zf.levels f w h n _

theorem Zf.color : Zf Tex.Color.load :=
  .bind .u8 fun _ => .bind .u8 fun _ => .bind .u8 fun _ => .bind .u8 fun _ => .pure _

theorem Zf.texture (t : Tex.Texture) : Zf t.load :=
  .bind (.string _) fun _ => .ite (.fail _) <| .bind .u32 fun _ => .ite (.fail _) <| .bind .u32 fun _ =>
    .bind .u32 fun _ => .bind .u32 fun _ => .bind .u32 fun _ => .bind .u32 fun _ => .bind .u32 fun _ =>
    .bind .u32 fun _ => .bind (.ite (.times .color _) (.pure _)) fun _ => .bind (.levels _ _ _ _ _) fun _ => .pure _

/-- `Alike.bind`, with the equations at hand. -/
theorem Alike.bind_eq {α β} {p q : Rd α} {f g : α → Rd β} {s t : Rs} (h : Alike (p s) (q t))
    (hf : ∀ a s1 t1, p s = .ok (a, s1) → q t = .ok (a, t1) → s1.Inside → t1.Inside → s1.ahead = t1.ahead →
      Alike (f a s1) (g a t1)) : Alike ((p >>= f) s) ((q >>= g) t) := by
  simp only [Rd.bind_def]
  revert h
  cases e1 : p s with
  | error e => cases e2 : q t with
    | error e' => intro h; exact h
    | ok y => intro h; exact h.elim
  | ok x => cases e2 : q t with
    | error e' => intro h; exact h.elim
    | ok y =>
      obtain ⟨a, s1⟩ := x
      obtain ⟨b, t1⟩ := y
      rintro ⟨rfl, h, h1, h2⟩
      exact hf a s1 t1 e1 e2 h1 h2 h

/-- How many bytes are left. -/
def Rs.left (s : Rs) : Nat := s.data.length - s.pos

/-- The reader does not go back. -/
def Dn {α} (p : Rd α) : Prop := ∀ (s u : Rs) (a : α), p s = .ok (a, u) → u.left ≤ s.left

namespace Dn

theorem bind {α β} {p : Rd α} {f : α → Rd β} (hp : Dn p) (hf : ∀ a, Dn (f a)) : Dn (p >>= f) := by
  intro s u b h
  simp only [Rd.bind_def] at h
  cases e : p s with
  | error e' => rw [e] at h; cases h
  | ok x =>
    obtain ⟨a, s1⟩ := x
    rw [e] at h
    exact Nat.le_trans (hf a s1 u b h) (hp s s1 a e)

theorem pure {α} (a : α) : Dn (Pure.pure a : Rd α) := by
  intro s u b h; cases h; exact Nat.le_refl _

theorem fail {α} (e : Fail) : Dn (Rd.fail e : Rd α) := by
  intro s u b h; cases h

theorem readPadded (n : Nat) : Dn (Rd.readPadded n) := by
  intro s u b h
  simp only [Rd.readPadded, Rd.read] at h
  cases h
  simp only [Rs.left]
  omega

theorem word (w k : Nat) : Dn (Rd.word w k) := bind (readPadded k) fun _ => pure _
theorem vec3 : Dn Rd.vec3 := bind (readPadded _) fun _ => pure _

end Dn

theorem Dn.obbMany {fuel : Nat} (h : Dn (Obb.loadFuel fuel)) : ∀ n, Dn (Obb.loadMany fuel n)
  | 0 => by unfold Obb.loadMany; exact Dn.pure _
  | n + 1 => by unfold Obb.loadMany; exact Dn.bind h fun _ => Dn.bind (Dn.obbMany h n) fun _ => Dn.pure _

theorem Dn.obb : ∀ fuel : Nat, Dn (Obb.loadFuel fuel)
  | 0 => by unfold Obb.loadFuel; exact Dn.fail _
  | fuel + 1 => by
    unfold Obb.loadFuel
    exact Dn.bind Dn.vec3 fun _ => Dn.bind Dn.vec3 fun _ => Dn.bind Dn.vec3 fun _ => Dn.bind Dn.vec3 fun _ =>
      Dn.bind Dn.vec3 fun _ => Dn.bind (Dn.word 16 2) fun _ => Dn.bind (Dn.obbMany (Dn.obb fuel) _) fun _ => Dn.pure _

/-- A count that is not zero has been read from the file. -/
theorem u16_left {s u : Rs} {n : BitVec 16} (hs : s.Inside) (h : Rd.u16 s = .ok (n, u)) (hn : n.toNat ≠ 0) :
    u.left < s.left := by
  obtain ⟨t, e, -, hd, hp, -⟩ := readPadded_ahead 2 s hs
  simp only [Rd.u16, Rd.word] at h
  rw [Rd.bind_ok e] at h
  cases h
  simp only [Rs.left, hd, hp]
  by_contra hc
  have he : s.data.length ≤ s.pos := by omega
  apply hn
  have hz : (List.range 2).map s.ahead = [0, 0] := by
    simp only [Rs.ahead, List.getD_eq_getElem?_getD, List.range_succ, List.range_zero, List.nil_append, List.map_cons,
      List.cons_append, List.map_nil]
    rw [List.getElem?_eq_none (by omega), List.getElem?_eq_none (by omega)]
    rfl
  rw [hz]
  rfl

theorem obbMany_alike {fuel fuel' : Nat}
    (h : ∀ s t : Rs, s.Inside → t.Inside → s.ahead = t.ahead → s.left < fuel → t.left < fuel' →
      Alike (Obb.loadFuel fuel s) (Obb.loadFuel fuel' t)) :
    ∀ (n : Nat) (s t : Rs), s.Inside → t.Inside → s.ahead = t.ahead → s.left < fuel → t.left < fuel' →
      Alike (Obb.loadMany fuel n s) (Obb.loadMany fuel' n t)
  | 0, s, t, hs, ht, ha, _, _ => by unfold Obb.loadMany; exact Zf.pure _ s t hs ht ha
  | n + 1, s, t, hs, ht, ha, hf, hf' => by
    unfold Obb.loadMany
    refine Alike.bind_eq (h s t hs ht ha hf hf') fun c s1 t1 e1 e2 i1 i2 a1 => ?_
    have l1 := Dn.obb fuel s s1 c e1
    have l2 := Dn.obb fuel' t t1 c e2
    exact Alike.bind (obbMany_alike h n s1 t1 i1 i2 a1 (by omega) (by omega)) fun cs => Zf.pure _

theorem obb_alike : ∀ (fuel fuel' : Nat) (s t : Rs), s.Inside → t.Inside → s.ahead = t.ahead → s.left < fuel →
    t.left < fuel' → Alike (Obb.loadFuel fuel s) (Obb.loadFuel fuel' t)
  | 0, _, _, _, _, _, _, hf, _ => by omega
  | _ + 1, 0, _, _, _, _, _, _, hf => by omega
  | fuel + 1, fuel' + 1, s, t, hs, ht, ha, hf, hf' => by
    unfold Obb.loadFuel
    refine Alike.bind_eq (Zf.vec3 s t hs ht ha) fun _ s1 t1 e1 d1 hs ht ha => ?_
    refine Alike.bind_eq (Zf.vec3 _ _ hs ht ha) fun _ s2 t2 e2 d2 hs ht ha => ?_
    refine Alike.bind_eq (Zf.vec3 _ _ hs ht ha) fun _ s3 t3 e3 d3 hs ht ha => ?_
    refine Alike.bind_eq (Zf.vec3 _ _ hs ht ha) fun _ s4 t4 e4 d4 hs ht ha => ?_
    refine Alike.bind_eq (Zf.vec3 _ _ hs ht ha) fun _ s5 t5 e5 d5 hs ht ha => ?_
    refine Alike.bind_eq (Zf.u16 _ _ hs ht ha) fun n s6 t6 e6 d6 hs6 ht6 ha6 => ?_
    refine Alike.bind ?_ fun cs => Zf.pure _
    by_cases hn : n.toNat = 0
    · rw [hn]; unfold Obb.loadMany; exact Zf.pure _ _ _ hs6 ht6 ha6
    · have m1 := u16_left hs e6 hn
      have m2 := u16_left ht d6 hn
      have := Dn.vec3 _ _ _ e1
      have := Dn.vec3 _ _ _ e2
      have := Dn.vec3 _ _ _ e3
      have := Dn.vec3 _ _ _ e4
      have := Dn.vec3 _ _ _ e5
      have := Dn.vec3 _ _ _ d1
      have := Dn.vec3 _ _ _ d2
      have := Dn.vec3 _ _ _ d3
      have := Dn.vec3 _ _ _ d4
      have := Dn.vec3 _ _ _ d5
      exact obbMany_alike (obb_alike fuel fuel') _ _ _ hs6 ht6 ha6 (by omega) (by omega)

theorem Zf.obb : Zf Obb.load := fun s t hs ht ha =>
  obb_alike _ _ s t hs ht ha (by simp only [Rs.left]; omega) (by simp only [Rs.left]; omega)

/-- Zeroes at the end make no difference ahead. -/
theorem ahead_zeros (data : Bytes) (k pos : Nat) :
    (Rs.mk (data ++ List.replicate k 0) pos).ahead = (Rs.mk data pos).ahead := by
  funext i
  simp only [Rs.ahead, List.getD_eq_getElem?_getD]
  by_cases h : pos + i < data.length
  · rw [List.getElem?_append_left h]
  · rw [List.getElem?_append_right (by omega), List.getElem?_replicate, List.getElem?_eq_none (by omega)]
    split <;> rfl

end Verif
