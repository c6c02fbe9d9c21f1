import Verif.Lemmas.Zipped
import Verif.Spec.ZippedDamage

/-! # Compressed files with damaged blocks -/

namespace Verif.Zip

open Spec (zipGives Trail)

theorem gives_spec (good : Nat → Bool) (bs len : Nat) : ∀ (n p k : Nat), k ≤ n → p + k ≤ len → (∀ q, p ≤ q → q < p + k → good (q / bs) = true) →
    (k = n ∨ p + k = len ∨ good ((p + k) / bs) = false) → zipGives good bs len p n = k := by
  intro n
  induction n with
  | zero => intro p k h _ _ _; unfold zipGives; omega
  | succ n ih =>
    intro p k h1 h2 h3 h4
    unfold zipGives
    cases k with
    | zero =>
      rw [if_neg]
      rintro ⟨a, b⟩
      rcases h4 with h | h | h
      · omega
      · omega
      · rw [Nat.add_zero, b] at h; cases h
    | succ k =>
      rw [if_pos ⟨by omega, h3 p (by omega) (by omega)⟩, ih (p + 1) k (by omega) (by omega) (fun q a b => h3 q (by omega) (by omega))]
      rcases h4 with h | h | h
      · left; omega
      · right; left; omega
      · right; right
        rw [show p + 1 + k = p + (k + 1) by omega]
        exact h

theorem gives_zero (good : Nat → Bool) (bs len p n : Nat) (h : p = len ∨ good (p / bs) = false) : zipGives good bs len p n = 0 := by
  cases n with
  | zero => rfl
  | succ n =>
    unfold zipGives
    rw [if_neg]
    rintro ⟨a, b⟩
    rcases h with h | h
    · omega
    · rw [b] at h; cases h

/-- Inside of a block that is not damaged everything can be read. -/
theorem gives_block (good : Nat → Bool) (bs len p n m : Nat) (hbs : 0 < bs) (hg : good (p / bs) = true) (hm : m ≤ n) (hl : p + m ≤ len)
    (hb : p + m ≤ (p / bs + 1) * bs) : zipGives good bs len p n = m + zipGives good bs len (p + m) (n - m) := by
  induction m generalizing p n with
  | zero => simp
  | succ m ih =>
    cases n with
    | zero => omega
    | succ n =>
      conv => lhs; unfold zipGives
      rw [if_pos ⟨by omega, hg⟩]
      by_cases h0 : m = 0
      · subst h0; simp; omega
      · have hd : (p + 1) / bs = p / bs := by
          apply Nat.div_eq_of_lt_le
          · have := Nat.div_mul_le_self p bs; omega
          · omega
        rw [ih (p + 1) n (by rw [hd]; exact hg) (by omega) (by omega) (by rw [hd]; omega)]
        rw [show p + 1 + m = p + (m + 1) by omega, show n + 1 - (m + 1) = n - m by omega]
        omega

/-- What holds between any two operations. -/
structure Hurt (unz : Unz) (good : Nat → Bool) (content : Bytes) (s : Trail) (z : Zip) : Prop where
  len : z.length = content.length
  lenLt : content.length < 2 ^ 32
  bs : 0 < z.blockSize
  cnt : z.count = (content.length + z.blockSize - 1) / z.blockSize
  streamPos : z.stream.pos ≤ z.stream.data.length
  blocks : ∀ i, i < z.count → ∃ off lenCmp, z.blocks[i]? = some ⟨(Spec.zipBlock content z.blockSize i).length, lenCmp, off⟩ ∧
    off + lenCmp ≤ z.stream.data.length ∧
    if good i then unz ((z.stream.data.drop off).take lenCmp) (Spec.zipBlock content z.blockSize i).length =
        (Spec.zipBlock content z.blockSize i, true)
    else (unz ((z.stream.data.drop off).take lenCmp) (Spec.zipBlock content z.blockSize i).length).2 = false
  cache : ∀ i, z.cacheIdx = some i → i ∈ s.last ∧ good i = true ∧ (s.hurt = false → z.cache = Spec.zipBlock content z.blockSize i)
  at_ : z.pos = s.pos
  pos : (z.cur < z.count ∧ z.cur = z.pos / z.blockSize ∧ z.pos ≤ content.length) ∨ (z.count ≤ z.cur ∧ z.pos = content.length)

variable {unz : Unz} {good : Nat → Bool} {content : Bytes} {s : Trail} {z : Zip}

/-- Loading a block that is not damaged. -/
theorem Hurt.load (h : Hurt unz good content s z) {i : Nat} (hi : i < z.count) (hg : good i = true) :
    ∃ p, p ≤ z.stream.data.length ∧ cacheBlock unz i z =
      .ok (true, { z with stream := ⟨z.stream.data, p⟩, cache := Spec.zipBlock content z.blockSize i, cacheIdx := some i }) := by
  obtain ⟨off, lc, hb, hoff, hu⟩ := h.blocks i hi
  rw [if_pos hg] at hu
  unfold cacheBlock
  rw [hb]
  simp only
  rcases hz : z.stream with ⟨sd, sp⟩
  rw [hz] at hoff hu
  simp only at hoff hu
  rw [Rd.bind_ok (Rd.seek_beg (by omega : off ≤ sd.length)), Rd.read_eq _ _ (by simp; omega)]
  simp only
  have hl : (List.take lc (List.drop off sd)).length = lc := by simp; omega
  rw [if_neg (by simp only [hl]; simp), hu]
  simp only [if_true]
  refine ⟨min (off + lc) sd.length, by omega, ?_⟩
  have hres : ∀ n, (resize z.cache n).length = n := by intro n; simp [resize]; omega
  rw [List.take_of_length_le (by simp), List.drop_of_length_le (by rw [hres]; simp)]
  simp

/-- Loading a damaged block leaves a cache that is not to be trusted. -/
theorem Hurt.fail (h : Hurt unz good content s z) {i : Nat} (hi : i < z.count) (hg : good i = false) :
    ∃ p c, p ≤ z.stream.data.length ∧ cacheBlock unz i z = .ok (false, { z with stream := ⟨z.stream.data, p⟩, cache := c }) := by
  obtain ⟨off, lc, hb, hoff, hu⟩ := h.blocks i hi
  rw [hg, if_neg (by simp)] at hu
  unfold cacheBlock
  rw [hb]
  simp only
  rcases hz : z.stream with ⟨sd, sp⟩
  rw [hz] at hoff hu
  simp only at hoff hu
  rw [Rd.bind_ok (Rd.seek_beg (by omega : off ≤ sd.length)), Rd.read_eq _ _ (by simp; omega)]
  simp only
  have hl : (List.take lc (List.drop off sd)).length = lc := by simp; omega
  rw [if_neg (by simp only [hl]; simp)]
  generalize unz _ _ = o at hu ⊢
  obtain ⟨o, ok⟩ := o
  simp only at hu ⊢
  subst hu
  exact ⟨min (off + lc) sd.length, _, by omega, rfl⟩

theorem Hurt.readLoop (fuel n : Nat) (out : Bytes) (s : Trail) (z : Zip) (h : Hurt unz good content s z) (hf : z.count - z.cur + 1 < fuel)
    (hh : 0 < n → ¬ (s.hurt = true ∧ s.pos / z.blockSize ∈ s.last)) :
    ∃ z', Zip.readLoop unz fuel n out z = .ok (out ++ (content.drop s.pos).take (zipGives good z.blockSize content.length s.pos n), z') ∧
      Hurt unz good content (s.after good z.blockSize content.length (.read n)) z' ∧ z'.blockSize = z.blockSize := by
  induction fuel generalizing n out z s with
  | zero => omega
  | succ fuel ih =>
    unfold Zip.readLoop
    by_cases hn : n = 0
    · subst hn
      refine ⟨z, by simp [zipGives], ?_, rfl⟩
      simpa [Trail.after] using h
    · rw [if_neg hn]
      have hh := hh (by omega)
      have hat := h.at_
      rcases h.pos with ⟨hc, hp1, hp3⟩ | ⟨hc, hp⟩
      · rw [if_neg (by omega)]
        have hcnt := h.cnt
        have hlt : z.cur * z.blockSize < content.length := by
          rw [hcnt] at hc; exact (lt_count_iff _ _ _ h.bs).1 hc
        have hdm := Nat.div_add_mod z.pos z.blockSize
        have hml := Nat.mod_lt z.pos h.bs
        rw [Nat.mul_comm, ← hp1] at hdm
        cases hg : good z.cur with
        | false =>
          have hci : z.cacheIdx ≠ some z.cur := fun e => by have := (h.cache _ e).2.1; rw [hg] at this; cases this
          rw [if_neg hci]
          obtain ⟨p, c, hpp, e⟩ := h.fail hc hg
          rw [e]
          simp only
          have hz : zipGives good z.blockSize content.length s.pos n = 0 := gives_zero _ _ _ _ _ (Or.inr (by rw [← hat, ← hp1]; exact hg))
          refine ⟨{ z with stream := ⟨z.stream.data, p⟩, cache := c }, by rw [hz]; simp, ?_, rfl⟩
          have hcore : ∀ s' : Trail, s'.pos = s.pos → s'.hurt = true → (∀ i ∈ s.last, i ∈ s'.last) →
              Hurt unz good content s' { z with stream := ⟨z.stream.data, p⟩, cache := c } := by
            intro s' q1 q2 q3
            exact ⟨h.len, h.lenLt, h.bs, h.cnt, hpp, h.blocks,
              fun i hi => ⟨q3 i (h.cache i hi).1, (h.cache i hi).2.1, fun e => by rw [q2] at e; cases e⟩, hat.trans q1.symm, h.pos⟩
          unfold Trail.after
          simp only [Spec.damagedPosAfter, hz, Nat.add_zero]
          rw [if_neg hn]
          split
          · rename_i hend
            have hm : content.length % z.blockSize ≠ 0 := by
              intro hm
              rw [← hend, ← hat] at hm
              omega
            rw [if_neg hm]
            refine hcore _ rfl ?_ fun i hi => List.mem_cons_of_mem _ hi
            rw [← hend, ← hat, ← hp1, hg]
            simp
          · rw [if_pos trivial]
            exact hcore _ rfl rfl fun i hi => hi
        | true =>
          have hcached : ∃ p, p ≤ z.stream.data.length ∧
              (if z.cacheIdx = some z.cur then (.ok (true, z) : Except Fail (Bool × Zip)) else cacheBlock unz z.cur z) =
                .ok (true, { z with stream := ⟨z.stream.data, p⟩, cache := Spec.zipBlock content z.blockSize z.cur,
                                    cacheIdx := some z.cur }) := by
            by_cases hci : z.cacheIdx = some z.cur
            · rw [if_pos hci]
              refine ⟨z.stream.pos, h.streamPos, ?_⟩
              obtain ⟨q1, -, q3⟩ := h.cache _ hci
              rw [← q3 (by cases e : s.hurt with
                | false => rfl
                | true => exact absurd ⟨e, by rw [← hat, ← hp1]; exact q1⟩ hh), ← hci]
            · rw [if_neg hci]; exact h.load hc hg
          obtain ⟨p, hpp, hcached⟩ := hcached
          rw [hcached]
          simp only
          obtain ⟨off, lc, hb, hoff, hu⟩ := h.blocks z.cur hc
          rw [hb]
          simp only
          have hbl : (Spec.zipBlock content z.blockSize z.cur).length = min z.blockSize (content.length - z.cur * z.blockSize) := by
            simp [Spec.zipBlock]
          have hmul : (z.cur + 1) * z.blockSize = z.cur * z.blockSize + z.blockSize := by
            rw [Nat.add_mul, Nat.one_mul]
          have hL := h.lenLt
          have e1 : (z.cur * z.blockSize) % 2 ^ 32 = z.cur * z.blockSize := Nat.mod_eq_of_lt (by omega)
          have e2 : (z.pos + Mem.W - z.cur * z.blockSize) % Mem.W = z.pos - z.cur * z.blockSize := by
            have : z.pos + Mem.W - z.cur * z.blockSize = (z.pos - z.cur * z.blockSize) + Mem.W := by omega
            rw [this, Nat.add_mod_right, Nat.mod_eq_of_lt (by simp only [Mem.W]; omega)]
          rw [e1, e2, hbl]
          have e3 : (min z.blockSize (content.length - z.cur * z.blockSize) + Mem.W - (z.pos - z.cur * z.blockSize)) % Mem.W
              = min z.blockSize (content.length - z.cur * z.blockSize) - (z.pos - z.cur * z.blockSize) := by
            have : min z.blockSize (content.length - z.cur * z.blockSize) + Mem.W - (z.pos - z.cur * z.blockSize)
              = (min z.blockSize (content.length - z.cur * z.blockSize) - (z.pos - z.cur * z.blockSize)) + Mem.W := by omega
            rw [this, Nat.add_mod_right, Nat.mod_eq_of_lt (by simp only [Mem.W]; omega)]
          rw [e3]
          generalize hav : min z.blockSize (content.length - z.cur * z.blockSize) - (z.pos - z.cur * z.blockSize) = avail
          rw [if_neg (by omega)]
          have hcopy : List.take (min n avail) (List.drop (z.pos - z.cur * z.blockSize) (Spec.zipBlock content z.blockSize z.cur))
              = (content.drop z.pos).take (min n avail) := by
            unfold Spec.zipBlock
            rw [List.drop_take, List.drop_drop, List.take_take]
            have : z.cur * z.blockSize + (z.pos - z.cur * z.blockSize) = z.pos := by omega
            rw [this]
            congr 1
            omega
          rw [hcopy]
          have hgv := gives_block good z.blockSize content.length s.pos n (min n avail) h.bs (by rw [← hat, ← hp1]; exact hg) (by omega) (by omega)
            (by rw [← hat, ← hp1]; omega)
          have hnext : ∀ {b : Bool} {l : List Nat}, (b = false) → z.cur ∈ l → Hurt unz good content ⟨z.pos + min n avail, b, l⟩ { z with
              stream := ⟨z.stream.data, p⟩, cache := Spec.zipBlock content z.blockSize z.cur, cacheIdx := some z.cur,
              pos := z.pos + min n avail, cur := if min n avail = avail then z.cur + 1 else z.cur } := by
            intro b l hb hl
            refine ⟨h.len, h.lenLt, h.bs, h.cnt, hpp, h.blocks, ?_, rfl, ?_⟩
            · intro i hi
              simp only [Option.some.injEq] at hi
              subst hi
              exact ⟨hl, hg, fun _ => rfl⟩
            · simp only
              by_cases hfull : min n avail = avail
              · rw [if_pos hfull, hfull]
                by_cases hnext : z.cur + 1 < z.count
                · left
                  have : (z.cur + 1) * z.blockSize < content.length := by
                    rw [hcnt] at hnext; exact (lt_count_iff _ _ _ h.bs).1 hnext
                  refine ⟨hnext, ?_, by omega⟩
                  rw [show z.pos + avail = (z.cur + 1) * z.blockSize by omega, Nat.mul_div_cancel _ h.bs]
                · right
                  have : ¬ (z.cur + 1) * z.blockSize < content.length := by
                    intro hh; apply hnext; rw [hcnt]; exact (lt_count_iff _ _ _ h.bs).2 hh
                  exact ⟨by omega, by omega⟩
              · rw [if_neg hfull]
                left
                refine ⟨hc, ?_, by omega⟩
                symm
                apply Nat.div_eq_of_lt_le <;> omega
          have hcurEq : ∀ q, 0 < q → q ≤ avail → (s.pos + q - 1) / z.blockSize = z.cur := by
            intro q hq1 hq2
            apply Nat.div_eq_of_lt_le <;> omega
          have hlast : z.count ≤ z.cur + 1 ↔ content.length ≤ (z.cur + 1) * z.blockSize := by
            rw [← Nat.not_lt, ← Nat.not_lt, hcnt, lt_count_iff _ _ _ h.bs]
          have stop : ∀ (f : Nat) (o : Bytes) (m : Nat) (x : Zip), 0 < f → (m = 0 ∨ x.count ≤ x.cur) → Zip.readLoop unz f m o x = .ok (o, x) := by
            intro f o m x h0 h1
            cases f with
            | zero => omega
            | succ f =>
              unfold Zip.readLoop
              by_cases hm : m = 0
              · rw [if_pos hm]
              · rw [if_neg hm, if_pos (by omega)]
          by_cases hend : s.pos = content.length
          · -- at the end of the file
            have h0 : avail = 0 := by omega
            subst h0
            have hm : min n 0 = 0 := by omega
            have hm0 : content.length % z.blockSize ≠ 0 := by
              intro hm
              rw [← hend, ← hat] at hm
              omega
            rw [hm] at hnext ⊢
            rw [stop _ _ _ _ (by omega) (Or.inr (by simp only [if_true]; exact hlast.2 (by omega)))]
            have hz : zipGives good z.blockSize content.length s.pos n = 0 := gives_zero _ _ _ _ _ (Or.inl hend)
            refine ⟨_, congrArg Except.ok (Prod.ext (by simp [hz]) rfl), ?_, rfl⟩
            unfold Trail.after
            simp only
            rw [if_neg hn, if_pos hend, if_neg hm0]
            have hl : content.length / z.blockSize = z.cur := by rw [← hend, ← hat, ← hp1]
            rw [hl]
            have := hnext (b := false) (l := z.cur :: s.last) rfl (List.mem_cons_self)
            exact ⟨this.len, this.lenLt, this.bs, this.cnt, this.streamPos, this.blocks, fun i hi => ⟨(this.cache i hi).1, (this.cache i hi).2.1,
              fun _ => (this.cache i hi).2.2 rfl⟩, hat, this.pos⟩
          · have havail : 0 < avail := by omega
            by_cases hsmall : n ≤ avail
            · have hm : min n avail = n := by omega
              rw [hm] at hnext hgv ⊢
              rw [stop _ _ _ _ (by omega) (Or.inl (by omega))]
              have hz : zipGives good z.blockSize content.length s.pos n = n := by
                rw [hgv, Nat.sub_self]; rfl
              refine ⟨_, congrArg Except.ok (Prod.ext (by simp only [hz, hat]) rfl), ?_, rfl⟩
              unfold Trail.after
              simp only [Spec.damagedPosAfter, hz]
              rw [if_neg hn, if_neg hend, if_neg (by omega), hcurEq n (by omega) hsmall,
                show decide (s.pos + n < min (s.pos + n) content.length) = false by simp only [decide_eq_false_iff_not]; omega, ← hat]
              exact hnext rfl (by simp)
            · have hm : min n avail = avail := by omega
              rw [hm] at hnext hgv ⊢
              simp only [if_true] at hnext ⊢
              by_cases hfin : z.pos + avail = content.length
              · rw [stop _ _ _ _ (by omega) (Or.inr (hlast.2 (by omega)))]
                have hz : zipGives good z.blockSize content.length s.pos n = avail := by
                  rw [hgv, gives_zero _ _ _ _ _ (Or.inl (by omega))]; rfl
                refine ⟨_, congrArg Except.ok (Prod.ext (by simp only [hz, hat]) rfl), ?_, rfl⟩
                unfold Trail.after
                simp only [Spec.damagedPosAfter, hz]
                rw [if_neg hn, if_neg hend, if_neg (by omega), hcurEq avail havail (Nat.le_refl _),
                  show decide (s.pos + avail < min (s.pos + n) content.length) = false by simp only [decide_eq_false_iff_not]; omega, ← hat]
                exact hnext rfl (by simp)
              · obtain ⟨z', r1, r2, r3⟩ := ih (n - avail) (out ++ (content.drop z.pos).take avail) _ _ (hnext (l := [z.cur]) rfl (by simp))
                  (by simp only; omega) (fun _ hx => by cases hx.1)
                refine ⟨z', ?_, ?_, r3⟩
                · rw [r1, List.append_assoc, hgv, hat]
                  simp only
                  rw [List.take_add, List.drop_drop]
                · simp only at r2
                  have : Trail.after good z.blockSize content.length ⟨z.pos + avail, false, [z.cur]⟩ (.read (n - avail)) =
                      s.after good z.blockSize content.length (.read n) := by
                    unfold Trail.after
                    simp only [Spec.damagedPosAfter, hgv, hat]
                    rw [if_neg (by omega), if_neg (by omega), if_neg hn, if_neg hend, if_neg (show ¬ s.pos + (avail + _) = s.pos by omega)]
                    rw [show s.pos + avail + (n - avail) = s.pos + n by omega, ← Nat.add_assoc]
                    generalize zipGives _ _ _ _ _ = q
                    split
                    · rename_i hq
                      rw [hq, hcurEq avail havail (Nat.le_refl _), show decide (s.pos + avail < min (s.pos + n) content.length) = true by
                        simp only [decide_eq_true_eq]; omega]
                    · rfl
                  rw [← this]
                  exact r2
      · rw [if_pos hc]
        have hz : zipGives good z.blockSize content.length s.pos n = 0 := gives_zero _ _ _ _ _ (Or.inl (hat ▸ hp))
        refine ⟨z, by rw [hz]; simp, ?_, rfl⟩
        unfold Trail.after
        simp only
        rw [if_neg hn, if_pos (hat ▸ hp)]
        split
        · exact h
        · exact ⟨h.len, h.lenLt, h.bs, h.cnt, h.streamPos, h.blocks, fun i hi => ⟨List.mem_cons_of_mem _ (h.cache i hi).1, (h.cache i hi).2.1,
            fun e => (h.cache i hi).2.2 (by simp only [Bool.or_eq_false_iff] at e; exact e.1)⟩, h.at_, h.pos⟩

theorem Hurt.seek (h : Hurt unz good content s z) (off : Int) (w : Whence) :
    Hurt unz good content (s.after good z.blockSize content.length (.seek off w)) (Zip.seek off w z) := by
  have hbs := h.bs
  have hpos : (Zip.seek off w z).pos = Spec.zipPosAfter content.length s.pos (.seek off w) := by
    rw [← h.at_]
    simp only [Zip.seek, Spec.zipPosAfter, h.len]
    cases w <;> simp only [Spec.seekTo] <;> (split <;> split <;> omega)
  refine ⟨h.len, h.lenLt, h.bs, h.cnt, h.streamPos, h.blocks, h.cache, hpos, ?_⟩
  have hcur : (Zip.seek off w z).cur = (Zip.seek off w z).pos / z.blockSize := by
    simp only [Zip.seek, hbs, if_true]
  have hle : (Zip.seek off w z).pos ≤ content.length := by
    rw [hpos]; simp only [Spec.zipPosAfter]; omega
  generalize hp : (Zip.seek off w z).pos = p at *
  rw [hcur]
  have hb : (Zip.seek off w z).blockSize = z.blockSize := rfl
  have hcn : (Zip.seek off w z).count = z.count := rfl
  rw [hb, hcn]
  by_cases hlt : p / z.blockSize < z.count
  · left; exact ⟨hlt, rfl, hle⟩
  · right
    refine ⟨by omega, ?_⟩
    have : ¬ p / z.blockSize * z.blockSize < content.length := by
      intro hh; apply hlt; rw [h.cnt]; exact (lt_count_iff _ _ _ hbs).2 hh
    have := Nat.div_mul_le_self p z.blockSize
    omega

/-- Whole histories. -/
theorem Hurt.run : ∀ (ops : List Mem.ROp) (s : Trail) (z : Zip), Hurt unz good content s z →
    Spec.Heedful good z.blockSize content.length s ops →
    ∃ z', Zip.run unz z ops = .ok ((Spec.damagedRun good z.blockSize content s.pos ops).1, z') ∧
      z'.pos = (Spec.damagedRun good z.blockSize content s.pos ops).2 := by
  intro ops
  induction ops with
  | nil => intro s z h _; exact ⟨z, rfl, h.at_⟩
  | cons op ops ih =>
    intro s z h hh
    have hpos : (s.after good z.blockSize content.length op).pos = Spec.damagedPosAfter good z.blockSize content.length s.pos op := by
      cases op with
      | seek off w => rfl
      | read n =>
        unfold Trail.after
        simp only
        split
        · rename_i e; subst e; rfl
        · split
          · rename_i e
            have : zipGives good z.blockSize content.length s.pos n = 0 := gives_zero _ _ _ _ _ (Or.inl e)
            simp only [Spec.damagedPosAfter, this]
            split <;> rfl
          · split
            · rename_i e; exact e.symm
            · rfl
    have hstep : ∃ z', step unz z op = .ok (Spec.damagedReturned good z.blockSize content s.pos op, z') ∧
        Hurt unz good content (s.after good z.blockSize content.length op) z' ∧ z'.blockSize = z.blockSize := by
      cases op with
      | read n =>
        obtain ⟨z', h1, h2, h3⟩ := Hurt.readLoop _ n [] s z h (Nat.lt_succ_self _) fun hn => by
          obtain ⟨m, rfl⟩ : ∃ m, n = m + 1 := ⟨n - 1, by omega⟩
          exact hh.1 m rfl
        exact ⟨z', by simpa [step, Zip.read, Spec.damagedReturned] using h1, h2, h3⟩
      | seek off w => exact ⟨_, rfl, h.seek off w, rfl⟩
    obtain ⟨z1, h1, h2, h3⟩ := hstep
    obtain ⟨z2, h4, h5⟩ := ih _ z1 h2 (by rw [h3]; exact hh.2)
    rw [h3, hpos] at h4 h5
    refine ⟨z2, ?_, h5⟩
    simp only [Zip.run, h1, h4, Spec.damagedRun]

theorem gives_props (good : Nat → Bool) (bs len : Nat) : ∀ (n p : Nat), p ≤ len →
    zipGives good bs len p n ≤ n ∧ p + zipGives good bs len p n ≤ len ∧
    (∀ q, p ≤ q → q < p + zipGives good bs len p n → good (q / bs) = true) ∧
    (zipGives good bs len p n = n ∨ p + zipGives good bs len p n = len ∨ good ((p + zipGives good bs len p n) / bs) = false) := by
  intro n
  induction n with
  | zero => intro p hp; exact ⟨Nat.le_refl _, hp, fun q _ _ => by unfold zipGives at *; omega, Or.inl rfl⟩
  | succ n ih =>
    intro p hp
    unfold zipGives
    by_cases h : p < len ∧ good (p / bs) = true
    · rw [if_pos h]
      obtain ⟨h1, h2, h3, h4⟩ := ih (p + 1) (by omega)
      refine ⟨by omega, by omega, fun q a b => ?_, ?_⟩
      · by_cases hq : q = p
        · rw [hq]; exact h.2
        · exact h3 q (by omega) (by omega)
      · rcases h4 with h4 | h4 | h4
        · left; omega
        · right; left; omega
        · right; right
          rw [show p + (zipGives good bs len (p + 1) n + 1) = p + 1 + zipGives good bs len (p + 1) n by omega]
          exact h4
    · rw [if_neg h]
      refine ⟨by omega, by omega, fun q a b => by omega, ?_⟩
      by_cases hl : p = len
      · right; left; omega
      · right; right
        cases hg : good (p / bs) with
        | false => rfl
        | true => exact absurd ⟨by omega, hg⟩ h

theorem after_read {bs len n k : Nat} {s : Trail} (hk : zipGives good bs len s.pos n = k) (hn : n ≠ 0) (hp : s.pos ≠ len) :
    s.after good bs len (.read n) = if k = 0 then { s with hurt := true } else
      ⟨s.pos + k, decide (s.pos + k < min (s.pos + n) len), [(s.pos + k - 1) / bs]⟩ := by
  subst hk
  have hp' : Spec.damagedPosAfter good bs len s.pos (.read n) = s.pos + zipGives good bs len s.pos n := rfl
  unfold Trail.after
  simp only
  rw [if_neg hn, if_neg hp]
  by_cases h : zipGives good bs len s.pos n = 0
  · rw [if_pos h]
    exact if_pos (by omega)
  · rw [if_neg h]
    exact if_neg (by omega)

/-- Reads without seeks never come back to a block. -/
theorem heedful_reads {bs : Nat} (hbs : 0 < bs) (len : Nat) : ∀ (ns : List Nat) (s : Trail), s.pos ≤ len →
    (s.hurt = true → good (s.pos / bs) = false ∧ s.pos < len) → (∀ i ∈ s.last, good i = true) →
    (s.pos = len → len % bs ≠ 0 → good (len / bs) = true) → Spec.Heedful good bs len s (ns.map .read) := by
  intro ns
  induction ns with
  | nil => intro s _ _ _ _; trivial
  | cons n ns ih =>
    intro s h1 h2 hl h3
    have keep : Spec.Heedful good bs len s (ns.map .read) := ih s h1 h2 hl h3
    refine ⟨fun _ _ hx => ?_, ?_⟩
    · have := (h2 hx.1).1
      rw [hl _ hx.2] at this
      cases this
    · by_cases hn : n = 0
      · unfold Trail.after
        simp only [hn, if_true]
        exact keep
      · by_cases hend : s.pos = len
        · unfold Trail.after
          simp only
          rw [if_neg hn, if_pos hend]
          split
          · exact keep
          · rename_i hm
            have hh : s.hurt = false := by
              cases e : s.hurt with
              | false => rfl
              | true => have := (h2 e).2; omega
            refine ih _ h1 (fun e => ?_) (fun i hi => ?_) fun _ _ => h3 hend hm
            · simp only [hh, h3 hend hm, Bool.not_true, Bool.or_self] at e
              cases e
            · rcases List.mem_cons.1 hi with rfl | hi
              · exact h3 hend hm
              · exact hl i hi
        · obtain ⟨g1, g2, g3, g4⟩ := gives_props good bs len n s.pos h1
          generalize hk : zipGives good bs len s.pos n = k at *
          rw [after_read hk hn hend]
          split
          · rename_i hk
            subst hk
            have hb : good (s.pos / bs) = false := by
              rcases g4 with h | h | h
              · omega
              · omega
              · exact h
            exact ih _ h1 (fun _ => ⟨hb, by show s.pos < len; omega⟩) hl h3
          · rename_i hk
            have hg := g3 (s.pos + k - 1) (by omega) (by omega)
            refine ih _ g2 (fun e => ?_) (fun i hi => ?_) fun e hm => ?_
            · simp only [decide_eq_true_eq] at e
              have hb : good ((s.pos + k) / bs) = false := by
                rcases g4 with h | h | h
                · omega
                · omega
                · exact h
              exact ⟨hb, by show s.pos + k < len; omega⟩
            · simp only [List.mem_singleton] at hi
              subst hi
              exact hg
            · have e : s.pos + k = len := e
              rw [e] at hg
              have : (len - 1) / bs = len / bs := by
                have hd := Nat.div_add_mod len bs
                have hml := Nat.mod_lt len hbs
                apply Nat.div_eq_of_lt_le
                · rw [Nat.mul_comm]; omega
                · rw [Nat.add_mul, Nat.mul_comm]; omega
              rw [← this]
              exact hg

end Verif.Zip
