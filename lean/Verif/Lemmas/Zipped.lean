import Verif.Model.Zipped
import Verif.Spec.Zipped
import Verif.Lemmas.Stream

/-! # Lemmas about compressed streams -/

namespace Verif.Zip

/-- One block as stored: source, compressed bytes, unused word. -/
structure Item where
  src : Bytes
  cmp : Bytes
  sz : BitVec 32

def Item.enc (i : Item) : Bytes :=
  encW 4 (BitVec.ofNat 32 i.src.length) ++ encW 4 (BitVec.ofNat 32 i.cmp.length) ++ encW 4 i.sz ++ i.cmp

theorem scan_items (items : List Item) (h : ∀ i ∈ items, i.src.length < 2 ^ 32 ∧ i.cmp.length < 2 ^ 32)
    (pre post : Bytes) :
    let data := pre ++ (items.map Item.enc).flatten ++ post
    ∃ bl, scan items.length ⟨data, pre.length⟩ = .ok (bl, ⟨data, pre.length + ((items.map Item.enc).flatten).length⟩) ∧
      bl.length = items.length ∧ ∀ k (hk : k < items.length), ∃ off, 
        bl[k]? = some ⟨items[k].src.length, items[k].cmp.length, off⟩ ∧ off + items[k].cmp.length ≤ data.length ∧
        (data.drop off).take items[k].cmp.length = items[k].cmp := by
  induction items generalizing pre with
  | nil => exact ⟨[], by simp [scan], rfl, fun k hk => absurd hk (by simp)⟩
  | cons it items ih =>
    intro data
    obtain ⟨hs, hc⟩ := h it (by simp)
    have hd : data = pre ++ encW 4 (BitVec.ofNat 32 it.src.length) ++ (encW 4 (BitVec.ofNat 32 it.cmp.length) ++
        (encW 4 it.sz ++ (it.cmp ++ ((items.map Item.enc).flatten ++ post)))) := by
      simp [data, Item.enc]
    have r1 := Reads.u32 (BitVec.ofNat 32 it.src.length) pre (encW 4 (BitVec.ofNat 32 it.cmp.length) ++
        (encW 4 it.sz ++ (it.cmp ++ ((items.map Item.enc).flatten ++ post))))
    have r2 := Reads.u32 (BitVec.ofNat 32 it.cmp.length) (pre ++ encW 4 (BitVec.ofNat 32 it.src.length)) 
        (encW 4 it.sz ++ (it.cmp ++ ((items.map Item.enc).flatten ++ post)))
    have r3 := Reads.u32 it.sz (pre ++ encW 4 (BitVec.ofNat 32 it.src.length) ++ encW 4 (BitVec.ofNat 32 it.cmp.length))
        (it.cmp ++ ((items.map Item.enc).flatten ++ post))
    rw [← hd] at r1
    have hd2 : pre ++ encW 4 (BitVec.ofNat 32 it.src.length) ++ encW 4 (BitVec.ofNat 32 it.cmp.length) ++
        (encW 4 it.sz ++ (it.cmp ++ ((items.map Item.enc).flatten ++ post))) = data := by rw [hd]; simp
    have hd3 : pre ++ encW 4 (BitVec.ofNat 32 it.src.length) ++ encW 4 (BitVec.ofNat 32 it.cmp.length) ++
        encW 4 it.sz ++ (it.cmp ++ ((items.map Item.enc).flatten ++ post)) = data := by rw [hd]; simp
    rw [hd2] at r2
    rw [hd3] at r3
    simp only [List.length_append, encW_length] at r1 r2 r3
    have hsn : (BitVec.ofNat 32 it.src.length).toNat = it.src.length := by simp; omega
    have hcn : (BitVec.ofNat 32 it.cmp.length).toNat = it.cmp.length := by simp; omega
    have hdl : data.length = pre.length + 12 + it.cmp.length + ((items.map Item.enc).flatten).length + post.length := by
      rw [hd]; simp; omega
    have r4 : Rd.tell ⟨data, pre.length + 4 + 4 + 4⟩ = .ok (pre.length + 12, ⟨data, pre.length + 12⟩) := rfl
    have r5 : Rd.seek (it.cmp.length : Int) .cur ⟨data, pre.length + 12⟩ =
        .ok ((), ⟨data, pre.length + it.enc.length⟩) := by
      refine Rd.seek_ok ?_ ?_
      · simp [Rd.seekTarget, Item.enc]; omega
      · simp [Item.enc]; omega
    obtain ⟨bl, hb, hbl, hall⟩ := ih (fun i hi => h i (by simp [hi])) (pre ++ it.enc)
    have hde : pre ++ it.enc ++ (items.map Item.enc).flatten ++ post = data := by simp [data]
    rw [hde] at hb hall
    simp only [List.length_append] at hb
    refine ⟨⟨it.src.length, it.cmp.length, pre.length + 12⟩ :: bl, ?_, by simp [hbl], ?_⟩
    · simp only [List.length_cons, scan]
      rw [Rd.bind_ok r1, Rd.bind_ok r2, Rd.bind_ok r3, Rd.bind_ok r4, hcn, Rd.bind_ok r5, Rd.bind_ok hb, hsn]
      simp [Nat.add_assoc]
    · intro k hk
      cases k with
      | zero =>
        refine ⟨pre.length + 12, by simp, by simp; omega, ?_⟩
        have hdd : data.drop (pre.length + 12) = it.cmp ++ ((items.map Item.enc).flatten ++ post) := by
          have : (pre ++ encW 4 (BitVec.ofNat 32 it.src.length) ++ encW 4 (BitVec.ofNat 32 it.cmp.length) ++
            encW 4 it.sz).length = pre.length + 12 := by simp
          rw [← hd3, ← this, List.drop_left]
        rw [hdd]; simp
      | succ k =>
        obtain ⟨off, h1, h2, h3⟩ := hall k (by simpa using hk)
        exact ⟨off, by simpa using h1, by simpa using h2, by simpa using h3⟩

/-- What holds of a compressed stream over `content` between any two operations. -/
structure Inv (unz : Unz) (content : Bytes) (z : Zip) : Prop where
  len : z.length = content.length
  lenLt : content.length < 2 ^ 32
  bs : 0 < z.blockSize
  cnt : z.count = (content.length + z.blockSize - 1) / z.blockSize
  streamPos : z.stream.pos ≤ z.stream.data.length
  blocks : ∀ i, i < z.count → ∃ off lenCmp, z.blocks[i]? = some ⟨(Spec.zipBlock content z.blockSize i).length, lenCmp, off⟩ ∧
    off + lenCmp ≤ z.stream.data.length ∧
    unz ((z.stream.data.drop off).take lenCmp) (Spec.zipBlock content z.blockSize i).length =
      (Spec.zipBlock content z.blockSize i, true)
  cache : ∀ i, z.cacheIdx = some i → z.cache = Spec.zipBlock content z.blockSize i
  pos : (z.cur < z.count ∧ z.cur * z.blockSize ≤ z.pos ∧ z.pos ≤ (z.cur + 1) * z.blockSize ∧ z.pos ≤ content.length) ∨
    (z.count ≤ z.cur ∧ z.pos = content.length)

theorem lt_count_iff (L bs i : Nat) (hbs : 0 < bs) : i < (L + bs - 1) / bs ↔ i * bs < L := by
  rw [← Nat.add_one_le_iff, Nat.le_div_iff_mul_le hbs, Nat.add_mul, Nat.one_mul]
  omega

theorem cacheBlock_ok (unz : Unz) (content : Bytes) (z : Zip) (h : Inv unz content z) (i : Nat) (hi : i < z.count) :
    ∃ p, p ≤ z.stream.data.length ∧ cacheBlock unz i z =
      .ok (true, { z with stream := ⟨z.stream.data, p⟩, cache := Spec.zipBlock content z.blockSize i, cacheIdx := some i }) := by
  obtain ⟨off, lc, hb, hoff, hu⟩ := h.blocks i hi
  unfold cacheBlock
  rw [hb]
  simp only
  rcases hz : z.stream with ⟨sd, sp⟩
  rw [hz] at hoff hu
  simp only at hoff hu
  rw [Rd.bind_ok (Rd.seek_beg (by omega : off ≤ sd.length)), Rd.read_eq _ _ (by simp; omega)]
  simp only
  have hl : (List.take lc (List.drop off sd)).length = lc := by simp; omega
  rw [if_neg (by simp only [hl]; simp), hu]
  simp only [if_true]
  refine ⟨min (off + lc) sd.length, by omega, ?_⟩
  have hres : ∀ n, (resize z.cache n).length = n := by intro n; simp [resize]; omega
  rw [List.take_of_length_le (by simp), List.drop_of_length_le (by rw [hres]; simp)]
  simp

theorem readLoop_spec (unz : Unz) (content : Bytes) (fuel n : Nat) (out : Bytes) (z : Zip) (h : Inv unz content z)
    (hf : z.count - z.cur + 1 < fuel) :
    ∃ z', readLoop unz fuel n out z = .ok (out ++ (content.drop z.pos).take n, z') ∧ Inv unz content z' ∧
      z'.pos = min (z.pos + n) content.length := by
  induction fuel generalizing n out z with
  | zero => omega
  | succ fuel ih =>
    unfold readLoop
    have hpl : z.pos ≤ content.length := by rcases h.pos with h | h <;> omega
    by_cases hn : n = 0
    · subst hn
      exact ⟨z, by simp, h, by omega⟩
    · rw [if_neg hn]
      rcases h.pos with ⟨hc, hp1, hp2, hp3⟩ | ⟨hc, hp⟩
      · rw [if_neg (by omega)]
        have hcached : ∃ p, p ≤ z.stream.data.length ∧
            (if z.cacheIdx = some z.cur then (.ok (true, z) : Except Fail (Bool × Zip)) else cacheBlock unz z.cur z) =
              .ok (true, { z with stream := ⟨z.stream.data, p⟩, cache := Spec.zipBlock content z.blockSize z.cur,
                                  cacheIdx := some z.cur }) := by
          by_cases hci : z.cacheIdx = some z.cur
          · rw [if_pos hci]
            refine ⟨z.stream.pos, h.streamPos, ?_⟩
            rw [← h.cache _ hci, ← hci]
          · rw [if_neg hci]; exact cacheBlock_ok unz content z h z.cur hc
        obtain ⟨p, hpp, hcached⟩ := hcached
        rw [hcached]
        simp only
        obtain ⟨off, lc, hb, hoff, hu⟩ := h.blocks z.cur hc
        rw [hb]
        simp only
        have hcnt := h.cnt
        have hlt : z.cur * z.blockSize < content.length := by
          rw [hcnt] at hc; exact (lt_count_iff _ _ _ h.bs).1 hc
        have hbl : (Spec.zipBlock content z.blockSize z.cur).length = min z.blockSize (content.length - z.cur * z.blockSize) := by
          simp [Spec.zipBlock]
        have hmul : (z.cur + 1) * z.blockSize = z.cur * z.blockSize + z.blockSize := by
          rw [Nat.add_mul, Nat.one_mul]
        have hL := h.lenLt
        have e1 : (z.cur * z.blockSize) % 2 ^ 32 = z.cur * z.blockSize := Nat.mod_eq_of_lt (by omega)
        have e2 : (z.pos + Mem.W - z.cur * z.blockSize) % Mem.W = z.pos - z.cur * z.blockSize := by
          have : z.pos + Mem.W - z.cur * z.blockSize = (z.pos - z.cur * z.blockSize) + Mem.W := by omega
          rw [this, Nat.add_mod_right, Nat.mod_eq_of_lt (by simp only [Mem.W]; omega)]
        rw [e1, e2, hbl]
        have e3 : (min z.blockSize (content.length - z.cur * z.blockSize) + Mem.W - (z.pos - z.cur * z.blockSize)) % Mem.W
            = min z.blockSize (content.length - z.cur * z.blockSize) - (z.pos - z.cur * z.blockSize) := by
          have : min z.blockSize (content.length - z.cur * z.blockSize) + Mem.W - (z.pos - z.cur * z.blockSize)
            = (min z.blockSize (content.length - z.cur * z.blockSize) - (z.pos - z.cur * z.blockSize)) + Mem.W := by omega
          rw [this, Nat.add_mod_right, Nat.mod_eq_of_lt (by simp only [Mem.W]; omega)]
        rw [e3]
        generalize hav : min z.blockSize (content.length - z.cur * z.blockSize) - (z.pos - z.cur * z.blockSize) = avail
        rw [if_neg (by omega)]
        have hcopy : List.take (min n avail) (List.drop (z.pos - z.cur * z.blockSize) (Spec.zipBlock content z.blockSize z.cur))
            = (content.drop z.pos).take (min n avail) := by
          unfold Spec.zipBlock
          rw [List.drop_take, List.drop_drop, List.take_take]
          have : z.cur * z.blockSize + (z.pos - z.cur * z.blockSize) = z.pos := by omega
          rw [this]
          congr 1
          omega
        rw [hcopy]
        have hinv : Inv unz content { z with
            stream := ⟨z.stream.data, p⟩, cache := Spec.zipBlock content z.blockSize z.cur, cacheIdx := some z.cur,
            pos := z.pos + min n avail, cur := if min n avail = avail then z.cur + 1 else z.cur } := by
          refine ⟨h.len, h.lenLt, h.bs, h.cnt, hpp, h.blocks, ?_, ?_⟩
          · intro i hi
            simp only [Option.some.injEq] at hi
            subst hi; rfl
          · simp only
            by_cases hfull : min n avail = avail
            · rw [if_pos hfull, hfull]
              by_cases hnext : z.cur + 1 < z.count
              · left
                have : (z.cur + 1) * z.blockSize < content.length := by
                  rw [hcnt] at hnext; exact (lt_count_iff _ _ _ h.bs).1 hnext
                have hmul2 : (z.cur + 1 + 1) * z.blockSize = (z.cur + 1) * z.blockSize + z.blockSize := by
                  rw [Nat.add_mul (z.cur + 1), Nat.one_mul]
                exact ⟨hnext, by omega, by omega, by omega⟩
              · right
                have : ¬ (z.cur + 1) * z.blockSize < content.length := by
                  intro hh; apply hnext; rw [hcnt]; exact (lt_count_iff _ _ _ h.bs).2 hh
                exact ⟨by omega, by omega⟩
            · rw [if_neg hfull]
              left
              exact ⟨hc, by omega, by omega, by omega⟩
        by_cases hfull : min n avail = avail
        · obtain ⟨z', hz', hi', hp'⟩ := ih (n - min n avail) (out ++ (content.drop z.pos).take (min n avail)) _ hinv (by
            simp only [hfull, if_true]; omega)
          refine ⟨z', ?_, hi', ?_⟩
          · rw [hz']
            simp only [List.append_assoc]
            congr 2
            have : n = min n avail + (n - min n avail) := by omega
            conv => rhs; rw [this]
            rw [List.take_add, List.drop_drop]
          · rw [hp']; simp only; omega
        · have hn0 : n - min n avail = 0 := by omega
          have hmn : min n avail = n := by omega
          rw [hn0]
          cases fuel with
          | zero => omega
          | succ fuel =>
            unfold readLoop
            rw [if_pos rfl]
            refine ⟨_, ?_, hinv, ?_⟩
            · rw [hmn]
            · simp only; omega
      · rw [if_pos hc]
        refine ⟨z, ?_, h, by omega⟩
        rw [hp, List.drop_of_length_le (by omega)]
        simp

theorem seek_spec (unz : Unz) (content : Bytes) (z : Zip) (h : Inv unz content z) (off : Int) (w : Whence) :
    Inv unz content (seek off w z) ∧ (seek off w z).pos = Spec.zipPosAfter content.length z.pos (.seek off w) := by
  have hbs := h.bs
  have hpos : (seek off w z).pos = Spec.zipPosAfter content.length z.pos (.seek off w) := by
    simp only [seek, Spec.zipPosAfter, h.len]
    cases w <;> simp only [Spec.seekTo] <;> (split <;> split <;> omega)
  refine ⟨⟨h.len, h.lenLt, h.bs, h.cnt, h.streamPos, h.blocks, h.cache, ?_⟩, hpos⟩
  have hcur : (seek off w z).cur = (seek off w z).pos / z.blockSize := by
    simp only [seek, hbs, if_true]
  have hle : (seek off w z).pos ≤ content.length := by
    rw [hpos]; simp only [Spec.zipPosAfter]; omega
  generalize hp : (seek off w z).pos = p at *
  rw [hcur]
  have hb : (seek off w z).blockSize = z.blockSize := rfl
  have hcn : (seek off w z).count = z.count := rfl
  rw [hb, hcn]
  have hdm := Nat.div_add_mod p z.blockSize
  have hml := Nat.mod_lt p hbs
  rw [Nat.mul_comm] at hdm
  have hmul : (p / z.blockSize + 1) * z.blockSize = p / z.blockSize * z.blockSize + z.blockSize := by
    rw [Nat.add_mul, Nat.one_mul]
  by_cases hlt : p / z.blockSize < z.count
  · left; exact ⟨hlt, by omega, by omega, hle⟩
  · right
    refine ⟨by omega, ?_⟩
    have : ¬ p / z.blockSize * z.blockSize < content.length := by
      intro hh; apply hlt; rw [h.cnt]; exact (lt_count_iff _ _ _ hbs).2 hh
    omega

/-- Opening a file of blocks, whether their contents can be decompressed or not. -/
theorem open_blocks (content : Bytes) (bs : Nat) (cmp : Nat → Bytes) (sz : Nat → BitVec 32) (hne : content ≠ []) (hbs : 0 < bs)
    (hsum : content.length + bs ≤ 2 ^ 32) (hcmp : ∀ i, i < Spec.zipCount content bs → (cmp i).length < 2 ^ 32) (post : Bytes) (p0 : Nat) :
    ∃ p bl, fromZipped ⟨Spec.zipFile content bs cmp sz ++ post, p0⟩ = .ok (some ⟨⟨Spec.zipFile content bs cmp sz ++ post, p⟩,
        content.length, bs, Spec.zipCount content bs, bl, 0, 0, [], none⟩) ∧ p ≤ (Spec.zipFile content bs cmp sz ++ post).length ∧
      0 < Spec.zipCount content bs ∧
      ∀ i, i < Spec.zipCount content bs → ∃ off, bl[i]? = some ⟨(Spec.zipBlock content bs i).length, (cmp i).length, off⟩ ∧
        off + (cmp i).length ≤ (Spec.zipFile content bs cmp sz ++ post).length ∧
        ((Spec.zipFile content bs cmp sz ++ post).drop off).take (cmp i).length = cmp i := by
  have hL : 0 < content.length := List.length_pos_iff.2 hne
  have hcnt0 : 0 < Spec.zipCount content bs := by
    unfold Spec.zipCount; exact (lt_count_iff _ _ 0 hbs).2 (by omega)
  have hcntle : Spec.zipCount content bs ≤ content.length := by
    unfold Spec.zipCount
    rw [← Nat.lt_add_one_iff, Nat.div_lt_iff_lt_mul hbs, Nat.add_mul, Nat.one_mul]
    have : content.length * 1 ≤ content.length * bs := Nat.mul_le_mul_left _ hbs
    omega
  let items : List Item := (List.range (Spec.zipCount content bs)).map fun i =>
    ⟨Spec.zipBlock content bs i, cmp i, sz i⟩
  have hil : items.length = Spec.zipCount content bs := by simp [items]
  have hhead : (encW 4 (BitVec.ofNat 32 content.length) ++ encW 4 (BitVec.ofNat 32 bs) ++
      encW 4 (BitVec.ofNat 32 (Spec.zipCount content bs))).length = 12 := by simp
  have hfile : Spec.zipFile content bs cmp sz ++ post = (encW 4 (BitVec.ofNat 32 content.length) ++
      encW 4 (BitVec.ofNat 32 bs) ++ encW 4 (BitVec.ofNat 32 (Spec.zipCount content bs))) ++
      (items.map Item.enc).flatten ++ post := by
    simp only [Spec.zipFile, items, List.map_map]
    rfl
  obtain ⟨bl, hscan, hbl, hall⟩ := scan_items items (by
    intro it hit
    simp only [items, List.mem_map, List.mem_range] at hit
    obtain ⟨i, hi, rfl⟩ := hit
    refine ⟨?_, hcmp i hi⟩
    simp [Spec.zipBlock]; omega)
    (encW 4 (BitVec.ofNat 32 content.length) ++ encW 4 (BitVec.ofNat 32 bs) ++
      encW 4 (BitVec.ofNat 32 (Spec.zipCount content bs))) post
  rw [← hfile] at hscan hall
  generalize hdata : Spec.zipFile content bs cmp sz ++ post = data at *
  rw [hhead, hil] at hscan
  have hdl : data.length = 12 + ((items.map Item.enc).flatten).length + post.length := by
    rw [hfile]; simp; omega
  have r1 := Reads.u32 (BitVec.ofNat 32 content.length) [] (encW 4 (BitVec.ofNat 32 bs) ++
    (encW 4 (BitVec.ofNat 32 (Spec.zipCount content bs)) ++ ((items.map Item.enc).flatten ++ post)))
  have r2 := Reads.u32 (BitVec.ofNat 32 bs) (encW 4 (BitVec.ofNat 32 content.length))
    (encW 4 (BitVec.ofNat 32 (Spec.zipCount content bs)) ++ ((items.map Item.enc).flatten ++ post))
  have r3 := Reads.u32 (BitVec.ofNat 32 (Spec.zipCount content bs))
    (encW 4 (BitVec.ofNat 32 content.length) ++ encW 4 (BitVec.ofNat 32 bs))
    ((items.map Item.enc).flatten ++ post)
  have d1 : [] ++ encW 4 (BitVec.ofNat 32 content.length) ++ (encW 4 (BitVec.ofNat 32 bs) ++
    (encW 4 (BitVec.ofNat 32 (Spec.zipCount content bs)) ++ ((items.map Item.enc).flatten ++ post))) = data := by
    rw [hfile]; simp
  have d2 : encW 4 (BitVec.ofNat 32 content.length) ++ encW 4 (BitVec.ofNat 32 bs) ++
    (encW 4 (BitVec.ofNat 32 (Spec.zipCount content bs)) ++ ((items.map Item.enc).flatten ++ post)) = data := by
    rw [hfile]; simp
  have d3 : encW 4 (BitVec.ofNat 32 content.length) ++ encW 4 (BitVec.ofNat 32 bs) ++
    encW 4 (BitVec.ofNat 32 (Spec.zipCount content bs)) ++ ((items.map Item.enc).flatten ++ post) = data := by
    rw [hfile]; simp
  rw [d1] at r1
  rw [d2] at r2
  rw [d3] at r3
  simp only [List.length_append, encW_length, List.length_nil] at r1 r2 r3
  have n1 : (BitVec.ofNat 32 content.length).toNat = content.length := by simp; omega
  have n2 : (BitVec.ofNat 32 bs).toNat = bs := by simp; omega
  have n3 : (BitVec.ofNat 32 (Spec.zipCount content bs)).toNat = Spec.zipCount content bs := by simp; omega
  have hz0 : ((BitVec.ofNat 32 (Spec.zipCount content bs) == 0) || (BitVec.ofNat 32 bs == 0) ||
      (BitVec.ofNat 32 content.length == 0)) = false := by
    have a : BitVec.ofNat 32 (Spec.zipCount content bs) ≠ 0 := fun h => by
      have := congrArg BitVec.toNat h; rw [n3, show (0 : BitVec 32).toNat = 0 from rfl] at this; omega
    have b : BitVec.ofNat 32 bs ≠ 0 := fun h => by
      have := congrArg BitVec.toNat h; rw [n2, show (0 : BitVec 32).toNat = 0 from rfl] at this; omega
    have c : BitVec.ofNat 32 content.length ≠ 0 := fun h => by
      have := congrArg BitVec.toNat h; rw [n1, show (0 : BitVec 32).toNat = 0 from rfl] at this; omega
    simp only [Bool.or_eq_false_iff, beq_eq_false_iff_ne]
    exact ⟨⟨a, b⟩, c⟩
  have hexp : (BitVec.ofNat 32 (Spec.zipCount content bs) !=
      (BitVec.ofNat 32 content.length + BitVec.ofNat 32 bs - 1) / BitVec.ofNat 32 bs) = false := by
    have : BitVec.ofNat 32 (Spec.zipCount content bs) =
        (BitVec.ofNat 32 content.length + BitVec.ofNat 32 bs - 1) / BitVec.ofNat 32 bs := by
      apply BitVec.eq_of_toNat_eq
      have hone : (1 : BitVec 32).toNat = 1 := rfl
      rw [n3, BitVec.toNat_udiv, n2]
      have : (BitVec.ofNat 32 content.length + BitVec.ofNat 32 bs - 1).toNat = content.length + bs - 1 := by
        rw [BitVec.toNat_sub, BitVec.toNat_add, n1, n2, hone]
        omega
      rw [this]; rfl
    rw [this]; simp
  have hzip : fromZipped ⟨data, p0⟩ = .ok (some ⟨⟨data, 12 + ((items.map Item.enc).flatten).length⟩,
      content.length, bs, Spec.zipCount content bs, bl, 0, 0, [], none⟩) := by
    unfold fromZipped
    have hs0 : Rd.seek 0 .beg ⟨data, p0⟩ = .ok ((), ⟨data, 0⟩) := Rd.seek_ok (t := 0) rfl (by omega)
    rw [Rd.bind_ok hs0, Rd.bind_ok r1, Rd.bind_ok r2, Rd.bind_ok r3]
    simp only [hz0, hexp, Bool.false_eq_true, if_false]
    rw [n3, Rd.bind_ok hscan]
    simp [Except.map, n1, n2, n3]
  refine ⟨_, bl, hzip, by omega, hcnt0, fun i hi => ?_⟩
  obtain ⟨off, h1, h2, h3⟩ := hall i (by rw [hil]; exact hi)
  have hii : items[i]'(by rw [hil]; exact hi) = ⟨Spec.zipBlock content bs i, cmp i, sz i⟩ := by simp [items]
  rw [hii] at h1 h2 h3
  exact ⟨off, h1, h2, h3⟩

end Verif.Zip
