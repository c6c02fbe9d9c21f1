import Verif.Lemmas.StreamMem

/-!
# C02, C04, C05: memory streams as cursors and files
-/

namespace Verif.Props

open Verif.Mem

/-- Operation sizes that exclude wrap-around of `size_t`/`ssize_t`: reads shorter than `2^62` bytes, seeks by
at most `2^62`. -/
def SmallR : ROp → Prop
  | .read n => n < 2 ^ 62
  | .seek off _ => -(2 ^ 62) ≤ off ∧ off ≤ 2 ^ 62

/-- C02: every history of reads and seeks on a memory reader behaves as the bounded cursor of the
specification: no undefined behaviour, the same bytes, the same final position. -/
theorem c02_reader_refines_cursor (data : Bytes) (hl : data.length < 2 ^ 62) (ops : List ROp)
    (hops : ∀ op ∈ ops, SmallR op) (pos : Nat) (hp : pos ≤ data.length) :
    Reader.run ⟨data, pos⟩ ops =
      .ok ((Spec.runR data pos ops).1, ⟨data, (Spec.runR data pos ops).2⟩) := by
  induction ops generalizing pos with
  | nil => rfl
  | cons op ops ih =>
    have h := Reader.step_spec data pos hp hl op (by have := hops op (by simp); cases op <;> exact this)
    have hp' := posAfter_le data.length pos hp op
    simp only [Reader.run, h, ih (fun o ho => hops o (by simp [ho])) _ hp', Spec.runR]

/-- C02: the position never leaves the buffer. -/
theorem c02_position_in_bounds (data : Bytes) (hl : data.length < 2 ^ 62) (ops : List ROp)
    (hops : ∀ op ∈ ops, SmallR op) :
    ∃ outs r, Reader.run ⟨data, 0⟩ ops = .ok (outs, r) ∧ r.data = data ∧ r.pos ≤ data.length := by
  refine ⟨_, _, c02_reader_refines_cursor data hl ops hops 0 (by omega), rfl, ?_⟩
  have : ∀ (ops : List ROp) (p : Nat), p ≤ data.length → (Spec.runR data p ops).2 ≤ data.length := by
    intro ops
    induction ops with
    | nil => intro p hp; exact hp
    | cons op ops ih => intro p hp; exact ih _ (posAfter_le _ _ hp op)
  exact this ops 0 (by omega)

/-- C02: the unbounded model of the reader used in all other files agrees with the word-level model. -/
theorem c02_model_agrees (data : Bytes) (hl : data.length < 2 ^ 62) (pos : Nat) (hp : pos ≤ data.length) :
    (∀ n, n < 2 ^ 62 → Reader.read n ⟨data, pos⟩ =
      (Rd.read n ⟨data, pos⟩).map (fun x => (x.1, ⟨x.2.data, x.2.pos⟩))) ∧
    (∀ off w, -(2 ^ 62) ≤ off ∧ off ≤ 2 ^ 62 → Reader.seek off w ⟨data, pos⟩ =
      (Rd.seek off w ⟨data, pos⟩).map (fun x => ⟨x.2.data, x.2.pos⟩)) := by
  constructor
  · intro n hn
    have h := Reader.step_spec data pos hp hl (.read n) hn
    simp only [Reader.step] at h
    rw [h, Rd.read_eq _ _ hp]
    simp only [Except.map, Spec.returned, Spec.posAfter]
    congr 2
    by_cases hc : pos + n ≤ data.length
    · rw [Nat.min_eq_left hc]; simp
    · rw [Nat.min_eq_right (by omega), List.take_of_length_le (by simp), List.take_of_length_le (by simp; omega)]
  · intro off w ho
    have h := Reader.step_spec data pos hp hl (.seek off w) ho
    simp only [Reader.step, Spec.returned, Spec.posAfter] at h
    have e : Rd.seekTarget pos data.length off w = Spec.seekTo pos data.length off w := by cases w <;> rfl
    cases hs : Reader.seek off w ⟨data, pos⟩ with
    | error e => rw [hs] at h; simp at h
    | ok r =>
      rw [hs] at h
      simp only [Except.ok.injEq, Prod.mk.injEq, true_and] at h
      simp only [Rd.seek, e, h]
      by_cases hc : 0 ≤ Spec.seekTo pos data.length off w ∧ Spec.seekTo pos data.length off w ≤ data.length
      · rw [if_pos hc, if_neg (by omega)]; rfl
      · rw [if_neg hc, if_pos (by omega)]; rfl

/-- C02: a seek that leaves the range of the offset is undefined in place of being ignored. -/
theorem c02_far_violation (data : Bytes) (pos : Nat) (hp : pos < 2 ^ 63) (off : Int) (h : 2 ^ 63 ≤ pos + off) :
    Reader.run ⟨data, pos⟩ [.seek off .cur] = .error .ub := by
  have : seekInternal pos data.length off .cur = .error .ub := by
    unfold seekInternal
    simp only [if_pos hp]
    exact if_pos (.inr h)
  simp only [Reader.run, Reader.step, Reader.seek, this]

example : (5 : Nat) < 2 ^ 63 ∧ (2 : Int) ^ 63 ≤ ((5 : Nat) : Int) + (2 ^ 63 - 1) := by decide

/-- C02: without the size restriction the claim is false: a read of `2^64 - 1` bytes after the first byte
wraps around and copies from outside of the buffer. -/
theorem c02_wrap_violation :
    Reader.run ⟨[1, 2, 3, 4], 0⟩ [.read 1, .read (2 ^ 64 - 1)] = .error .ub := by decide

example : Reader.run ⟨[1, 2, 3, 4], 0⟩ [.read 3, .seek (-2) .cur, .read 9, .seek 5 .beg, .seek (-1) .end_, .read 1]
    = .ok ([[1, 2, 3], [], [2, 3, 4], [], [], [4]], ⟨[1, 2, 3, 4], 4⟩) := by decide

example : ∀ op ∈ ([.read 3, .seek (-2) .cur] : List ROp), SmallR op := by
  intro op h
  simp only [List.mem_cons, List.not_mem_nil, or_false] at h
  rcases h with rfl | rfl <;> simp [SmallR]

/-- C04: any history of writes and seeks on a growing buffer that stays below `2^60` gives exactly the file
of the specification: the last write to an offset wins, gaps are zero, the length is the highest end. -/
theorem c04_growing_writer_is_file (vec : Bytes) (cap : Nat) (hv : vec.length ≤ cap) (hc : cap ≤ 2 ^ 60)
    (ops : List WOp) (hw : Spec.Within (2 ^ 60) (Spec.SFile.ofBytes vec) 0 ops) :
    ∃ d, Dyn.run ⟨vec, cap, 0⟩ ops = .ok d ∧
      Spec.Represents d.vec (Spec.runW (Spec.SFile.ofBytes vec) 0 ops).1 ∧
      d.pos = (Spec.runW (Spec.SFile.ofBytes vec) 0 ops).2 := by
  have key : ∀ (ops : List WOp) (f : Spec.SFile) (vec : Bytes) (cap pos : Nat), Spec.Represents vec f →
      (∀ i, f.len ≤ i → f.byte i = 0) → vec.length ≤ cap → vec.length ≤ 2 ^ 60 → cap ≤ 2 ^ 61 → pos ≤ 2 ^ 60 →
      Spec.Within (2 ^ 60) f pos ops →
      ∃ d, Dyn.run ⟨vec, cap, pos⟩ ops = .ok d ∧ Spec.Represents d.vec (Spec.runW f pos ops).1 ∧
        d.pos = (Spec.runW f pos ops).2 := by
    intro ops
    induction ops with
    | nil => intro f vec cap pos hr _ _ _ _ _ _; exact ⟨_, rfl, hr, rfl⟩
    | cons op ops ih =>
      intro f vec cap pos hr hz hv hvl hc hp hw
      cases op with
      | write bs =>
        obtain ⟨hb, hw⟩ := hw
        obtain ⟨cap', hc', hl', hwr⟩ := Dyn.write_spec vec cap pos hv hc bs hb
        have hrep := represents_pwrite vec f hr hz pos bs
        have hz' : ∀ i, (f.pwrite pos bs).len ≤ i → (f.pwrite pos bs).byte i = 0 := by
          intro i hi
          simp only [Spec.SFile.pwrite] at hi ⊢
          rw [if_neg (by omega)]; exact hz i (by omega)
        have hlen := hrep.1
        obtain ⟨d, hd, h1, h2⟩ := ih (f.pwrite pos bs) _ cap' (pos + bs.length) hrep hz' hl'
          (by have : vec.length = f.len := hr.1
              rw [hlen]; simp only [Spec.SFile.pwrite]; omega) hc' hb hw
        exact ⟨d, by simp only [Dyn.run, Dyn.step, hwr]; exact hd, h1, h2⟩
      | seek off w =>
        obtain ⟨h0, h1, hw⟩ := hw
        have hln : vec.length = f.len := hr.1
        have hs : Dyn.seek off w ⟨vec, cap, pos⟩ = .ok ⟨vec, cap, (Spec.seekTo pos f.len off w).toNat⟩ := by
          have e : seekInternal pos vec.length off w = .ok ((Spec.seekTo pos vec.length off w) % 2 ^ 64).toNat := by
            refine seekInternal_ok (by omega) (by omega) ?_
            rw [← hln] at h0 h1
            cases w <;> simp only [Spec.seekTo] at h0 h1 <;> omega
          simp only [Dyn.seek, e]
          rw [hln, Int.emod_eq_of_lt h0 (by omega)]
        obtain ⟨d, hd, h2, h3⟩ := ih f vec cap (Spec.seekTo pos f.len off w).toNat hr hz hv hvl hc (by omega) hw
        exact ⟨d, by simp only [Dyn.run, Dyn.step, hs]; exact hd, h2, h3⟩
  exact key ops _ vec cap 0 (represents_ofBytes vec)
    (by intro i hi
        have : vec.length ≤ i := hi
        simp [Spec.SFile.ofBytes, this])
    hv (by omega) (by omega) (by omega) hw

/-- C04: the restriction on seeks is needed: seeking in front of the start and writing is undefined. -/
theorem c04_negative_seek_violation :
    Dyn.run ⟨[], 0, 0⟩ [.write [1, 2, 3, 4], .seek (-1) .beg, .write [5, 6]] = .error .ub := by decide

example : (Dyn.run ⟨[], 0, 0⟩ [.write [1, 2, 3, 4], .seek 1 .beg, .write [9], .seek 6 .beg, .write [7]]).map Dyn.vec
    = .ok [1, 9, 3, 4, 0, 0, 7] := by decide

example : Spec.Within (2 ^ 60) (Spec.SFile.ofBytes []) 0 [.write [1, 2], .seek 1 .beg, .write [9]] := by
  simp [Spec.Within, Spec.seekTo]

/-- Operation sizes that exclude wrap-around. -/
def SmallW : WOp → Prop
  | .write bs => bs.length < 2 ^ 62
  | .seek off _ => -(2 ^ 62) ≤ off ∧ off ≤ 2 ^ 62

/-- C05: any history of writes and seeks on a fixed buffer is free of undefined behaviour, keeps every byte
outside of the buffer, and inside gives exactly the truncated writes of the specification. -/
theorem c05_fixed_writer (mem : Bytes) (base len : Nat) (hm : base + len ≤ mem.length) (hl : len < 2 ^ 62)
    (ops : List WOp) (hops : ∀ op ∈ ops, SmallW op) :
    let r := Spec.runF len (fun i => mem.getD (base + i) 0) 0 ops
    ∃ s, Static.run ⟨mem, base, len, 0⟩ ops = .ok s ∧ s.mem.length = mem.length ∧ s.pos = r.2 ∧
      (∀ i, i < base ∨ base + len ≤ i → s.mem[i]? = mem[i]?) ∧
      (∀ i, i < len → s.mem[base + i]? = some (r.1 i)) := by
  have key : ∀ (ops : List WOp) (m : Bytes) (f : Nat → Byte) (pos : Nat), (∀ op ∈ ops, SmallW op) →
      m.length = mem.length → pos ≤ len → (∀ i, i < base ∨ base + len ≤ i → m[i]? = mem[i]?) →
      (∀ i, i < len → m[base + i]? = some (f i)) →
      ∃ s, Static.run ⟨m, base, len, pos⟩ ops = .ok s ∧ s.mem.length = mem.length ∧
        s.pos = (Spec.runF len f pos ops).2 ∧ (∀ i, i < base ∨ base + len ≤ i → s.mem[i]? = mem[i]?) ∧
        (∀ i, i < len → s.mem[base + i]? = some ((Spec.runF len f pos ops).1 i)) := by
    intro ops
    induction ops with
    | nil => intro m f pos _ h1 _ h2 h3; exact ⟨_, rfl, h1, rfl, h2, h3⟩
    | cons op ops ih =>
      intro m f pos hops h1 hp h2 h3
      have hop := hops op (by simp)
      have hrest : ∀ o ∈ ops, SmallW o := fun o ho => hops o (by simp [ho])
      cases op with
      | write bs =>
        have hbs : bs.length < 2 ^ 62 := hop
        have hmod : (pos + bs.length) % W = pos + bs.length := Nat.mod_eq_of_lt (by simp only [W]; omega)
        have en : (if (pos + bs.length) % W > len then (len + W - pos) % W else bs.length)
            = min bs.length (len - pos) := by
          rw [hmod]
          split
          · have : len + W - pos = (len - pos) + W := by omega
            rw [this, Nat.add_mod_right, Nat.mod_eq_of_lt (by simp only [W]; omega)]; omega
          · omega
        have hlt : (bs.take (min bs.length (len - pos))).length = min bs.length (len - pos) := by simp
        have hcpy : memcpy m (base + pos) (bs.take (min bs.length (len - pos))) =
            .ok (m.take (base + pos) ++ bs.take (min bs.length (len - pos)) ++
              m.drop (base + pos + min bs.length (len - pos))) := by
          unfold memcpy
          rw [hlt, if_neg (by omega)]
        have hpm : (pos + min bs.length (len - pos)) % W = pos + min bs.length (len - pos) :=
          Nat.mod_eq_of_lt (by simp only [W]; omega)
        have hget := getElem?_overwrite m (bs.take (min bs.length (len - pos))) (base + pos) (by rw [hlt]; omega)
        rw [hlt] at hget
        obtain ⟨s, hs, r1, r2, r3, r4⟩ := ih
          (m.take (base + pos) ++ bs.take (min bs.length (len - pos)) ++
            m.drop (base + pos + min bs.length (len - pos)))
          (fun i => if pos ≤ i ∧ i < pos + min bs.length (len - pos) then bs.getD (i - pos) 0 else f i)
          (pos + min bs.length (len - pos)) hrest
          (by simp only [List.length_append, List.length_take, List.length_drop]; omega)
          (by omega)
          (by intro i hi
              rw [hget i, if_neg (by omega)]; exact h2 i hi)
          (by intro i hi
              rw [hget (base + i)]
              by_cases hc : pos ≤ i ∧ i < pos + min bs.length (len - pos)
              · rw [if_pos (by omega), if_pos hc, List.getElem?_take_of_lt (by omega)]
                have e : base + i - (base + pos) = i - pos := by omega
                rw [e, List.getD_eq_getElem?_getD, List.getElem?_eq_getElem (by omega)]
                rfl
              · rw [if_neg (by omega), if_neg hc]; exact h3 i hi)
        exact ⟨s, by simp only [Static.run, Static.step, Static.write, en, hcpy, hpm]; exact hs, r1, r2, r3, r4⟩
      | seek off w =>
        have ho : -(2 ^ 62) ≤ off ∧ off ≤ 2 ^ 62 := hop
        have hs : Static.seek off w ⟨m, base, len, pos⟩ = .ok ⟨m, base, len,
            if 0 ≤ Spec.seekTo pos len off w ∧ Spec.seekTo pos len off w ≤ len
            then (Spec.seekTo pos len off w).toNat else pos⟩ := by
          simp only [Static.seek, seekInternal_ok (Nat.lt_of_le_of_lt hp hl) hl ho]
          generalize ht : Spec.seekTo pos len off w = t
          have hb : -(2 ^ 62) ≤ t ∧ t < 2 ^ 63 := by
            subst ht; cases w <;> simp only [Spec.seekTo] <;> omega
          by_cases h0 : 0 ≤ t
          · rw [Int.emod_eq_of_lt h0 (by omega)]
            by_cases h1 : t ≤ len
            · rw [if_neg (by omega), if_pos ⟨h0, h1⟩]
            · rw [if_pos (by omega), if_neg (by omega)]
          · have e : t % 2 ^ 64 = t + 2 ^ 64 := by
              rw [← Int.add_emod_right, Int.emod_eq_of_lt (by omega) (by omega)]
            rw [e, if_pos (by omega), if_neg (by omega)]
        obtain ⟨s, hs', r⟩ := ih m f
          (if 0 ≤ Spec.seekTo pos len off w ∧ Spec.seekTo pos len off w ≤ len
            then (Spec.seekTo pos len off w).toNat else pos) hrest h1 (by split <;> omega) h2 h3
        exact ⟨s, by simp only [Static.run, Static.step, hs]; exact hs', r⟩
  exact key ops mem _ 0 hops rfl (by omega) (by simp)
    (by intro i hi
        rw [List.getD_eq_getElem?_getD, List.getElem?_eq_getElem (by omega)]
        rfl)

example : (Static.run ⟨[9, 9, 0, 0, 0, 9, 9], 2, 3, 0⟩ [.write [1], .seek 7 .beg, .write [2, 3, 4, 5]]).map Static.mem
    = .ok [9, 9, 1, 2, 3, 9, 9] := by decide

end Verif.Props
