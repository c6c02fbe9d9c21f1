import Verif.Spec.File
import Verif.Lemmas.Stream

/-! # Lemmas about the word-level memory streams -/

namespace Verif.Mem

theorem seekInternal_ok {pos len : Nat} {off : Int} {w : Whence} (hp : pos < 2 ^ 62) (hl : len < 2 ^ 62)
    (ho : -(2 ^ 62) ≤ off ∧ off ≤ 2 ^ 62) :
    seekInternal pos len off w = .ok ((Spec.seekTo pos len off w) % 2 ^ 64).toNat := by
  have h1 : pos < 2 ^ 63 := by omega
  have h2 : len < 2 ^ 63 := by omega
  cases w <;> simp only [seekInternal, Spec.seekTo, h1, h2, if_true] <;> rw [if_neg (by omega)]

/-- One step of the reader is one step of the cursor specification. -/
theorem Reader.step_spec (data : Bytes) (pos : Nat) (hp : pos ≤ data.length) (hl : data.length < 2 ^ 62)
    (op : ROp) (ho : match op with
      | .read n => n < 2 ^ 62
      | .seek off _ => -(2 ^ 62) ≤ off ∧ off ≤ 2 ^ 62) :
    Reader.step ⟨data, pos⟩ op =
      .ok (Spec.returned data pos op, ⟨data, Spec.posAfter data.length pos op⟩) := by
  cases op with
  | read n =>
    simp only at ho
    have hm : (pos + n) % W = pos + n := Nat.mod_eq_of_lt (by simp only [W]; omega)
    simp only [Reader.step, Reader.read, hm, Spec.returned, Spec.posAfter]
    by_cases hc : pos + n > data.length
    · have e1 : (data.length + W - pos) % W = data.length - pos := by
        have : data.length + W - pos = (data.length - pos) + W := by omega
        rw [this, Nat.add_mod_right, Nat.mod_eq_of_lt (by simp only [W]; omega)]
      have e2 : (pos + (data.length - pos)) % W = data.length := by
        rw [Nat.mod_eq_of_lt (by simp only [W]; omega)]; omega
      simp only [hc, if_true, e1, e2]
      rw [if_neg (by omega)]
      rw [Nat.min_eq_right (by omega)]
    · simp only [hc, if_false, hm]
      rw [Nat.min_eq_left (by omega)]
      simp
  | seek off w =>
    simp only at ho
    simp only [Reader.step, Reader.seek, seekInternal_ok (Nat.lt_of_le_of_lt hp hl) hl ho, Spec.returned,
      Spec.posAfter]
    generalize ht : Spec.seekTo pos data.length off w = t
    have hb : -(2 ^ 62) ≤ t ∧ t < 2 ^ 63 := by
      subst ht; cases w <;> simp only [Spec.seekTo] <;> omega
    by_cases h0 : 0 ≤ t
    · have e : (t % 2 ^ 64).toNat = t.toNat := by rw [Int.emod_eq_of_lt h0 (by omega)]
      rw [e]
      by_cases h1 : t ≤ data.length
      · rw [if_neg (by omega), if_pos ⟨h0, h1⟩]
      · rw [if_pos (by omega), if_neg (by omega)]
    · have e : t % 2 ^ 64 = t + 2 ^ 64 := by
        rw [← Int.add_emod_right, Int.emod_eq_of_lt (by omega) (by omega)]
      rw [e, if_pos (by omega), if_neg (by omega)]

theorem posAfter_le (len pos : Nat) (h : pos ≤ len) (op : ROp) : Spec.posAfter len pos op ≤ len := by
  cases op with
  | read n => simp only [Spec.posAfter]; omega
  | seek off w => simp only [Spec.posAfter]; split <;> omega

/-! ## Writers -/

theorem represents_ofBytes (bs : Bytes) : Spec.Represents bs (Spec.SFile.ofBytes bs) := by
  refine ⟨rfl, fun i hi => ?_⟩
  have : i < bs.length := hi
  simp [Spec.SFile.ofBytes, this]

/-- Byte of a list after overwriting in place. -/
theorem getElem?_overwrite (v bs : Bytes) (p : Nat) (h : p + bs.length ≤ v.length) (i : Nat) :
    (v.take p ++ bs ++ v.drop (p + bs.length))[i]? =
      if p ≤ i ∧ i < p + bs.length then bs[i - p]? else v[i]? := by
  have hl : (v.take p).length = p := by simp; omega
  have hl2 : (v.take p ++ bs).length = p + bs.length := by simp; omega
  by_cases h1 : i < p
  · rw [if_neg (by omega), List.append_assoc, List.getElem?_append_left (by omega), List.getElem?_take_of_lt h1]
  · by_cases h2 : i < p + bs.length
    · rw [if_pos ⟨by omega, h2⟩, List.getElem?_append_left (by omega), List.getElem?_append_right (by omega), hl]
    · rw [if_neg (by omega), List.getElem?_append_right (by omega), hl2, List.getElem?_drop]
      congr 1; omega

theorem represents_pwrite (v : Bytes) (f : Spec.SFile) (h : Spec.Represents v f)
    (hz : ∀ i, f.len ≤ i → f.byte i = 0) (p : Nat) (bs : Bytes) :
    Spec.Represents
      (let v1 := if p + bs.length > v.length then v ++ List.replicate (p + bs.length - v.length) 0 else v
       v1.take p ++ bs ++ v1.drop (p + bs.length)) (f.pwrite p bs) := by
  obtain ⟨hl, hb⟩ := h
  have hv1 : ∀ v1 : Bytes, v1 = (if p + bs.length > v.length then v ++ List.replicate (p + bs.length - v.length) 0 else v) →
      v1.length = max v.length (p + bs.length) ∧ ∀ i, i < v1.length → v1[i]? = some (f.byte i) := by
    intro v1 e
    subst e
    constructor
    · split <;> (try simp) <;> omega
    · intro i hi
      by_cases hc : p + bs.length > v.length
      · simp only [hc, if_true, List.length_append, List.length_replicate] at hi ⊢
        by_cases h1 : i < v.length
        · rw [List.getElem?_append_left h1]; exact hb i (by omega)
        · rw [List.getElem?_append_right (by omega), List.getElem?_replicate, if_pos (by omega), hz i (by omega)]
      · simp only [hc, if_false] at hi ⊢
        exact hb i (by omega)
  obtain ⟨l1, b1⟩ := hv1 _ rfl
  refine ⟨?_, ?_⟩
  · simp only [Spec.SFile.pwrite, List.length_append, List.length_take, List.length_drop, l1]
    omega
  · intro i hi
    simp only [Spec.SFile.pwrite] at hi ⊢
    rw [getElem?_overwrite _ _ _ (by rw [l1]; omega)]
    by_cases hc : p ≤ i ∧ i < p + bs.length
    · rw [if_pos hc, if_pos hc, List.getElem?_eq_getElem (by omega)]
      rw [List.getD_eq_getElem?_getD, List.getElem?_eq_getElem (by omega)]
      rfl
    · rw [if_neg hc, if_neg hc]
      exact b1 i (by rw [l1]; omega)

theorem Dyn.write_spec (vec : Bytes) (cap pos : Nat) (hv : vec.length ≤ cap) (hc : cap ≤ 2 ^ 61)
    (bs : Bytes) (hb : pos + bs.length ≤ 2 ^ 60) :
    ∃ cap', cap' ≤ 2 ^ 61 ∧ 
    let v1 := if pos + bs.length > vec.length then vec ++ List.replicate (pos + bs.length - vec.length) 0 else vec
    let v2 := v1.take pos ++ bs ++ v1.drop (pos + bs.length)
    v2.length ≤ cap' ∧ Dyn.write bs ⟨vec, cap, pos⟩ = .ok ⟨v2, cap', pos + bs.length⟩ := by
  have hm : (pos + bs.length) % W = pos + bs.length := Nat.mod_eq_of_lt (by simp only [W]; omega)
  have hm2 : (bs.length + cap) % W = bs.length + cap := Nat.mod_eq_of_lt (by simp only [W]; omega)
  have hm3 : (cap * 2) % W = cap * 2 := Nat.mod_eq_of_lt (by simp only [W]; omega)
  generalize e1 : (if pos + bs.length > vec.length then vec ++ List.replicate (pos + bs.length - vec.length) 0
    else vec) = v1
  have l1 : v1.length = max vec.length (pos + bs.length) := by
    subst e1; split <;> (try simp) <;> omega
  have hw : (if bs.length + cap < 1024 then 1024 else cap * 2) ≤ maxSize := by
    simp only [maxSize]; split <;> omega
  have hcpy : memcpy v1 pos bs = .ok (v1.take pos ++ bs ++ v1.drop (pos + bs.length)) := by
    unfold memcpy; rw [if_neg (by omega)]
  refine ⟨max (if pos + bs.length > cap then max cap (if bs.length + cap < 1024 then 1024 else cap * 2) else cap)
    v1.length, ?_, ?_⟩
  · by_cases hneed : pos + bs.length > cap
    · simp only [hneed, if_true]
      split <;> omega
    · simp only [hneed, if_false]; omega
  · refine ⟨?_, ?_⟩
    · simp only [List.length_append, List.length_take, List.length_drop, l1]
      omega
    · simp only [Dyn.write, hm, hm2, hm3]
      rw [if_neg (by omega), if_neg (by simp only [maxSize]; omega), e1, hcpy]

end Verif.Mem
