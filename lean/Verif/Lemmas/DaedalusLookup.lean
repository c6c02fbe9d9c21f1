import Verif.Lemmas.DaedalusLoad

/-! # Lemmas about lookups in the table and about the search for the parent -/

namespace Verif.Daedalus

open Verif.Spec.Daedalus

/-! ## Searching for the parent -/

theorem u32_here (A B : Bytes) (h : 4 ≤ B.length) :
    Rd.u32 ⟨A ++ B, A.length⟩ = .ok (decW 32 (B.take 4), ⟨A ++ B, A.length + 4⟩) := by
  have hl : (B.take 4).length = 4 := by simp; omega
  have := Reads.u32 (decW 32 (B.take 4)) A (B.drop 4)
  rw [encW_decW 4 rfl _ hl, List.append_assoc, List.take_append_drop, hl] at this
  exact this

theorem decW_ne_allOnes (bs : Bytes) (hl : bs.length = 4) (c : Byte) (hc : c ∈ bs) (h : c ≠ 255) :
    decW 32 bs ≠ BitVec.allOnes 32 := by
  intro he
  have h1 := encW_decW (w := 32) 4 rfl bs hl
  rw [he] at h1
  rw [← h1] at hc
  have : encW 4 (BitVec.allOnes 32) = [255, 255, 255, 255] := by decide
  rw [this] at hc
  simp at hc
  exact h hc

theorem seekParent_finds : ∀ (J : Bytes) (n : Nat) (A : Bytes) (x : Byte) (post : Bytes), J.length < n → J.length ≤ 3 →
    (∀ c, J.getLast? = some c → c ≠ 255) →
    seekParent n ⟨A ++ x :: (J ++ (encW 4 (BitVec.allOnes 32) ++ post)), A.length + 4⟩ =
      .ok (true, ⟨A ++ x :: (J ++ (encW 4 (BitVec.allOnes 32) ++ post)), A.length + 1 + J.length + 4⟩) := by
  intro J
  induction J with
  | nil =>
    intro n A x post hn _ _
    obtain ⟨n, rfl⟩ : ∃ m, n = m + 1 := ⟨n - 1, by simp at hn; omega⟩
    unfold seekParent
    have h1 : Rd.seek (-3) .cur ⟨A ++ x :: ([] ++ (encW 4 (BitVec.allOnes 32) ++ post)), A.length + 4⟩ =
        .ok ((), ⟨A ++ x :: ([] ++ (encW 4 (BitVec.allOnes 32) ++ post)), A.length + 1⟩) := by
      refine Rd.seek_ok ?_ (by simp)
      simp only [Rd.seekTarget]
      omega
    rw [Rd.bind_ok h1]
    have h2 := u32_here (A ++ [x]) (encW 4 (BitVec.allOnes 32) ++ post) (by simp)
    rw [List.take_append_of_le_length (by simp), List.take_of_length_le (by simp), decW_encW 4 rfl] at h2
    simp only [List.append_assoc, List.singleton_append, List.length_append, List.length_singleton, List.nil_append] at h2 ⊢
    rw [Rd.bind_ok h2]
    simp
  | cons y J ih =>
    intro n A x post hn hl hlast
    obtain ⟨n, rfl⟩ : ∃ m, n = m + 1 := ⟨n - 1, by simp at hn; omega⟩
    unfold seekParent
    have h1 : Rd.seek (-3) .cur ⟨A ++ x :: (y :: J ++ (encW 4 (BitVec.allOnes 32) ++ post)), A.length + 4⟩ =
        .ok ((), ⟨A ++ x :: (y :: J ++ (encW 4 (BitVec.allOnes 32) ++ post)), A.length + 1⟩) := by
      refine Rd.seek_ok ?_ (by simp)
      simp only [Rd.seekTarget]
      omega
    rw [Rd.bind_ok h1]
    have h2 := u32_here (A ++ [x]) (y :: J ++ (encW 4 (BitVec.allOnes 32) ++ post)) (by simp; omega)
    simp only [List.length_cons] at hl hn
    have hne : decW 32 ((y :: J ++ (encW 4 (BitVec.allOnes 32) ++ post)).take 4) ≠ BitVec.allOnes 32 := by
      obtain ⟨c, hc⟩ : ∃ c, (y :: J).getLast? = some c := by
        cases h : (y :: J).getLast? with
        | none => simp at h
        | some c => exact ⟨c, rfl⟩
      refine decW_ne_allOnes _ (by simp; omega) c ?_ (hlast c hc)
      rw [List.take_append]
      refine List.mem_append_left _ ?_
      rw [List.take_of_length_le (by simp; omega)]
      exact List.mem_of_getLast? hc
    simp only [List.append_assoc, List.singleton_append, List.length_append, List.length_singleton] at h2
    rw [Rd.bind_ok h2, if_neg hne]
    have h3 := ih n (A ++ [x]) y post (by omega) (by omega) (by
      intro c hc
      refine hlast c ?_
      rw [List.getLast?_cons, hc]
      rfl)
    simp only [List.append_assoc, List.singleton_append, List.length_append, List.length_singleton, List.cons_append, List.nil_append] at h3 ⊢
    rw [h3]
    simp only [List.length_cons]
    congr 4
    omega

theorem decW_low (c : Byte) (r : Bytes) : (decW 32 (c :: r)).toNat % 256 = c.toNat := by
  simp only [decW, leNat, BitVec.toNat_ofNat]
  have := c.toNat_lt
  omega

/-- A constant string with one to four bytes of a broken line before the parent -1. -/
theorem recovers_parent (s : LSym) (A : Bytes) (x : Byte) (J post : Bytes) (ht : s.sym.type = .string)
    (hm : s.sym.isMember = false) (hc : s.sym.isConst = true) (hx : x.toNat = 32 ∨ 9 ≤ x.toNat ∧ x.toNat ≤ 13)
    (hJ : J.length ≤ 3) (hlast : ∀ c, J.getLast? = some c → c ≠ 255) :
    s.loadParent ⟨A ++ (x :: J ++ encW 4 (BitVec.allOnes 32)) ++ post, A.length⟩ =
      .ok ({ s with sym := { s.sym with parent := BitVec.allOnes 32 } },
        ⟨A ++ (x :: J ++ encW 4 (BitVec.allOnes 32)) ++ post, A.length + (x :: J ++ encW 4 (BitVec.allOnes 32)).length⟩) := by
  unfold LSym.loadParent
  have h1 := u32_here A (x :: (J ++ (encW 4 (BitVec.allOnes 32) ++ post))) (by simp; omega)
  simp only [List.append_assoc, List.cons_append, List.length_cons, List.length_append, encW_length] at h1 ⊢
  rw [Rd.bind_ok h1]
  have hsp : isSpace (decW 32 ((x :: (J ++ (encW 4 (BitVec.allOnes 32) ++ post))).take 4) &&& 0xFF) = true := by
    rw [isSpace_iff, List.take_succ_cons, decW_low]
    exact hx
  rw [if_pos ⟨ht, hm, hc, hsp⟩]
  have h2 := seekParent_finds J 4 A x post (by omega) hJ hlast
  have h3 : searchParent ⟨A ++ x :: (J ++ (encW 4 (BitVec.allOnes 32) ++ post)), A.length + 4⟩ =
      .ok (BitVec.allOnes 32, ⟨A ++ x :: (J ++ (encW 4 (BitVec.allOnes 32) ++ post)), A.length + 1 + J.length + 4⟩) := by
    unfold searchParent
    rw [Rd.bind_ok (show Rd.tell _ = .ok (A.length + 4, _) from rfl), Rd.bind_ok h2]
    rfl
  rw [Rd.bind_ok h3, Rd.pure_def]
  congr 3
  omega

/-! ## Names -/

theorem toupper_spec (c : Byte) : (toupper c).toNat = if 97 ≤ c.toNat ∧ c.toNat ≤ 122 then c.toNat - 32 else c.toNat := by
  unfold toupper
  by_cases h : 97 ≤ c.toNat ∧ c.toNat ≤ 122
  · have h' : 97 ≤ c ∧ c ≤ 122 := ⟨UInt8.le_iff_toNat_le.mpr h.1, UInt8.le_iff_toNat_le.mpr h.2⟩
    rw [if_pos h', if_pos h, UInt8.toNat_sub_of_le]
    · rfl
    · exact UInt8.le_iff_toNat_le.mpr (by have := h.1; show 32 ≤ c.toNat; omega)
  · have h' : ¬ (97 ≤ c ∧ c ≤ 122) := fun h2 => h ⟨UInt8.le_iff_toNat_le.mp h2.1, UInt8.le_iff_toNat_le.mp h2.2⟩
    rw [if_neg h', if_neg h]

theorem sameLetters_upper (a q : Bytes) (h : Upper a) : sameLetters a q ↔ a = q.map toupper := by
  constructor
  · rintro ⟨hl, hs⟩
    apply List.ext_getElem (by simp [hl])
    intro i h1 h2
    have h2' : i < q.length := by simpa using h2
    have hu := h a[i] (List.getElem_mem h1)
    have := hs i a[i] q[i] (List.getElem?_eq_getElem h1) (List.getElem?_eq_getElem h2')
    rw [List.getElem_map]
    apply UInt8.toNat_inj.mp
    rw [toupper_spec]
    rcases this with e | e | e
    · rw [e] at hu ⊢
      rw [if_neg hu]
    · omega
    · rw [if_pos ⟨e.1, e.2.1⟩]; omega
  · rintro rfl
    refine ⟨by simp, ?_⟩
    intro i x y hx hy
    rw [List.getElem?_map, hy] at hx
    simp only [Option.map_some, Option.some.injEq] at hx
    have := toupper_spec y
    rw [hx] at this
    split at this
    · rename_i hc
      right; right
      exact ⟨hc.1, hc.2, by omega⟩
    · left
      exact UInt8.toNat_inj.mp this

theorem lastIndex_none {p : Sym → Bool} {a : List Sym} (h : lastIndex p a = none) : ∀ s ∈ a, p s = false := by
  induction a with
  | nil => simp
  | cons s a ih =>
    simp only [lastIndex] at h
    split at h
    · cases h
    · rename_i hn
      split at h
      · cases h
      · rename_i hp
        intro t ht
        rcases List.mem_cons.mp ht with rfl | ht
        · simpa using hp
        · exact ih hn t ht

theorem lastIndex_last {p : Sym → Bool} {a : List Sym} {i : Nat} (h : lastIndex p a = some i) :
    ∀ j > i, ∀ s, a[j]? = some s → p s = false := by
  induction a generalizing i with
  | nil => cases h
  | cons s a ih =>
    simp only [lastIndex] at h
    intro j hj t ht
    obtain ⟨j, rfl⟩ : ∃ k, j = k + 1 := ⟨j - 1, by omega⟩
    rw [List.getElem?_cons_succ] at ht
    split at h
    · rename_i i' hi
      simp only [Option.some.injEq] at h
      exact ih hi j (by omega) t ht
    · rename_i hn
      exact lastIndex_none hn t (List.mem_of_getElem? ht)

/-- What a lookup through a map finds. -/
theorem found {sc : Script} {p : Sym → Bool} :
    match (lastIndex p (sc.syms.map LSym.sym)).bind sc.findByIndex with
    | some s => ∃ i : Nat, sc.syms[i]? = some s ∧ p s.sym = true ∧ ∀ j > i, ∀ t : LSym, sc.syms[j]? = some t → p t.sym = false
    | none => ∀ s ∈ sc.syms, p s.sym = false := by
  cases h : lastIndex p (sc.syms.map LSym.sym) with
  | none =>
    intro s hs
    exact lastIndex_none h s.sym (List.mem_map_of_mem hs)
  | some i =>
    obtain ⟨y, hy, hp⟩ := lastIndex_some h
    rw [List.getElem?_map] at hy
    cases hs : sc.syms[i]? with
    | none => rw [hs] at hy; cases hy
    | some s =>
      rw [hs] at hy
      cases hy
      simp only [Option.bind_some, Script.findByIndex, hs]
      refine ⟨i, hs, hp, ?_⟩
      intro j hj t ht
      exact lastIndex_last h j hj t.sym (by rw [List.getElem?_map, ht]; rfl)

/-! ## Instances of a class -/

theorem enumLoop_eq (cls : BitVec 32) : ∀ (r : List LSym) (protos : List (BitVec 32)) (full : List LSym) (pre : List LSym),
    full = pre ++ r → (∀ i s, full[i]? = some s → s.sym.index = BitVec.ofNat 32 i) →
    (∀ x, x ∈ protos ↔ ∃ p ∈ pre, p.sym.type = .prototype ∧ p.sym.parent = cls ∧ p.sym.index = x) →
    ∀ s, (s ∈ enumLoop cls protos r ↔ ∃ i, full[i]? = some s ∧ pre.length ≤ i ∧ s.sym.type = .instance ∧ s.sym.isConst = true ∧
      (s.sym.parent = cls ∨ ∃ j p, j < i ∧ full[j]? = some p ∧ p.sym.type = .prototype ∧ p.sym.parent = cls ∧
        p.sym.index = s.sym.parent)) := by
  intro r
  induction r with
  | nil =>
    intro protos full pre hf hi hp s
    simp only [enumLoop, List.not_mem_nil, false_iff]
    rintro ⟨i, h1, h2, -⟩
    rw [hf, List.append_nil] at h1
    have := (List.getElem?_eq_some_iff.mp h1).1
    omega
  | cons t r ih =>
    intro protos full pre hf hi hp s
    have ht : full[pre.length]? = some t := by rw [hf]; simp
    have hf' : full = (pre ++ [t]) ++ r := by rw [hf]; simp
    have hlen : (pre ++ [t]).length = pre.length + 1 := by simp
    -- the entries behind `t`
    have step : ∀ (P : LSym → Nat → Prop), (∃ i, full[i]? = some s ∧ pre.length ≤ i ∧ P s i) ↔
        (s = t ∧ P t pre.length) ∨ (∃ i, full[i]? = some s ∧ pre.length + 1 ≤ i ∧ P s i) := by
      intro P
      constructor
      · rintro ⟨i, h1, h2, h3⟩
        by_cases hh : i = pre.length
        · subst hh
          rw [ht] at h1
          cases h1
          exact .inl ⟨rfl, h3⟩
        · exact .inr ⟨i, h1, by omega, h3⟩
      · rintro (⟨rfl, h⟩ | ⟨i, h1, h2, h3⟩)
        · exact ⟨pre.length, ht, Nat.le_refl _, h⟩
        · exact ⟨i, h1, by omega, h3⟩
    rw [step (fun s i => s.sym.type = .instance ∧ s.sym.isConst = true ∧
      (s.sym.parent = cls ∨ ∃ j p, j < i ∧ full[j]? = some p ∧ p.sym.type = .prototype ∧ p.sym.parent = cls ∧
        p.sym.index = s.sym.parent))]
    unfold enumLoop
    by_cases hc : t.sym.type = .prototype ∧ t.sym.parent = cls
    · rw [if_pos hc]
      rw [ih (protos ++ [t.sym.index]) full (pre ++ [t]) hf' hi ?_ s, hlen]
      · constructor
        · exact .inr
        · rintro (⟨rfl, h, -⟩ | h)
          · rw [hc.1] at h; cases h
          · exact h
      · intro x
        simp only [List.mem_append, List.mem_singleton, hp x]
        constructor
        · rintro (⟨p, h1, h2⟩ | rfl)
          · exact ⟨p, .inl h1, h2⟩
          · exact ⟨t, .inr rfl, hc.1, hc.2, rfl⟩
        · rintro ⟨p, h1 | rfl, h2⟩
          · exact .inl ⟨p, h1, h2⟩
          · exact .inr h2.2.2.symm
    · rw [if_neg hc]
      have hp' : ∀ x, x ∈ protos ↔ ∃ p ∈ pre ++ [t], p.sym.type = .prototype ∧ p.sym.parent = cls ∧ p.sym.index = x := by
        intro x
        simp only [List.mem_append, List.mem_singleton, hp x]
        constructor
        · rintro ⟨p, h1, h2⟩; exact ⟨p, .inl h1, h2⟩
        · rintro ⟨p, h1 | rfl, h2⟩
          · exact ⟨p, h1, h2⟩
          · exact absurd ⟨h2.1, h2.2.1⟩ hc
      have hpar : t.sym.parent ∈ protos ↔ ∃ j p, j < pre.length ∧ full[j]? = some p ∧ p.sym.type = .prototype ∧
          p.sym.parent = cls ∧ p.sym.index = t.sym.parent := by
        rw [hp]
        constructor
        · rintro ⟨p, h1, h2⟩
          obtain ⟨j, hj, rfl⟩ := List.getElem_of_mem h1
          refine ⟨j, pre[j], hj, ?_, h2⟩
          rw [hf, List.getElem?_append_left hj, List.getElem?_eq_getElem hj]
        · rintro ⟨j, p, h1, h2, h3⟩
          rw [hf, List.getElem?_append_left h1] at h2
          exact ⟨p, List.mem_of_getElem? h2, h3⟩
      by_cases hd : t.sym.type = .instance ∧ t.sym.isConst = true ∧ (t.sym.parent ∈ protos ∨ t.sym.parent = cls)
      · rw [if_pos hd, List.mem_cons, ih protos full (pre ++ [t]) hf' hi hp' s, hlen]
        refine or_congr ⟨?_, ?_⟩ Iff.rfl
        · rintro rfl
          exact ⟨rfl, hd.1, hd.2.1, hd.2.2.symm.imp id hpar.mp⟩
        · rintro ⟨rfl, -⟩; rfl
      · rw [if_neg hd, ih protos full (pre ++ [t]) hf' hi hp' s, hlen]
        constructor
        · exact .inr
        · rintro (⟨rfl, h1, h2, h3⟩ | h)
          · exact absurd ⟨h1, h2, h3.symm.imp hpar.mpr id⟩ hd
          · exact h

theorem enumLoop_sublist (cls : BitVec 32) (r : List LSym) : ∀ protos, (enumLoop cls protos r).Sublist r := by
  induction r with
  | nil => intro p; exact List.Sublist.refl _
  | cons t r ih =>
    intro p
    unfold enumLoop
    split
    · exact (ih _).cons _
    · split
      · exact (ih _).cons_cons _
      · exact (ih _).cons _

/-! ## Local variables -/

theorem isLocalOf_iff (f n : Bytes) : isLocalOf f n = true ↔ LocalName f n := by
  unfold isLocalOf LocalName
  simp only [Bool.and_eq_true, List.isPrefixOf_iff_prefix, beq_iff_eq]
  constructor
  · rintro ⟨⟨r, rfl⟩, h⟩
    rw [List.drop_left] at h
    cases r with
    | nil => simp at h
    | cons c r => simp at h; exact ⟨r, by rw [h]⟩
  · rintro ⟨r, rfl⟩
    exact ⟨⟨46 :: r, rfl⟩, by simp⟩

theorem localsLoop_spec (f : Bytes) (l : List LSym) :
    match localsLoop f l with
    | some v => ∃ x r, l = v ++ x :: r ∧ (∀ s ∈ v, LocalName f s.sym.name) ∧ ¬ LocalName f x.sym.name
    | none => ∀ s ∈ l, LocalName f s.sym.name := by
  induction l with
  | nil => simp [localsLoop]
  | cons s l ih =>
    unfold localsLoop
    by_cases h : isLocalOf f s.sym.name = true
    · rw [if_pos h]
      have hs := (isLocalOf_iff _ _).mp h
      cases hl : localsLoop f l with
      | none =>
        rw [hl] at ih
        simp only [Option.map_none]
        intro t ht
        rcases List.mem_cons.mp ht with rfl | ht
        · exact hs
        · exact ih t ht
      | some v =>
        rw [hl] at ih
        obtain ⟨x, r, h1, h2, h3⟩ := ih
        simp only [Option.map_some]
        refine ⟨x, r, by rw [h1]; rfl, ?_, h3⟩
        intro t ht
        rcases List.mem_cons.mp ht with rfl | ht
        · exact hs
        · exact h2 t ht
    · rw [if_neg h]
      exact ⟨s, l, rfl, by simp, fun hh => h ((isLocalOf_iff _ _).mpr hh)⟩

end Verif.Daedalus
