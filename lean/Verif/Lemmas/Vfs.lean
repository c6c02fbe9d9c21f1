import Verif.Spec.Vfs

/-!
# Lemmas about names, sets of nodes and paths
-/

namespace Verif.Vfs

open Verif.Spec

/-! ## Names -/

/-- A statement about all bytes from a check of all 256 of them. -/
theorem forall_byte {P : Byte → Prop} (h : ∀ n : Fin 256, P (UInt8.ofFin n)) (c : Byte) : P c := by
  have := h c.toFin
  simpa using this

theorem tolower_eq_iff (a b : Byte) : tolower a = tolower b ↔ foldByte a = foldByte b := by
  have ha := a.toNat_lt
  have hb := b.toNat_lt
  have e : ∀ c : Byte, (foldByte c).toNat = if 65 ≤ c.toNat ∧ c.toNat ≤ 90 then c.toNat + 32 else c.toNat := by
    intro c
    unfold foldByte
    have h1 : (65 ≤ c ∧ c ≤ 90) ↔ (65 ≤ c.toNat ∧ c.toNat ≤ 90) := by
      constructor <;> intro h <;> exact h
    by_cases h : 65 ≤ c ∧ c ≤ 90
    · rw [if_pos h, if_pos (h1.1 h)]
      have := (h1.1 h).2
      rw [UInt8.toNat_add]
      simp; omega
    · rw [if_neg h, if_neg (fun h' => h (h1.2 h'))]
  rw [← UInt8.toNat_inj, e a, e b]
  unfold tolower
  dsimp only
  split <;> split <;> split <;> split <;> split <;> split <;> omega

theorem iequals_iff (a b : Bytes) : iequals a b = true ↔ fold a = fold b := by
  induction a generalizing b with
  | nil => cases b <;> simp [iequals, fold]
  | cons x xs ih =>
    cases b with
    | nil => simp [iequals, fold]
    | cons y ys =>
      have := ih ys
      simp only [fold] at this
      simp [iequals, fold, this, tolower_eq_iff]

theorem icompare_irrefl (a : Bytes) : icompare a a = false := by
  induction a with
  | nil => rfl
  | cons x xs ih => simp [icompare, ih]

theorem icompare_trans {a b c : Bytes} (h1 : icompare a b = true) (h2 : icompare b c = true) :
    icompare a c = true := by
  induction a generalizing b c with
  | nil =>
    cases c with
    | nil => cases b <;> simp [icompare] at h2
    | cons z zs => rfl
  | cons x xs ih =>
    cases b with
    | nil => simp [icompare] at h1
    | cons y ys =>
      cases c with
      | nil => simp [icompare] at h2
      | cons z zs =>
        simp only [icompare] at h1 h2 ⊢
        by_cases hxy : tolower x < tolower y
        · by_cases hyz : tolower y < tolower z
          · rw [if_pos (by omega)]
          · rw [if_neg hyz] at h2
            by_cases hzy : tolower z < tolower y
            · rw [if_pos hzy] at h2; cases h2
            · rw [if_pos (by omega)]
        · rw [if_neg hxy] at h1
          by_cases hyx : tolower y < tolower x
          · rw [if_pos hyx] at h1; cases h1
          · rw [if_neg hyx] at h1
            by_cases hyz : tolower y < tolower z
            · rw [if_pos (by omega)]
            · rw [if_neg hyz] at h2
              by_cases hzy : tolower z < tolower y
              · rw [if_pos hzy] at h2; cases h2
              · rw [if_neg hzy] at h2
                rw [if_neg (by omega), if_neg (by omega)]
                exact ih h1 h2

theorem icompare_asymm {a b : Bytes} (h : icompare a b = true) : icompare b a = false := by
  cases hb : icompare b a with
  | false => rfl
  | true => have := icompare_trans h hb; rw [icompare_irrefl] at this; cases this

/-- Names that are not ordered are equal ignoring case, and the other way around. -/
theorem incomparable_iff (a b : Bytes) :
    (icompare a b = false ∧ icompare b a = false) ↔ fold a = fold b := by
  induction a generalizing b with
  | nil => cases b <;> simp [icompare, fold]
  | cons x xs ih =>
    cases b with
    | nil => simp [icompare, fold]
    | cons y ys =>
      have := ih ys
      simp only [fold] at this
      simp only [icompare, fold, List.map_cons, List.cons.injEq, ← this, ← tolower_eq_iff]
      by_cases h1 : tolower x < tolower y
      · have : ¬ tolower x = tolower y := by omega
        simp [h1, this]
      · by_cases h2 : tolower y < tolower x
        · have : ¬ tolower x = tolower y := by omega
          simp [h1, h2, this]
        · have : tolower x = tolower y := by omega
          simp [h1, h2, this]

theorem icompare_congr {a a' b : Bytes} (h : fold a = fold a') : icompare a b = icompare a' b := by
  obtain ⟨h1, h2⟩ := (incomparable_iff a a').2 h
  cases hb : icompare a b with
  | true =>
    cases hc : icompare a' b with
    | true => rfl
    | false =>
      cases hd : icompare b a' with
      | true => have := icompare_trans hb hd; rw [h1] at this; cases this
      | false =>
        have e := (incomparable_iff a' b).1 ⟨hc, hd⟩
        have := ((incomparable_iff a b).2 (h.trans e)).1
        rw [hb] at this; cases this
  | false =>
    cases hc : icompare a' b with
    | false => rfl
    | true =>
      cases hd : icompare b a with
      | true => have := icompare_trans hc hd; rw [h2] at this; cases this
      | false =>
        have e := (incomparable_iff a b).1 ⟨hb, hd⟩
        have := ((incomparable_iff a' b).2 (h.symm.trans e)).1
        rw [hc] at this; cases this

theorem isspace_iff (c : Byte) : isspace c = true ↔ c ∈ ([32, 9, 10, 11, 12, 13] : Bytes) := by
  have : ∀ c : Byte, isspace c = decide (c ∈ ([32, 9, 10, 11, 12, 13] : Bytes)) :=
    forall_byte (by decide +kernel)
  rw [this]; simp

theorem rtrim_append_space (s : Bytes) (c : Byte) (h : isspace c = true) : rtrim (s ++ [c]) = rtrim s := by
  have hc := (isspace_iff c).1 h
  induction s with
  | nil => simp [rtrim, hc]
  | cons x xs ih => simp only [List.cons_append, rtrim, ih]

theorem rtrim_append_other (s : Bytes) (c : Byte) (h : isspace c = false) : rtrim (s ++ [c]) = s ++ [c] := by
  have hc : c ∉ ([32, 9, 10, 11, 12, 13] : Bytes) := by
    intro h'; rw [(isspace_iff c).2 h'] at h; cases h
  induction s with
  | nil => simp only [List.nil_append, rtrim, if_neg hc]
  | cons x xs ih =>
    simp only [List.cons_append, rtrim, ih]
    cases hx : xs ++ [c] with
    | nil => simp at hx
    | cons y ys => rfl

theorem trim_eq (s : Bytes) : trim s = rtrim s := by
  have : ∀ r : Bytes, (r.dropWhile isspace).reverse = rtrim r.reverse := by
    intro r
    induction r with
    | nil => rfl
    | cons c cs ih =>
      cases h : isspace c with
      | true => simp only [List.dropWhile_cons, h, if_true, List.reverse_cons, ih, rtrim_append_space _ _ h]
      | false =>
        simp only [List.dropWhile_cons, h, List.reverse_cons, rtrim_append_other _ _ h]
        simp
  have h := this s.reverse
  simpa [trim] using h

theorem rtrim_rtrim (s : Bytes) : rtrim (rtrim s) = rtrim s := by
  induction s with
  | nil => rfl
  | cons c cs ih =>
    simp only [rtrim]
    cases h : rtrim cs with
    | nil =>
      dsimp only
      split
      · rfl
      · rename_i hc; simp only [rtrim, if_neg hc]
    | cons x xs =>
      rw [h] at ih
      simp only [rtrim] at ih ⊢
      rw [ih]

theorem fold_rtrim_congr {a b : Bytes} (h : fold a = fold b) : fold (rtrim a) = fold (rtrim b) := by
  induction a generalizing b with
  | nil => cases b <;> simp [fold] at h ⊢
  | cons x xs ih =>
    cases b with
    | nil => simp [fold] at h
    | cons y ys =>
      simp only [fold, List.map_cons, List.cons.injEq] at h
      have hi := ih (b := ys) h.2
      have hsp : x ∈ ([32, 9, 10, 11, 12, 13] : Bytes) ↔ y ∈ ([32, 9, 10, 11, 12, 13] : Bytes) := by
        have : ∀ c : Byte, (c ∈ ([32, 9, 10, 11, 12, 13] : Bytes)) ↔ foldByte c ∈ ([32, 9, 10, 11, 12, 13] : Bytes) :=
          forall_byte (by decide +kernel)
        rw [this x, this y, h.1]
      simp only [rtrim]
      cases hx : rtrim xs with
      | nil =>
        rw [hx] at hi
        cases hy : rtrim ys with
        | nil =>
          dsimp only
          by_cases hs : x ∈ ([32, 9, 10, 11, 12, 13] : Bytes)
          · rw [if_pos hs, if_pos (hsp.1 hs)]
          · rw [if_neg hs, if_neg (fun h' => hs (hsp.2 h'))]
            simp [fold, h.1]
        | cons z zs => rw [hy] at hi; simp [fold] at hi
      | cons w ws =>
        rw [hx] at hi
        cases hy : rtrim ys with
        | nil => rw [hy] at hi; simp [fold] at hi
        | cons z zs =>
          rw [hy] at hi
          simp only [fold, List.map_cons] at hi ⊢
          rw [h.1, hi]

theorem key_clean {n : Bytes} (h : Clean n) : key n = fold n := by unfold key; rw [h]

theorem key_trim (n : Bytes) : key (trim n) = key n := by
  unfold key; rw [trim_eq, rtrim_rtrim]

theorem fold_trim (n : Bytes) : fold (trim n) = key n := by unfold key; rw [trim_eq]

/-! ## Sets of nodes -/

theorem Ordered.tail {x : Node} {cs : List Node} (h : Ordered (x :: cs)) : Ordered cs := (List.pairwise_cons.1 h).2

theorem above_cons (name : Bytes) (x : Node) (cs : List Node) :
    above name (x :: cs) = if icompare x.name name then above name cs else x :: cs := by
  unfold above; rw [List.dropWhile_cons]

theorem below_cons (name : Bytes) (x : Node) (cs : List Node) :
    below name (x :: cs) = if icompare x.name name then x :: below name cs else [] := by
  unfold below; rw [List.takeWhile_cons]

theorem below_above (name : Bytes) (cs : List Node) : below name cs ++ above name cs = cs :=
  List.takeWhile_append_dropWhile

theorem setFind_cons (name : Bytes) (x : Node) (cs : List Node) :
    setFind name (x :: cs) = if icompare x.name name then setFind name cs
      else if icompare name x.name then none else some x := by
  unfold setFind
  rw [above_cons]
  cases icompare x.name name <;> rfl

/-- Entries are found by their name ignoring case. -/
theorem setFind_eq (name : Bytes) (cs : List Node) (h : Ordered cs) :
    setFind name cs = cs.find? (fun x => fold x.name == fold name) := by
  induction cs with
  | nil => rfl
  | cons x cs ih =>
    rw [setFind_cons, List.find?_cons]
    cases h1 : icompare x.name name with
    | true =>
      have hne : ¬ fold x.name = fold name := fun e => by
        have := ((incomparable_iff _ _).2 e).1; rw [h1] at this; cases this
      rw [if_pos rfl, ih h.tail, beq_eq_false_iff_ne.2 hne]
    | false =>
      rw [if_neg (by simp)]
      cases h2 : icompare name x.name with
      | true =>
        have hne : ¬ fold x.name = fold name := fun e => by
          have := ((incomparable_iff _ _).2 e).2; rw [h2] at this; cases this
        rw [if_pos rfl, beq_eq_false_iff_ne.2 hne]
        symm
        simp only [List.find?_eq_none]
        intro y hy he
        have hxy := (List.pairwise_cons.1 h).1 y hy
        have e : fold y.name = fold name := by simpa using he
        have := icompare_trans h2 hxy
        have hi := ((incomparable_iff _ _).2 e).2
        rw [this] at hi; cases hi
      | false =>
        rw [if_neg (by simp)]
        have e := (incomparable_iff _ _).1 ⟨h1, h2⟩
        rw [beq_iff_eq.2 e]

theorem find?_fold_name {cs : List Node} {k : Bytes} {x : Node}
    (h : cs.find? (fun x => fold x.name == k) = some x) : fold x.name = k := by
  have := List.find?_some h
  simpa using this

theorem childIn_eq (name : Bytes) (cs : List Node) (h : Ordered cs) : childIn name cs = entry cs name := by
  unfold childIn entry
  rw [setFind_eq _ _ h, fold_trim]
  cases hf : cs.find? (fun x => fold x.name == key name) with
  | none => rfl
  | some x =>
    have e := find?_fold_name hf
    rw [← fold_trim] at e
    simp only [(iequals_iff _ _).2 e, if_true]

theorem entry_fold {cs : List Node} {n : Bytes} {x : Node} (h : entry cs n = some x) : fold x.name = key n :=
  find?_fold_name h

theorem entry_mem {cs : List Node} {n : Bytes} {x : Node} (h : entry cs n = some x) : x ∈ cs :=
  List.mem_of_find?_eq_some h

/-- In an ordered set an element is what is found under its name. -/
theorem find?_self {cs : List Node} (h : Ordered cs) {x : Node} (hx : x ∈ cs) :
    cs.find? (fun y => fold y.name == fold x.name) = some x := by
  induction cs with
  | nil => cases hx
  | cons y cs ih =>
    rw [List.find?_cons]
    rcases List.mem_cons.1 hx with rfl | hm
    · simp
    · have hlt := (List.pairwise_cons.1 h).1 x hm
      have hne : ¬ fold y.name = fold x.name := fun e => by
        have := ((incomparable_iff _ _).2 e).1; rw [hlt] at this; cases this
      rw [beq_eq_false_iff_ne.2 hne]
      exact ih h.tail hm

/-! ### Shape of an ordered set around a name -/

theorem mem_below {name : Bytes} {cs : List Node} {x : Node} (h : x ∈ below name cs) : icompare x.name name = true := by
  induction cs with
  | nil => simp [below] at h
  | cons y cs ih =>
    rw [below_cons] at h
    split at h
    · rcases List.mem_cons.1 h with rfl | h
      · assumption
      · exact ih h
    · cases h

theorem mem_above {name : Bytes} {cs : List Node} (ho : Ordered cs) {x : Node} (h : x ∈ above name cs) :
    icompare x.name name = false := by
  induction cs with
  | nil => simp [above] at h
  | cons y cs ih =>
    rw [above_cons] at h
    split at h
    · exact ih ho.tail h
    · rename_i hy
      have hy : icompare y.name name = false := by simpa using hy
      rcases List.mem_cons.1 h with rfl | h
      · exact hy
      · have hlt := (List.pairwise_cons.1 ho).1 x h
        cases hc : icompare x.name name with
        | false => rfl
        | true => have := icompare_trans hlt hc; rw [hy] at this; cases this

/-- Elements behind the first one that is not less are greater. -/
theorem mem_above_tail {name : Bytes} {cs : List Node} (ho : Ordered cs) {x : Node}
    (h : x ∈ (above name cs).drop 1) : icompare name x.name = true := by
  have hsub : Ordered (above name cs) := List.Pairwise.sublist (List.dropWhile_sublist _) ho
  cases ha : above name cs with
  | nil => rw [ha] at h; simp at h
  | cons y ys =>
    rw [ha] at h hsub
    have hx : x ∈ ys := by simpa using h
    have hlt := (List.pairwise_cons.1 hsub).1 x hx
    have hy := mem_above (x := y) ho (by rw [ha]; simp)
    cases hc : icompare name x.name with
    | true => rfl
    | false =>
      cases hd : icompare x.name name with
      | true => have := icompare_trans hlt hd; rw [hy] at this; cases this
      | false =>
        have e := (incomparable_iff _ _).1 ⟨hc, hd⟩
        have := ((incomparable_iff y.name name).2)
        cases hn : icompare name y.name with
        | true => have := icompare_trans hn hlt; rw [hc] at this; cases this
        | false =>
          have e2 := (incomparable_iff _ _).1 ⟨hy, hn⟩
          have := ((incomparable_iff _ _).2 (e2.trans e)).1
          rw [hlt] at this; cases this

/-- If nothing is found, everything behind is greater. -/
theorem mem_above_none {name : Bytes} {cs : List Node} (ho : Ordered cs) (hf : setFind name cs = none) {x : Node}
    (h : x ∈ above name cs) : icompare name x.name = true := by
  unfold setFind at hf
  cases ha : above name cs with
  | nil => rw [ha] at h; cases h
  | cons y ys =>
    rw [ha] at hf
    dsimp only at hf
    split at hf
    · rename_i hlt
      rcases List.mem_cons.1 (ha ▸ h) with rfl | hx
      · exact hlt
      · exact mem_above_tail ho (by rw [ha]; exact hx)
    · cases hf

theorem ordered_below {name : Bytes} {cs : List Node} (h : Ordered cs) : Ordered (below name cs) :=
  List.Pairwise.sublist (List.takeWhile_sublist _) h

theorem ordered_above {name : Bytes} {cs : List Node} (h : Ordered cs) : Ordered (above name cs) :=
  List.Pairwise.sublist (List.dropWhile_sublist _) h

theorem ordered_erase {name : Bytes} {cs : List Node} (h : Ordered cs) : Ordered (setErase name cs) := by
  have : (setErase name cs).Sublist cs := by
    conv => rhs; rw [← below_above name cs]
    exact List.Sublist.append (List.Sublist.refl _) (List.drop_sublist _ _)
  exact List.Pairwise.sublist this h

theorem mem_erase {name : Bytes} {cs : List Node} {x : Node} (h : x ∈ setErase name cs) : x ∈ cs := by
  have : (setErase name cs).Sublist cs := by
    conv => rhs; rw [← below_above name cs]
    exact List.Sublist.append (List.Sublist.refl _) (List.drop_sublist _ _)
  exact this.subset h

/-- Putting a node between the smaller and the greater ones keeps the order. -/
theorem ordered_mid {n : Node} {l r : List Node} (hl : Ordered l) (hr : Ordered r)
    (h1 : ∀ x ∈ l, icompare x.name n.name = true) (h2 : ∀ x ∈ r, icompare n.name x.name = true) :
    Ordered (l ++ n :: r) := by
  unfold Ordered
  rw [List.pairwise_append]
  refine ⟨hl, List.pairwise_cons.2 ⟨h2, hr⟩, ?_⟩
  intro a ha b hb
  rcases List.mem_cons.1 hb with rfl | hb
  · exact h1 a ha
  · exact icompare_trans (h1 a ha) (h2 b hb)

theorem ordered_insert {n : Node} {cs : List Node} (h : Ordered cs) : Ordered (setInsert n cs).1 := by
  unfold setInsert
  cases hf : setFind n.name cs with
  | some x => exact h
  | none =>
    exact ordered_mid (ordered_below h) (ordered_above h) (fun x => mem_below) (fun x hx => mem_above_none h hf hx)

theorem ordered_replace {n : Node} {cs : List Node} (h : Ordered cs) : Ordered (setReplace n cs) :=
  ordered_mid (ordered_below h) (List.Pairwise.sublist (List.drop_sublist _ _) (ordered_above h))
    (fun x => mem_below) (fun x hx => mem_above_tail h hx)

theorem mem_insert {n : Node} {cs : List Node} {x : Node} (h : x ∈ (setInsert n cs).1) : x = n ∨ x ∈ cs := by
  unfold setInsert at h
  cases hf : setFind n.name cs with
  | some y => rw [hf] at h; exact Or.inr h
  | none =>
    rw [hf] at h
    simp only [List.mem_append, List.mem_cons] at h
    rw [← below_above n.name cs, List.mem_append]
    rcases h with h | h | h
    · exact Or.inr (Or.inl h)
    · exact Or.inl h
    · exact Or.inr (Or.inr h)

theorem mem_replace {n : Node} {cs : List Node} {x : Node} (h : x ∈ setReplace n cs) : x = n ∨ x ∈ cs := by
  unfold setReplace at h
  simp only [List.mem_append, List.mem_cons] at h
  rw [← below_above n.name cs, List.mem_append]
  rcases h with h | h | h
  · exact Or.inr (Or.inl h)
  · exact Or.inl h
  · exact Or.inr (Or.inr (List.mem_of_mem_drop h))

theorem ordered_remove {name : Bytes} {cs : List Node} (h : Ordered cs) : Ordered (removeIn name cs).1 := by
  unfold removeIn
  split
  · exact h
  · split
    · exact ordered_erase h
    · exact h

theorem mem_remove {name : Bytes} {cs : List Node} {x : Node} (h : x ∈ (removeIn name cs).1) : x ∈ cs := by
  unfold removeIn at h
  split at h
  · exact h
  · split at h
    · exact mem_erase h
    · exact h

theorem ordered_create {n : Node} {cs : List Node} (h : Ordered cs) : Ordered (createIn n cs).1 :=
  ordered_insert (ordered_remove h)

theorem mem_create {n : Node} {cs : List Node} {x : Node} (h : x ∈ (createIn n cs).1) : x = n ∨ x ∈ cs := by
  rcases mem_insert h with h | h
  · exact Or.inl h
  · exact Or.inr (mem_remove h)

/-! ### Finding after a change -/

theorem find?_append_gt {k : Bytes} {l : List Node} (h : ∀ x ∈ l, fold x.name ≠ k) :
    l.find? (fun x => fold x.name == k) = none := by
  rw [List.find?_eq_none]
  intro x hx
  simp [h x hx]

/-- The entries of an ordered set, seen around a name. -/
theorem find?_split {name k : Bytes} {cs : List Node} :
    cs.find? (fun x => fold x.name == k) =
      ((below name cs).find? (fun x => fold x.name == k)).or ((above name cs).find? (fun x => fold x.name == k)) := by
  conv => lhs; rw [← below_above name cs]
  rw [List.find?_append]

theorem below_ne {name : Bytes} {cs : List Node} {x : Node} (h : x ∈ below name cs) : fold x.name ≠ fold name := by
  intro e
  have := ((incomparable_iff _ _).2 e).1
  rw [mem_below h] at this; cases this

theorem above_tail_ne {name : Bytes} {cs : List Node} (ho : Ordered cs) {x : Node}
    (h : x ∈ (above name cs).drop 1) : fold x.name ≠ fold name := by
  intro e
  have := ((incomparable_iff _ _).2 e).2
  rw [mem_above_tail ho h] at this; cases this

theorem find?_replace {n : Node} {cs : List Node} (ho : Ordered cs) {y : Node}
    (hf : cs.find? (fun x => fold x.name == fold n.name) = some y) (k : Bytes) :
    (setReplace n cs).find? (fun x => fold x.name == k) =
      if fold n.name = k then some n else cs.find? (fun x => fold x.name == k) := by
  have hs : setFind n.name cs = some y := by rw [setFind_eq _ _ ho]; exact hf
  have hy := find?_fold_name hf
  rw [find?_split (name := n.name) (cs := cs)]
  unfold setReplace
  rw [List.find?_append, List.find?_cons]
  by_cases hk : fold n.name = k
  · subst hk
    rw [find?_append_gt (fun x hx => below_ne hx)]
    simp
  · rw [beq_eq_false_iff_ne.2 hk, if_neg hk]
    congr 1
    unfold setFind at hs
    cases ha : above n.name cs with
    | nil => rfl
    | cons z zs =>
      rw [ha] at hs
      dsimp only at hs
      split at hs
      · cases hs
      · injection hs with hs
        subst hs
        rw [List.find?_cons, beq_eq_false_iff_ne.2 (by rw [hy]; exact hk)]
        rfl

theorem find?_erase {name : Bytes} {cs : List Node} (ho : Ordered cs) {y : Node}
    (hf : cs.find? (fun x => fold x.name == fold name) = some y) (k : Bytes) :
    (setErase name cs).find? (fun x => fold x.name == k) =
      if fold name = k then none else cs.find? (fun x => fold x.name == k) := by
  have hs : setFind name cs = some y := by rw [setFind_eq _ _ ho]; exact hf
  have hy := find?_fold_name hf
  rw [find?_split (name := name) (cs := cs)]
  unfold setErase
  rw [List.find?_append]
  by_cases hk : fold name = k
  · subst hk
    rw [find?_append_gt (fun x hx => below_ne hx), find?_append_gt (fun x hx => above_tail_ne ho hx)]
    simp
  · rw [if_neg hk]
    congr 1
    unfold setFind at hs
    cases ha : above name cs with
    | nil => rfl
    | cons z zs =>
      rw [ha] at hs
      dsimp only at hs
      split at hs
      · cases hs
      · injection hs with hs
        subst hs
        rw [List.find?_cons, beq_eq_false_iff_ne.2 (by rw [hy]; exact hk)]
        rfl

theorem entry_remove {name : Bytes} {cs : List Node} (ho : Ordered cs) (m : Bytes) :
    entry (removeIn name cs).1 m = if key name = key m then none else entry cs m := by
  unfold removeIn
  rw [setFind_eq _ _ ho, fold_trim]
  cases hf : cs.find? (fun x => fold x.name == key name) with
  | none =>
    dsimp only
    split
    · rename_i he; unfold entry; rw [← he]; exact hf
    · rfl
  | some x =>
    have e := find?_fold_name hf
    rw [← fold_trim] at e
    simp only [(iequals_iff _ _).2 e, if_true]
    rw [← fold_trim] at hf
    have := find?_erase ho hf (key m)
    rw [fold_trim] at this
    exact this

/-- Inserting a node whose name is not taken. -/
theorem find?_insert {n : Node} {cs : List Node} (ho : Ordered cs)
    (hf : cs.find? (fun x => fold x.name == fold n.name) = none) (k : Bytes) :
    (setInsert n cs).1.find? (fun x => fold x.name == k) =
      if fold n.name = k then some n else cs.find? (fun x => fold x.name == k) := by
  have hs : setFind n.name cs = none := by rw [setFind_eq _ _ ho]; exact hf
  unfold setInsert
  rw [hs, find?_split (name := n.name) (cs := cs)]
  dsimp only
  rw [List.find?_append, List.find?_cons]
  by_cases hk : fold n.name = k
  · subst hk
    rw [find?_append_gt (fun x hx => below_ne hx)]
    simp
  · rw [beq_eq_false_iff_ne.2 hk, if_neg hk]

theorem setInsert_snd {n : Node} {cs : List Node} (ho : Ordered cs)
    (hf : cs.find? (fun x => fold x.name == fold n.name) = none) : (setInsert n cs).2 = n := by
  have hs : setFind n.name cs = none := by rw [setFind_eq _ _ ho]; exact hf
  unfold setInsert
  rw [hs]

theorem remove_absent {n : Bytes} (hn : Clean n) {cs : List Node} (ho : Ordered cs) :
    (removeIn n cs).1.find? (fun x => fold x.name == fold n) = none := by
  have := entry_remove (name := n) ho n
  rw [if_pos rfl] at this
  unfold entry at this
  rw [key_clean hn] at this
  exact this

/-- After the creation of a node with a clean name. -/
theorem entry_create {n : Node} (hn : Clean n.name) {cs : List Node} (ho : Ordered cs) (m : Bytes) :
    entry (createIn n cs).1 m = if key n.name = key m then some n else entry cs m := by
  unfold createIn entry
  rw [find?_insert (ordered_remove ho) (remove_absent hn ho), ← key_clean hn]
  have := entry_remove (name := n.name) ho m
  unfold entry at this
  rw [this]
  split <;> rfl

theorem create_snd {n : Node} (hn : Clean n.name) {cs : List Node} (ho : Ordered cs) : (createIn n cs).2 = n :=
  setInsert_snd (ordered_remove ho) (remove_absent hn ho)

end Verif.Vfs
