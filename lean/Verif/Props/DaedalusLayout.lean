import Verif.Lemmas.DaedalusLayout
import Verif.Props.DaedalusStore

/-!
# Layout of opaque instances (C39)
-/

namespace Verif.Props

open Verif.Daedalus Verif.Spec.Daedalus

/-- **C39** (partial): if the members of a class need less than 4 GiB, every member is aligned and inside of the class, and no
two members overlap. Missing: larger classes, for which the claim is false. -/
theorem c39_layout_partial (ms : List Sym) (h : needed 0 ms < 2 ^ 32) :
    (layout 0 ms).1.length = ms.length ∧
    (∀ (i : Nat) (m : Sym), ms[i]? = some m → m.type ≠ .other → ∃ o : BitVec 32, (layout 0 ms).1[i]? = some (some o) ∧
      o.toNat % elemAlign m.type = 0 ∧ o.toNat + memberBytes m ≤ (layout 0 ms).2.toNat) ∧
    (∀ (i j : Nat) (m n : Sym) (o o' : BitVec 32), i < j → ms[i]? = some m → ms[j]? = some n → (layout 0 ms).1[i]? = some (some o) →
      (layout 0 ms).1[j]? = some (some o') → o.toNat + memberBytes m ≤ o'.toNat) := by
  have e := layout_eq ms 0 rfl h
  have e : layout 0 ms = ((places 0 ms).map (Option.map (BitVec.ofNat 32)), BitVec.ofNat 32 (needed 0 ms)) := e
  have hsz : (BitVec.ofNat 32 (needed 0 ms)).toNat = needed 0 ms := by rw [BitVec.toNat_ofNat, Nat.mod_eq_of_lt h]
  have hget : ∀ (i : Nat) (m : Sym) (o : BitVec 32), ms[i]? = some m → ((places 0 ms).map (Option.map (BitVec.ofNat 32)))[i]? = some (some o) →
      ∃ k, (places 0 ms)[i]? = some (some k) ∧ o.toNat = k := by
    intro i m o hm ho
    rw [List.getElem?_map] at ho
    cases hp : (places 0 ms)[i]? with
    | none => rw [hp] at ho; cases ho
    | some k =>
      cases k with
      | none => rw [hp] at ho; cases ho
      | some k =>
        rw [hp] at ho
        cases ho
        obtain ⟨-, -, -, hb⟩ := place_at ms 0 i m k hm hp
        exact ⟨k, rfl, by rw [BitVec.toNat_ofNat, Nat.mod_eq_of_lt (by omega)]⟩
  rw [e]
  dsimp only
  rw [hsz]
  refine ⟨by rw [List.length_map, places_length], fun i m hm ht => ?_, fun i j m n o o' hij hm hn ho ho' => ?_⟩
  · obtain ⟨k, hk⟩ := place_some ms 0 i m hm ht
    obtain ⟨-, -, ha, hb⟩ := place_at ms 0 i m k hm hk
    refine ⟨BitVec.ofNat 32 k, by rw [List.getElem?_map, hk]; rfl, ?_⟩
    have hk' : (BitVec.ofNat 32 k).toNat = k := by rw [BitVec.toNat_ofNat, Nat.mod_eq_of_lt (by omega)]
    rw [hk']
    exact ⟨ha, hb⟩
  · obtain ⟨k, hk, rfl⟩ := hget i m o hm ho
    obtain ⟨l, hl, rfl⟩ := hget j n o' hn ho'
    exact place_lt ms 0 i j m n _ _ hij hm hn hk hl

theorem needed_bound (b : Nat) (ms : List Sym) (h : ∀ m ∈ ms, m.count.toNat ≤ b) : ∀ o, needed o ms ≤ o + ms.length * (32 * b + 7) := by
  induction ms with
  | nil => intro o; simp [needed]
  | cons m ms ih =>
    intro o
    have h1 := ih (fun x hx => h x (List.mem_cons_of_mem _ hx)) (roundUp (elemAlign m.type) o + memberBytes m)
    have h2 : roundUp (elemAlign m.type) o ≤ o + 7 := by
      unfold roundUp
      have ha := elemAlign_pos m.type
      have h8 : elemAlign m.type ≤ 8 := by cases m.type <;> simp [elemAlign]
      have := Nat.div_mul_le_self (o + (elemAlign m.type - 1)) (elemAlign m.type)
      omega
    have h3 : memberBytes m ≤ 32 * b := by
      unfold memberBytes
      have h32 : elemBytes m.type ≤ 32 := by cases m.type <;> simp [elemBytes]
      exact Nat.mul_le_mul h32 (h m (by simp))
    unfold needed
    rw [List.length_cons, Nat.succ_mul]
    omega

/-- Counts in compiled scripts have twelve bits: every class with at most 32774 members is laid out well. -/
theorem c39_script_partial (ms : List Sym) (hc : ∀ m ∈ ms, m.count.toNat ≤ 4095) (hl : ms.length ≤ 32774) :
    needed 0 ms < 2 ^ 32 := by
  have := needed_bound 4095 ms hc 0
  have : ms.length * (32 * 4095 + 7) ≤ 32774 * (32 * 4095 + 7) := Nat.mul_le_mul_right _ hl
  omega

/-- **C39**: an instance of such a class can be created, and every element of every member is there with its first value. -/
theorem c39_instance_partial (typ : Nat) (ms : List Sym) (h : needed 0 ms < 2 ^ 32) :
    ∃ cells, construct (layout 0 ms).2.toNat (registered typ ms (layout 0 ms).1) = .ok cells ∧
      ∀ (i : Nat) (m : Sym) (k : Nat), (registered typ ms (layout 0 ms).1)[i]? = some m → m.type ≠ .other → k < m.count.toNat →
        cellAt cells (m.memberOffset.toNat + elemBytes m.type * k) = some (match m.type with
          | .float => .float 0
          | .string => .str []
          | _ => .int 0) := by
  have e : layout 0 ms = ((places 0 ms).map (Option.map (BitVec.ofNat 32)), BitVec.ofNat 32 (needed 0 ms)) := layout_eq ms 0 rfl h
  have hsz : (BitVec.ofNat 32 (needed 0 ms)).toNat = needed 0 ms := by rw [BitVec.toNat_ofNat, Nat.mod_eq_of_lt h]
  rw [e]
  dsimp only
  rw [hsz]
  refine ⟨_, construct_ok h ms 0 (Nat.le_refl _), fun i m k hm ht hk => ?_⟩
  have hlen : ∀ (ms : List Sym) (os : List (Option (BitVec 32))), (registered typ ms os).length ≤ ms.length := by
    intro ms
    induction ms with
    | nil => intro os; simp [registered]
    | cons x xs ih =>
      intro os
      cases os with
      | nil => simp [registered]
      | cons o os => simp [registered, ih os]
  have hi := Nat.lt_of_lt_of_le (List.getElem?_eq_some_iff.mp hm).1 (hlen ms _)
  obtain ⟨n, hn⟩ : ∃ n, ms[i]? = some n := ⟨ms[i], List.getElem?_eq_getElem hi⟩
  have htn : n.type = m.type ∧ n.count = m.count := by
    have : ∀ (ms : List Sym) (os : List (Option (BitVec 32))) (i : Nat) (m n : Sym), (registered typ ms os)[i]? = some m →
        ms[i]? = some n → n.type = m.type ∧ n.count = m.count := by
      intro ms
      induction ms with
      | nil => intro os i m n _ h; simp at h
      | cons x xs ih =>
        intro os i m n h1 h2
        cases os with
        | nil => simp [registered] at h1
        | cons o os =>
          cases i with
          | zero => cases h1; cases h2; exact ⟨rfl, rfl⟩
          | succ i => exact ih os i m n h1 h2
    exact this ms _ i m n hm hn
  obtain ⟨o, ho⟩ := place_some ms 0 i n hn (by rw [htn.1]; exact ht)
  have hr := registered_at (typ := typ) ms ((places 0 ms).map (Option.map (BitVec.ofNat 32))) i n (BitVec.ofNat 32 o) hn
    (by rw [List.getElem?_map, ho]; rfl)
  rw [hm] at hr
  obtain ⟨-, -, -, hb⟩ := place_at ms 0 i n o hn ho
  have hoff : m.memberOffset.toNat = o := by
    cases hr
    show (BitVec.ofNat 32 o).toNat = o
    rw [BitVec.toNat_ofNat, Nat.mod_eq_of_lt (by omega)]
  rw [hoff, ← htn.1, cellAt_all hn ho (by rw [htn.2]; exact hk)]
  rfl

/-- **C39** with **C37**: two elements of the members of such a class live at different places, unless they are the same element
of the same member. -/
theorem c39_elements_partial (typ : Nat) (ms : List Sym) (h : needed 0 ms < 2 ^ 32) {i j k l : Nat} {m n : Sym}
    {a b : VKind} (hm : (registered typ ms (layout 0 ms).1)[i]? = some m) (hn : (registered typ ms (layout 0 ms).1)[j]? = some n)
    (ha : holdsKind a m.type = true) (hb : holdsKind b n.type = true) (hk : k < m.count.toNat) (hl : l < n.count.toNat)
    (he : elementAt m a k = elementAt n b l) : i = j ∧ k = l := by
  have e : layout 0 ms = ((places 0 ms).map (Option.map (BitVec.ofNat 32)), BitVec.ofNat 32 (needed 0 ms)) := layout_eq ms 0 rfl h
  rw [e] at hm hn
  dsimp only at hm hn
  have inv : ∀ (ms : List Sym) (os : List (Option (BitVec 32))) (i : Nat) (m : Sym), (registered typ ms os)[i]? = some m →
      ∃ n o, ms[i]? = some n ∧ os[i]? = some o ∧ m.type = n.type ∧ m.count = n.count ∧ m.memberOffset = o.getD n.memberOffset := by
    intro ms
    induction ms with
    | nil => intro os i m h; simp [registered] at h
    | cons x xs ih =>
      intro os i m h
      cases os with
      | nil => simp [registered] at h
      | cons o os =>
        cases i with
        | zero => cases h; exact ⟨x, o, rfl, rfl, rfl, rfl, rfl⟩
        | succ i => exact ih os i m h
  have kinds : ∀ (a : VKind) (t : DType), holdsKind a t = true → t ≠ .other ∧ kindSize a = elemBytes t := by
    intro a t
    cases a <;> cases t <;> simp [holdsKind, kindSize, elemBytes]
  have at_ : ∀ (i : Nat) (m : Sym) (a : VKind) (k : Nat),
      (registered typ ms ((places 0 ms).map (Option.map (BitVec.ofNat 32))))[i]? = some m → holdsKind a m.type = true →
      k < m.count.toNat → ∃ n o, ms[i]? = some n ∧ (places 0 ms)[i]? = some (some o) ∧ k < n.count.toNat ∧
        (elementAt m a k).toNat = o + elemBytes n.type * k := by
    intro i m a k hm ha hk
    obtain ⟨n, o, h1, h2, h3, h4, h5⟩ := inv ms _ i m hm
    obtain ⟨ht, hs⟩ := kinds a m.type ha
    obtain ⟨o', ho'⟩ := place_some ms 0 i n h1 (by rw [← h3]; exact ht)
    rw [List.getElem?_map, ho'] at h2
    cases h2
    obtain ⟨-, -, -, hb⟩ := place_at ms 0 i n o' h1 ho'
    rw [h4] at hk
    refine ⟨n, o', h1, ho', hk, ?_⟩
    have b1 : elemBytes n.type * (k + 1) ≤ elemBytes n.type * n.count.toNat := Nat.mul_le_mul_left _ hk
    rw [Nat.mul_succ] at b1
    have := elemBytes_pos (t := n.type) (by rw [← h3]; exact ht)
    unfold memberBytes at hb
    unfold elementAt
    rw [h5, hs, h3]
    show (BitVec.ofNat 32 o' + BitVec.ofNat 32 (k * elemBytes n.type)).toNat = _
    rw [← BitVec.ofNat_add, BitVec.toNat_ofNat, Nat.mul_comm k, Nat.mod_eq_of_lt (by omega)]
  obtain ⟨m', o, h1, h2, h3, h4⟩ := at_ i m a k hm ha hk
  obtain ⟨n', o', h5, h6, h7, h8⟩ := at_ j n b l hn hb hl
  exact place_unique h1 h5 h2 h6 h3 h7 (by rw [← h4, ← h8, he])

/-- 32778 members of 4095 strings each. -/
def hugeClass : List Sym := List.replicate 32778 { type := .string, count := 4095, flags := 4 }

theorem layout_strings (k n : Nat) (o : BitVec 32) (ho : o.toNat % 8 = 0) (hk : k < n) :
    (layout o (List.replicate n { type := .string, count := 4095, flags := 4 })).1[k]? =
      some (some (o + BitVec.ofNat 32 (131040 * k))) := by
  induction n generalizing k o with
  | zero => omega
  | succ n ih =>
    rw [List.replicate_succ]
    have e : layoutMember o { type := .string, count := 4095, flags := 4 } = (some o, o + BitVec.ofNat 32 131040) := by
      unfold layoutMember
      dsimp only
      rw [if_pos (show o.toNat % Sym.strAlign = 0 from ho)]
      simp [Sym.strSize]
    unfold layout
    rw [e]
    dsimp only
    cases k with
    | zero => simp
    | succ k =>
      rw [List.getElem?_cons_succ, ih k _ (by rw [BitVec.toNat_add, BitVec.toNat_ofNat]; omega) (by omega)]
      rw [BitVec.add_assoc, ← BitVec.ofNat_add, Nat.mul_succ, Nat.add_comm 131040 (131040 * k)]

/-- **C39** (negation): offsets are 32 bits wide; in a class of 32778 members of 4095 strings each, the last member lies in the
middle of the first. -/
theorem c39_violation : ∃ (i j : Nat) (o o' : BitVec 32) (m : Sym), i < j ∧ hugeClass[i]? = some m ∧ (layout 0 hugeClass).1[i]? = some (some o) ∧
    (layout 0 hugeClass).1[j]? = some (some o') ∧ o ≤ o' ∧ o'.toNat < o.toNat + memberBytes m := by
  refine ⟨0, 32777, 0, BitVec.ofNat 32 130784, { type := .string, count := 4095, flags := 4 }, by decide, ?_, ?_, ?_, by decide, by decide⟩
  · unfold hugeClass
    rw [List.getElem?_replicate, if_pos (by decide)]
  · unfold hugeClass
    rw [layout_strings 0 32778 0 rfl (by decide)]
    rfl
  · unfold hugeClass
    rw [layout_strings 32777 32778 0 rfl (by decide)]
    rfl

/-- A class with an integer, two strings and three floats. -/
example : needed 0 [{ type := .int, count := 1 }, { type := .string, count := 2 }, { type := .float, count := 3 }] < 2 ^ 32 := by
  decide

end Verif.Props
