import Verif.Spec.DaedalusLayout
import Verif.Lemmas.DaedalusStore

/-!
# Layout of opaque instances
-/

namespace Verif.Daedalus

open Verif.Spec.Daedalus

theorem elemAlign_pos (t : DType) : 0 < elemAlign t := by cases t <;> simp [elemAlign]

theorem roundUp_le (a o : Nat) (ha : 0 < a) : o ≤ roundUp a o := by
  unfold roundUp
  have := Nat.div_add_mod (o + (a - 1)) a
  have := Nat.mod_lt (o + (a - 1)) ha
  rw [Nat.mul_comm]
  omega

theorem roundUp_mod (a o : Nat) : roundUp a o % a = 0 := by
  unfold roundUp
  exact Nat.mul_mod_left _ _

theorem roundUp_self {a o : Nat} (ha : 0 < a) (h : o % a = 0) : roundUp a o = o := by
  obtain ⟨k, rfl⟩ := Nat.dvd_of_mod_eq_zero h
  unfold roundUp
  rw [Nat.mul_add_div ha, Nat.div_eq_of_lt (by omega), Nat.add_zero, Nat.mul_comm]

theorem needed_le (o : Nat) (ms : List Sym) : o ≤ needed o ms := by
  induction ms generalizing o with
  | nil => exact Nat.le_refl _
  | cons m ms ih =>
    have h1 := roundUp_le (elemAlign m.type) o (elemAlign_pos _)
    have h2 := ih (roundUp (elemAlign m.type) o + memberBytes m)
    unfold needed
    omega

/-- The offsets without a limit. -/
def places : Nat → List Sym → List (Option Nat)
  | _, [] => []
  | o, m :: ms =>
    (if m.type = .other then none else some (roundUp (elemAlign m.type) o)) ::
      places (roundUp (elemAlign m.type) o + memberBytes m) ms

theorem places_length (o : Nat) (ms : List Sym) : (places o ms).length = ms.length := by
  induction ms generalizing o with
  | nil => rfl
  | cons m ms ih => simp [places, ih]

theorem roundUp_eight (o : Nat) : roundUp 8 o = o + (if o % 8 = 0 then 0 else 8 - o % 8) := by
  unfold roundUp
  split <;> omega

theorem next_mod4 {o : Nat} (m : Sym) (h : o % 4 = 0) : (roundUp (elemAlign m.type) o + memberBytes m) % 4 = 0 := by
  unfold memberBytes
  cases ht : m.type
  case string =>
    show (roundUp 8 o + 32 * _) % 4 = 0
    rw [roundUp_eight]
    split <;> omega
  case other =>
    show (roundUp 1 o + 0 * _) % 4 = 0
    rw [roundUp_self (by decide) (Nat.mod_one o)]
    omega
  all_goals
    show (roundUp 4 o + 4 * _) % 4 = 0
    rw [roundUp_self (by decide) h]
    omega

theorem layoutMember_eq {o : Nat} (m : Sym) (h4 : o % 4 = 0) (hb : roundUp (elemAlign m.type) o + memberBytes m < 2 ^ 32) :
    layoutMember (BitVec.ofNat 32 o) m =
      ((if m.type = .other then none else some (roundUp (elemAlign m.type) o)).map (BitVec.ofNat 32),
        BitVec.ofNat 32 (roundUp (elemAlign m.type) o + memberBytes m)) := by
  have hle := roundUp_le (elemAlign m.type) o (elemAlign_pos _)
  have ho : o < 2 ^ 32 := by omega
  have hn : (BitVec.ofNat 32 o).toNat = o := by rw [BitVec.toNat_ofNat]; exact Nat.mod_eq_of_lt ho
  unfold layoutMember
  unfold memberBytes at *
  cases ht : m.type
  case string =>
    rw [ht] at hb
    have e : elemAlign DType.string = 8 := rfl
    have e2 : elemBytes DType.string = 32 := rfl
    rw [e, e2, roundUp_eight] at hb ⊢
    simp only [Sym.strAlign, Sym.strSize, hn, reduceCtorEq, if_false, Option.map_some, BitVec.ofNat_add]
  case other =>
    have e : elemAlign DType.other = 1 := rfl
    have e2 : elemBytes DType.other = 0 := rfl
    rw [e, e2, roundUp_self (by decide) (Nat.mod_one o)]
    simp
  all_goals
    rw [ht] at hb
    simp only [elemAlign, elemBytes] at hb ⊢
    rw [roundUp_self (by decide) h4] at hb ⊢
    simp only [reduceCtorEq, if_false, Option.map_some, BitVec.ofNat_add, BitVec.ofNat_mul, BitVec.ofNat_toNat, BitVec.setWidth_eq]
    rfl

/-- Without overflow `register_as_opaque` places the members one after the other. -/
theorem layout_eq (ms : List Sym) : ∀ o, o % 4 = 0 → needed o ms < 2 ^ 32 →
    layout (BitVec.ofNat 32 o) ms = ((places o ms).map (Option.map (BitVec.ofNat 32)), BitVec.ofNat 32 (needed o ms)) := by
  induction ms with
  | nil => intro o _ _; rfl
  | cons m ms ih =>
    intro o h4 hb
    have hb' : needed (roundUp (elemAlign m.type) o + memberBytes m) ms < 2 ^ 32 := hb
    have hle := needed_le (roundUp (elemAlign m.type) o + memberBytes m) ms
    unfold layout
    rw [layoutMember_eq m h4 (by omega)]
    dsimp only
    rw [ih _ (next_mod4 m h4) hb']
    rfl

/-- Where a member is. -/
theorem place_at (ms : List Sym) : ∀ (s i : Nat) (m : Sym) (o : Nat), ms[i]? = some m → (places s ms)[i]? = some (some o) →
    m.type ≠ .other ∧ s ≤ o ∧ o % elemAlign m.type = 0 ∧ o + memberBytes m ≤ needed s ms := by
  induction ms with
  | nil => intro s i m o h; simp at h
  | cons x xs ih =>
    intro s i m o hm ho
    have h1 := roundUp_le (elemAlign x.type) s (elemAlign_pos _)
    have h2 := needed_le (roundUp (elemAlign x.type) s + memberBytes x) xs
    cases i with
    | zero =>
      simp only [List.getElem?_cons_zero, Option.some.injEq] at hm
      subst hm
      unfold places at ho
      rw [List.getElem?_cons_zero] at ho
      by_cases ht : x.type = .other
      · rw [if_pos ht] at ho
        simp at ho
      · rw [if_neg ht] at ho
        simp only [Option.some.injEq] at ho
        subst ho
        exact ⟨ht, h1, roundUp_mod _ _, h2⟩
    | succ i =>
      rw [List.getElem?_cons_succ] at hm
      unfold places at ho
      rw [List.getElem?_cons_succ] at ho
      obtain ⟨a, b, c, d⟩ := ih _ i m o hm ho
      exact ⟨a, by omega, c, d⟩

/-- Members do not overlap. -/
theorem place_lt (ms : List Sym) : ∀ (s i j : Nat) (m n : Sym) (o o' : Nat), i < j → ms[i]? = some m → ms[j]? = some n →
    (places s ms)[i]? = some (some o) → (places s ms)[j]? = some (some o') → o + memberBytes m ≤ o' := by
  induction ms with
  | nil => intro s i j m n o o' _ h; simp at h
  | cons x xs ih =>
    intro s i j m n o o' hij hm hn ho ho'
    obtain ⟨j, rfl⟩ : ∃ k, j = k + 1 := ⟨j - 1, by omega⟩
    rw [List.getElem?_cons_succ] at hn
    unfold places at ho ho'
    rw [List.getElem?_cons_succ] at ho'
    cases i with
    | zero =>
      simp only [List.getElem?_cons_zero, Option.some.injEq] at hm
      subst hm
      rw [List.getElem?_cons_zero] at ho
      by_cases ht : x.type = .other
      · rw [if_pos ht] at ho
        simp at ho
      · rw [if_neg ht] at ho
        simp only [Option.some.injEq] at ho
        subst ho
        exact (place_at xs _ j n o' hn ho').2.1
    | succ i =>
      rw [List.getElem?_cons_succ] at hm ho
      exact ih _ i j m n o o' (by omega) hm hn ho ho'

theorem place_some (ms : List Sym) : ∀ (s i : Nat) (m : Sym), ms[i]? = some m → m.type ≠ .other →
    ∃ o, (places s ms)[i]? = some (some o) := by
  induction ms with
  | nil => intro s i m h; simp at h
  | cons x xs ih =>
    intro s i m hm ht
    cases i with
    | zero =>
      simp only [List.getElem?_cons_zero, Option.some.injEq] at hm
      subst hm
      unfold places
      rw [List.getElem?_cons_zero, if_neg ht]
      exact ⟨_, rfl⟩
    | succ i => exact ih _ i m hm ht

/-! ## The storage of an opaque instance -/

/-- The first value of an element. -/
def firstCell : DType → Cell
  | .float => .float 0
  | .string => .str []
  | _ => .int 0

theorem memberObject_eq {t : DType} (h : t ≠ .other) : memberObject t = some (elemBytes t, elemAlign t, firstCell t) := by
  cases t <;> first | rfl | exact absurd rfl h

theorem elem_mod (t : DType) (h : t ≠ .other) : elemBytes t % elemAlign t = 0 := by cases t <;> first | rfl | exact absurd rfl h

theorem elemBytes_pos {t : DType} (h : t ≠ .other) : 0 < elemBytes t := by cases t <;> first | decide | exact absurd rfl h

/-- The objects of a member. -/
def memberCellsAt (m : Sym) (o : Nat) : List (Nat × Cell) :=
  (List.range m.count.toNat).map fun i => (o + elemBytes m.type * i, firstCell m.type)

theorem constructAll_ok {size sz al : Nat} {c : Cell} : ∀ os : List Nat, (∀ o ∈ os, o % al = 0 ∧ o + sz ≤ size) →
    constructAll size sz al c os = .ok (os.map fun o => (o, c)) := by
  intro os
  induction os with
  | nil => intro _; rfl
  | cons o os ih =>
    intro h
    obtain ⟨h1, h2⟩ := h o (by simp)
    unfold constructAll
    have : alignUp al o = o := by unfold alignUp; rw [if_pos h1]
    rw [this, if_pos h2, ih fun o' ho' => h o' (List.mem_cons_of_mem _ ho')]
    rfl

/-- A member placed inside of the storage. -/
theorem constructMember_ok {size : Nat} (hsize : size < 2 ^ 32) {m : Sym} {o : Nat} (ht : m.type ≠ .other)
    (ho : m.memberOffset = BitVec.ofNat 32 o) (ha : o % elemAlign m.type = 0) (hb : o + memberBytes m ≤ size) :
    constructMember size m = .ok (memberCellsAt m o) := by
  unfold constructMember
  rw [memberObject_eq ht]
  dsimp only
  unfold memberBytes at hb
  have hidx : ∀ i, i < m.count.toNat → (m.memberOffset + BitVec.ofNat 32 (elemBytes m.type * i)).toNat = o + elemBytes m.type * i := by
    intro i hi
    have h1 : elemBytes m.type * (i + 1) ≤ elemBytes m.type * m.count.toNat := Nat.mul_le_mul_left _ hi
    rw [Nat.mul_succ] at h1
    have h2 := elemBytes_pos ht
    rw [ho, ← BitVec.ofNat_add, BitVec.toNat_ofNat]
    exact Nat.mod_eq_of_lt (by omega)
  have hmap : (List.range m.count.toNat).map (fun i => (m.memberOffset + BitVec.ofNat 32 (elemBytes m.type * i)).toNat) =
      (List.range m.count.toNat).map fun i => o + elemBytes m.type * i :=
    List.map_congr_left fun i hi => hidx i (List.mem_range.mp hi)
  rw [hmap, constructAll_ok]
  · unfold memberCellsAt
    rw [List.map_map]
    rfl
  · intro o' ho'
    obtain ⟨i, hi, rfl⟩ := List.mem_map.mp ho'
    have hi := List.mem_range.mp hi
    have h1 : elemBytes m.type * (i + 1) ≤ elemBytes m.type * m.count.toNat := Nat.mul_le_mul_left _ hi
    rw [Nat.mul_succ] at h1
    refine ⟨?_, by omega⟩
    rw [Nat.add_mod, ha, Nat.mul_mod, elem_mod _ ht, Nat.zero_mul, Nat.zero_mod, Nat.zero_add, Nat.zero_mod]

theorem constructMember_other {size : Nat} {m : Sym} (ht : m.type = .other) : constructMember size m = .ok [] := by
  unfold constructMember
  rw [ht]
  rfl

/-- The objects of all members. -/
def allCells : List Sym → List (Option Nat) → List (Nat × Cell)
  | m :: ms, o :: os => (match o with | some o => memberCellsAt m o | none => []) ++ allCells ms os
  | _, _ => []

theorem construct_ok {size typ : Nat} (hsize : size < 2 ^ 32) (ms : List Sym) : ∀ s, needed s ms ≤ size →
    construct size (registered typ ms ((places s ms).map (Option.map (BitVec.ofNat 32)))) = .ok (allCells ms (places s ms)) := by
  induction ms with
  | nil => intro s _; rfl
  | cons m ms ih =>
    intro s hs
    have hle := needed_le (roundUp (elemAlign m.type) s + memberBytes m) ms
    have hs' : needed (roundUp (elemAlign m.type) s + memberBytes m) ms ≤ size := hs
    unfold places
    simp only [List.map_cons]
    unfold registered construct allCells
    rw [ih _ hs']
    by_cases ht : m.type = .other
    · rw [if_pos ht]
      have hc : constructMember size { m with
          registeredTo := some typ, memberOffset := (Option.map (BitVec.ofNat 32) none).getD m.memberOffset } = .ok [] :=
        constructMember_other ht
      rw [hc]
    · rw [if_neg ht]
      have hc : constructMember size { m with
          registeredTo := some typ
          memberOffset := (Option.map (BitVec.ofNat 32) (some (roundUp (elemAlign m.type) s))).getD m.memberOffset } =
          .ok (memberCellsAt m (roundUp (elemAlign m.type) s)) :=
        constructMember_ok hsize (m := { m with
          registeredTo := some typ
          memberOffset := (Option.map (BitVec.ofNat 32) (some (roundUp (elemAlign m.type) s))).getD m.memberOffset })
          (o := roundUp (elemAlign m.type) s) ht rfl (roundUp_mod _ _) (by show _ + memberBytes m ≤ _; omega)
      rw [hc]

theorem cellAt_unique {cells : List (Nat × Cell)} {o : Nat} {c : Cell} (h : (o, c) ∈ cells)
    (hu : ∀ d, (o, d) ∈ cells → d = c) : cellAt cells o = some c := by
  induction cells with
  | nil => cases h
  | cons x xs ih =>
    obtain ⟨o', e⟩ := x
    unfold cellAt
    by_cases he : o' = o
    · rw [if_pos he]
      rw [hu e (by rw [← he]; simp)]
    · rw [if_neg he]
      refine ih ?_ fun d hd => hu d (List.mem_cons_of_mem _ hd)
      rcases List.mem_cons.mp h with h | h
      · cases h; exact absurd rfl he
      · exact h

theorem allCells_mem (ms : List Sym) : ∀ (os : List (Option Nat)) (x : Nat × Cell), x ∈ allCells ms os ↔
    ∃ (i : Nat) (m : Sym) (o k : Nat), ms[i]? = some m ∧ os[i]? = some (some o) ∧ k < m.count.toNat ∧ x = (o + elemBytes m.type * k, firstCell m.type) := by
  induction ms with
  | nil => intro os x; simp [allCells]
  | cons m ms ih =>
    intro os x
    cases os with
    | nil => simp [allCells]
    | cons o os =>
      unfold allCells
      rw [List.mem_append, ih]
      constructor
      · rintro (h | ⟨i, m', o', k, h1, h2, h3, h4⟩)
        · cases o with
          | none => cases h
          | some o =>
            obtain ⟨k, hk, rfl⟩ := List.mem_map.mp h
            exact ⟨0, m, o, k, rfl, rfl, List.mem_range.mp hk, rfl⟩
        · exact ⟨i + 1, m', o', k, h1, h2, h3, h4⟩
      · rintro ⟨i, m', o', k, h1, h2, h3, h4⟩
        cases i with
        | zero =>
          cases h1
          cases h2
          exact .inl (List.mem_map.mpr ⟨k, List.mem_range.mpr h3, h4.symm⟩)
        | succ i => exact .inr ⟨i, m', o', k, h1, h2, h3, h4⟩

/-- An offset belongs to one element of one member. -/
theorem place_unique {ms : List Sym} {s i j : Nat} {m n : Sym} {o o' k l : Nat} (hm : ms[i]? = some m) (hn : ms[j]? = some n)
    (ho : (places s ms)[i]? = some (some o)) (ho' : (places s ms)[j]? = some (some o')) (hk : k < m.count.toNat)
    (hl : l < n.count.toNat) (he : o + elemBytes m.type * k = o' + elemBytes n.type * l) : i = j ∧ k = l := by
  have h1 := elemBytes_pos (place_at ms s i m o hm ho).1
  have h2 := elemBytes_pos (place_at ms s j n o' hn ho').1
  have b1 : elemBytes m.type * (k + 1) ≤ elemBytes m.type * m.count.toNat := Nat.mul_le_mul_left _ hk
  have b2 : elemBytes n.type * (l + 1) ≤ elemBytes n.type * n.count.toNat := Nat.mul_le_mul_left _ hl
  rw [Nat.mul_succ] at b1 b2
  rcases Nat.lt_trichotomy i j with h | h | h
  · have := place_lt ms s i j m n o o' h hm hn ho ho'
    unfold memberBytes at this
    omega
  · subst h
    rw [hm] at hn
    rw [ho] at ho'
    cases hn
    cases ho'
    refine ⟨rfl, ?_⟩
    exact Nat.eq_of_mul_eq_mul_left h1 (by omega)
  · have := place_lt ms s j i n m o' o h hn hm ho' ho
    unfold memberBytes at this
    omega

/-- Every element of every member exists and has its first value. -/
theorem cellAt_all {ms : List Sym} {s i : Nat} {m : Sym} {o k : Nat} (hm : ms[i]? = some m)
    (ho : (places s ms)[i]? = some (some o)) (hk : k < m.count.toNat) :
    cellAt (allCells ms (places s ms)) (o + elemBytes m.type * k) = some (firstCell m.type) := by
  refine cellAt_unique ((allCells_mem ms _ _).mpr ⟨i, m, o, k, hm, ho, hk, rfl⟩) fun d hd => ?_
  obtain ⟨j, n, o', l, h1, h2, h3, h4⟩ := (allCells_mem ms _ _).mp hd
  simp only [Prod.mk.injEq] at h4
  obtain ⟨h5, -⟩ := place_unique hm h1 ho h2 hk h3 h4.1
  subst h5
  rw [hm] at h1
  cases h1
  exact h4.2

theorem registered_at {typ : Nat} (ms : List Sym) : ∀ (os : List (Option (BitVec 32))) (i : Nat) (m : Sym) (o : BitVec 32),
    ms[i]? = some m → os[i]? = some (some o) →
    (registered typ ms os)[i]? = some { m with registeredTo := some typ, memberOffset := o } := by
  induction ms with
  | nil => intro os i m o h; simp at h
  | cons x xs ih =>
    intro os i m o hm ho
    cases os with
    | nil => simp at ho
    | cons p os =>
      cases i with
      | zero => cases hm; cases ho; rfl
      | succ i => exact ih os i m o hm ho

end Verif.Daedalus
