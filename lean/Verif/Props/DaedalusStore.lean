import Verif.Lemmas.DaedalusStore

/-!
# Reading and writing symbols (C37)
-/

namespace Verif.Props

open Verif.Daedalus Verif.Spec.Daedalus

/-- **C37** (partial): what was written to an element is read from it. Missing: elements of a `float` member behind the
255th, for which the claim is false. -/
theorem c37_read_back_partial {c : Cell} {y i : Nat} {p : Option Nat} {v w : Vm} (h : writeVar c y i p v = (.ok (), w))
    (hf : kindOf c = .float → ∀ s, v.syms[y]? = some s → s.isMember = true → i < 256) :
    readVar (kindOf c) y i p w = (.ok c, w) := by
  obtain ⟨s, s', n, hs, hw, hsyms, hn, -⟩ := writeVar_inv h
  have hy : w.syms[y]? = some s' := by
    rw [hsyms, List.getElem?_set_self (List.getElem?_eq_some_iff.mp hs).1]
  rw [readVar_fst _ _ _ _ _ hy, hn, read_write_self hw fun hk hm => hf hk s hs hm]

/-- **C37** (partial): the other elements of the symbol stay as they are. Indices are 16 bits wide. -/
theorem c37_other_index_partial {c : Cell} {y i j : Nat} {p q : Option Nat} {v w : Vm} (h : writeVar c y i p v = (.ok (), w))
    (hi : i < 65536) (hj : j < 65536) (hne : j ≠ i) (k : VKind)
    (hf : k = .float → ∀ s, v.syms[y]? = some s → s.isMember = true → j < 256) :
    (readVar k y j q w).1 = (readVar k y j q v).1 := by
  obtain ⟨s, s', n, hs, hw, hsyms, hn, hq, hheap⟩ := writeVar_inv h
  have hy : w.syms[y]? = some s' := by
    rw [hsyms, List.getElem?_set_self (List.getElem?_eq_some_iff.mp hs).1]
  rw [readVar_fst _ _ _ _ _ hy, readVar_fst _ _ _ _ _ hs]
  dsimp only
  have hself := read_write_ne hw hi hj hne k fun hk hm => hf hk s hs hm
  by_cases hqp : q = p
  · rw [hqp, hn, hself]
  · rw [hq q hqp]
    obtain ⟨-, -, ⟨hm, rfl, -⟩ | ⟨hm, -, a, -, rfl⟩⟩ := write_inv hw
    · rfl
    · rw [read_global_ctx (s := { s with value := a }) hm k j _ n, hself, read_global_ctx hm k j _ (instAt v q)]

/-- **C37**: other symbols stay as they are: everything that is not a member, members of other instances, and members of the
same instance that live somewhere else. -/
theorem c37_other_symbol {c : Cell} {y z i j : Nat} {p q : Option Nat} {v w : Vm} (h : writeVar c y i p v = (.ok (), w))
    (hz : z ≠ y) (k : VKind)
    (hd : ∀ s r, v.syms[y]? = some s → v.syms[z]? = some r → s.isMember = true → r.isMember = true → q = p →
      elementAt r k (if k = .float then j % 256 else j) ≠ elementAt s (kindOf c) i) :
    (readVar k z j q w).1 = (readVar k z j q v).1 := by
  obtain ⟨s, s', n, hs, hw, hsyms, hn, hq, hheap⟩ := writeVar_inv h
  have hzz : w.syms[z]? = v.syms[z]? := by
    rw [hsyms, List.getElem?_set_ne (Ne.symm hz)]
  rw [readVar_eq, readVar_eq, hzz]
  cases hr : v.syms[z]? with
  | none => rfl
  | some r =>
    dsimp only
    cases hrm : r.isMember with
    | false => exact read_global_ctx hrm _ _ _ _
    | true =>
      by_cases hqp : q = p
      · cases hsm : s.isMember with
        | false =>
          have : instAt w q = instAt v q := by
            unfold instAt
            rw [hheap hsm]
          rw [this]
        | true =>
          have hd := hd s r hs hr hsm hrm hqp
          subst q
          rw [hn]
          obtain ⟨-, -, ⟨hm, rfl, m, d, hm', ho, hc, rfl⟩ | ⟨hm, -⟩⟩ := write_inv hw
          · rw [hm']
            unfold Sym.read
            rw [hrm]
            simp only [if_true]
            rw [readMember_ne (j := getterIndex k j) (fun e => hd (BitVec.eq_of_toNat_eq e))]
          · rw [hsm] at hm; cases hm
      · rw [hq q hqp]

/-- **C37**: an index that is not below the count raises, for reading and for writing, and changes nothing. -/
theorem c37_index {y i : Nat} {p : Option Nat} {v : Vm} {s : Sym} (hs : v.syms[y]? = some s) (c : Cell)
    (ht : holdsKind (kindOf c) s.type = true) (hi : s.count.toNat ≤ i) :
    readVar (kindOf c) y i p v = (.error (.throw .daedalusIndex), v) ∧
    writeVar c y i p v = (.error (.throw .daedalusIndex), v) := by
  rw [readVar_fst _ _ _ _ _ hs, writeVar_eq, hs]
  have h1 : s.read (kindOf c) i (instAt v p) = .error (.throw .daedalusIndex) := by
    unfold Sym.read
    rw [if_neg (by simp [ht]), if_pos hi]
  have h2 : s.write c i (instAt v p) = .error (.throw .daedalusIndex) := by
    unfold Sym.write
    rw [if_neg (by simp [ht]), if_pos hi]
  dsimp only
  rw [h1, h2]
  exact ⟨rfl, rfl⟩

/-- **C37**: so does an access of another type. -/
theorem c37_type {y i : Nat} {p : Option Nat} {v : Vm} {s : Sym} (hs : v.syms[y]? = some s) (c : Cell)
    (ht : holdsKind (kindOf c) s.type = false) :
    readVar (kindOf c) y i p v = (.error (.throw .daedalusType), v) ∧
    writeVar c y i p v = (.error (.throw .daedalusType), v) := by
  rw [readVar_fst _ _ _ _ _ hs, writeVar_eq, hs]
  have h1 : s.read (kindOf c) i (instAt v p) = .error (.throw .daedalusType) := by
    unfold Sym.read
    rw [if_pos ht]
  have h2 : s.write c i (instAt v p) = .error (.throw .daedalusType) := by
    unfold Sym.write
    rw [if_pos ht]
  dsimp only
  rw [h1, h2]
  exact ⟨rfl, rfl⟩

/-- **C37**: a write that fails changes nothing. -/
theorem c37_failed_write {c : Cell} {y i : Nat} {p : Option Nat} {v w : Vm} {e : Fail}
    (h : writeVar c y i p v = (.error e, w)) : w = v := by
  rw [writeVar_eq] at h
  split at h
  · cases h; rfl
  · split at h
    · unfold storeSym at h; cases h
    · cases h; rfl

/-- A member within its count, of an instance of the right type whose storage holds the objects of the member, can be written:
the theorems above are not about failing writes only. -/
theorem c37_member_writable {c d : Cell} {y i a : Nat} {v : Vm} {s : Sym} {m : Inst} {t : Nat} (hs : v.syms[y]? = some s)
    (ht : holdsKind (kindOf c) s.type = true) (hi : i < s.count.toNat) (hm : s.isMember = true)
    (ha : v.heap[a]? = some m) (hr : s.registeredTo = some t) (hmt : m.type = some t)
    (hc : cellAt m.cells (elementAt s (kindOf c) i).toNat = some d) (hk : kindOf d = kindOf c) :
    ∃ w, writeVar c y i (some a) v = (.ok (), w) := by
  have hoff : s.memberOff i (kindSize (kindOf c)) m = .ok (elementAt s (kindOf c) i).toNat := by
    unfold Sym.memberOff
    rw [hr, hmt]
    simp [elementAt]
  have h2 : ∃ r, s.write c i (instAt v (some a)) = .ok r := by
    have : instAt v (some a) = some m := ha
    rw [this]
    unfold Sym.write
    rw [if_neg (by simp [ht]), if_neg (by omega), if_pos hm]
    unfold writeMember
    dsimp only
    rw [hoff]
    dsimp only
    rw [hc]
    cases c <;> cases d <;> simp [kindOf] at hk ⊢
  obtain ⟨r, h2⟩ := h2
  rw [writeVar_eq, hs]
  dsimp only
  rw [h2]
  exact ⟨_, rfl⟩

/-- The same for a symbol that is not a member. -/
theorem c37_global_writable {c : Cell} {y i : Nat} {p : Option Nat} {v : Vm} {s : Sym} (hs : v.syms[y]? = some s)
    (ht : holdsKind (kindOf c) s.type = true) (hi : i < s.count.toNat) (hm : s.isMember = false)
    (hv : match c, s.value with
      | .int _, .ints (some a) => a.length = s.count.toNat
      | .float _, .floats a => a.length = s.count.toNat
      | .str _, .strs a => a.length = s.count.toNat
      | _, _ => False) :
    ∃ w, writeVar c y i p v = (.ok (), w) := by
  have h2 : ∃ r, s.write c i (instAt v p) = .ok r := by
    unfold Sym.write
    rw [if_neg (by simp [ht]), if_neg (by omega), if_neg (by simp [hm])]
    unfold writeGlobal
    cases c <;> rcases hval : s.value with (_ | a) | a | a | a <;> rw [hval] at hv <;> dsimp only at hv ⊢ <;>
      first
        | exact hv.elim
        | (rw [if_pos (by omega)]; exact ⟨_, rfl⟩)
  obtain ⟨r, h2⟩ := h2
  rw [writeVar_eq, hs]
  dsimp only
  rw [h2]
  exact ⟨_, rfl⟩

/-- **C37** for instances. -/
theorem c37_instance {y : Nat} {q : Option Nat} {v w : Vm} (h : symSetInstance y q v = (.ok (), w)) :
    symGetInstance y w = (.ok q, w) ∧ ∀ z, z ≠ y → w.syms[z]? = v.syms[z]? := by
  unfold symSetInstance at h
  obtain ⟨s, u, h1, h⟩ := M.bind_inv h
  obtain ⟨hy, hu⟩ := symAt_inv h1
  subst u
  obtain ⟨s', u', h2, h⟩ := M.bind_inv h
  obtain ⟨h2, hu'⟩ := lift_inv h2
  subst u'
  unfold storeSym at h
  cases h
  have hw : (v.syms.set y s')[y]? = some s' := List.getElem?_set_self (List.getElem?_eq_some_iff.mp hy).1
  refine ⟨?_, fun z hz => List.getElem?_set_ne (Ne.symm hz)⟩
  unfold symGetInstance
  rw [M.bind_ok (symAt_some hw)]
  unfold Sym.setInstance at h2
  split at h2
  · cases h2
  · rename_i ht
    split at h2
    · cases h2
      unfold Sym.getInstance
      rw [if_neg ht]
      rfl
    · cases h2

/-- **C37** (negation): the getter of a `float` member cuts the index to eight bits, so it reads another element: for every
member with more than 256 elements whose objects exist, a value written to element 256 is not read from it. -/
theorem c37_float_violation {y a t : Nat} {v : Vm} {s : Sym} {m : Inst} {x0 x1 x : BitVec 32} (hs : v.syms[y]? = some s)
    (ht : s.type = .float) (hi : 256 < s.count.toNat) (hm : s.isMember = true) (ha : v.heap[a]? = some m)
    (hr : s.registeredTo = some t) (hmt : m.type = some t)
    (h0 : cellAt m.cells (elementAt s .float 0).toNat = some (.float x0))
    (h1 : cellAt m.cells (elementAt s .float 256).toNat = some (.float x1)) (hx : x ≠ x0) :
    ∃ w, writeVar (.float x) y 256 (some a) v = (.ok (), w) ∧
      (readVar .float y 256 (some a) w).1 = .ok (.float x0) ∧ (.ok (.float x0) : Except Fail Cell) ≠ .ok (.float x) := by
  refine Exists.imp (fun w h => ⟨h.1, h.2, fun e => hx (by cases e; rfl)⟩) (?_ : ∃ w, _ ∧ _)
  obtain ⟨w, hw⟩ := c37_member_writable (c := .float x) hs (by rw [ht]; rfl) hi hm ha hr hmt h1 rfl
  refine ⟨w, hw, ?_⟩
  obtain ⟨s0, s', n, hs0, hwr, hsyms, hn, -⟩ := writeVar_inv hw
  rw [hs] at hs0
  cases hs0
  have hy : w.syms[y]? = some s' := by
    rw [hsyms, List.getElem?_set_self (List.getElem?_eq_some_iff.mp hs).1]
  have e : s'.read .float 256 n = s'.read .float 0 n := by
    obtain ⟨-, -, ⟨_, rfl, _⟩ | ⟨hm', _⟩⟩ := write_inv hwr
    · have hA : ∀ i, i < s'.count.toNat → s'.read .float i n = readMember s' .float (getterIndex .float i) n := fun i hi => by
        unfold Sym.read
        rw [if_neg (by rw [ht]; decide), if_neg (by omega), if_pos hm]
      rw [hA 256 hi, hA 0 (by omega)]
      rfl
    · rw [hm] at hm'; cases hm'
  have e2 := c37_other_index_partial (q := some a) hw (by omega) (j := 0) (by omega) (by omega) .float fun _ _ _ _ => by omega
  rw [readVar_fst _ _ _ _ _ hy, hn, e, ← hn]
  rw [readVar_fst _ _ _ _ _ hy, readVar_fst _ _ _ _ _ hs] at e2
  dsimp only at e2 ⊢
  rw [e2]
  have : instAt v (some a) = some m := ha
  rw [this]
  unfold Sym.read
  rw [if_neg (by rw [ht]; decide), if_neg (by omega), if_pos hm]
  unfold readMember
  have hoff : s.memberOff (getterIndex .float 0) (kindSize .float) m = .ok (elementAt s .float 0).toNat := by
    unfold Sym.memberOff
    rw [hr, hmt]
    simp [elementAt, getterIndex]
  dsimp only
  rw [hoff]
  dsimp only
  rw [h0]
  rfl

/-- A machine with an array of three integers, a string member and an instance for it. -/
def storeVm : Vm where
  syms := [{ type := .int, count := 3, value := .ints (some [some 1, some 2, some 3]) },
    { type := .string, count := 2, flags := 4, memberOffset := 8, registeredTo := some 7 },
    { type := .string, count := 1, value := .strs [[]] }]
  heap := [⟨some 7, 0, [(0, .int 5), (8, .str []), (40, .str b!"x")]⟩]
  tmp := 2

example : ∃ w, writeVar (.int 9) 0 2 none storeVm = (.ok (), w) :=
  c37_global_writable (s := { type := .int, count := 3, value := .ints (some [some 1, some 2, some 3]) }) rfl rfl (by decide) rfl rfl

example : ∃ w, writeVar (.str b!"abc") 1 1 (some 0) storeVm = (.ok (), w) :=
  c37_member_writable (s := { type := .string, count := 2, flags := 4, memberOffset := 8, registeredTo := some 7 })
    (m := ⟨some 7, 0, [(0, .int 5), (8, .str []), (40, .str b!"x")]⟩) (d := .str b!"x") rfl rfl (by decide) rfl rfl rfl rfl rfl rfl

/-- A machine with a `float` member of 300 elements of which the first and the 257th exist. -/
def floatVm : Vm where
  syms := [{ type := .float, count := 300, flags := 4, memberOffset := 0, registeredTo := some 7 }]
  heap := [⟨some 7, 0, [(0, .float 0), (1024, .float 0)]⟩]
  tmp := 2

example : ∃ w, writeVar (.float 5) 0 256 (some 0) floatVm = (.ok (), w) ∧
    (readVar .float 0 256 (some 0) w).1 = .ok (.float 0) ∧ (.ok (.float 0) : Except Fail Cell) ≠ .ok (.float 5) :=
  c37_float_violation (s := { type := .float, count := 300, flags := 4, memberOffset := 0, registeredTo := some 7 })
    (m := ⟨some 7, 0, [(0, .float 0), (1024, .float 0)]⟩) rfl rfl (by decide) rfl rfl rfl rfl rfl rfl (by decide)

end Verif.Props
