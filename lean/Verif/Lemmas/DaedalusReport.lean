import Verif.Spec.DaedalusReport
import Verif.Lemmas.DaedalusMemory

/-! # The report about a failing script -/

namespace Verif.Daedalus

open Verif.Spec.Daedalus

variable {v : Vm}

theorem memberOff_reach {s : Sym} {n : Inst} (hr : s.registeredTo.isSome = true) (ht : n.type = s.registeredTo) (i size : Nat) :
    ∃ off, s.memberOff i size n = .ok off := by
  obtain ⟨r, hr⟩ := Option.isSome_iff_exists.1 hr
  unfold Sym.memberOff
  rw [ht, hr]
  simp

theorem getInt_ok {s : Sym} {k : Byte} (hR : Reachable v s k) (ht : s.type = .int ∨ s.type = .function)
    (hs : s.getInt k.toNat (instAt v v.instance_) ≠ .error .ub) : ∃ r, s.getInt k.toNat (instAt v v.instance_) = .ok r := by
  cases h : s.getInt k.toNat (instAt v v.instance_) with
  | ok r => exact ⟨r, rfl⟩
  | error e =>
    rw [h] at hs
    refine absurd ?_ hs
    obtain ⟨h1, h2⟩ := hR
    unfold Sym.getInt at h
    rw [if_neg (by rcases ht with ht | ht <;> simp [ht]), if_neg (by omega)] at h
    split at h
    · rename_i hm
      rw [if_pos hm] at h2
      obtain ⟨hr, n, hn, htn⟩ := h2
      obtain ⟨off, ho⟩ := memberOff_reach hr htn k.toNat 4
      rw [hn] at h
      simp only [ho] at h
      split at h <;> cases h
      rfl
    · rename_i hm
      rw [if_neg hm] at h2
      have : ∃ a, s.value = .ints a := by rcases ht with ht | ht <;> rw [ht] at h2 <;> exact h2
      obtain ⟨a, ha⟩ := this
      rw [ha] at h
      cases a with
      | none => cases h; rfl
      | some a =>
        simp only at h
        split at h <;> cases h
        rfl

theorem getFloat_ok {s : Sym} {k : Byte} (hR : Reachable v s k) (ht : s.type = .float)
    (hs : s.getFloat k.toNat (instAt v v.instance_) ≠ .error .ub) : ∃ r, s.getFloat k.toNat (instAt v v.instance_) = .ok r := by
  cases h : s.getFloat k.toNat (instAt v v.instance_) with
  | ok r => exact ⟨r, rfl⟩
  | error e =>
    rw [h] at hs
    refine absurd ?_ hs
    obtain ⟨h1, h2⟩ := hR
    unfold Sym.getFloat at h
    rw [if_neg (by simp [ht]), if_neg (by omega)] at h
    split at h
    · rename_i hm
      rw [if_pos hm] at h2
      obtain ⟨hr, n, hn, htn⟩ := h2
      obtain ⟨off, ho⟩ := memberOff_reach hr htn (k.toNat % 256) 4
      rw [hn] at h
      simp only [ho] at h
      split at h <;> cases h
      rfl
    · rename_i hm
      rw [if_neg hm, ht] at h2
      obtain ⟨a, ha⟩ := h2
      rw [ha] at h
      simp only at h
      split at h <;> cases h
      rfl

theorem getString_ok {s : Sym} {k : Byte} (hR : Reachable v s k) (ht : s.type = .string)
    (hs : s.getString k.toNat (instAt v v.instance_) ≠ .error .ub) : ∃ r, s.getString k.toNat (instAt v v.instance_) = .ok r := by
  cases h : s.getString k.toNat (instAt v v.instance_) with
  | ok r => exact ⟨r, rfl⟩
  | error e =>
    rw [h] at hs
    refine absurd ?_ hs
    obtain ⟨h1, h2⟩ := hR
    unfold Sym.getString at h
    rw [if_neg (by simp [ht]), if_neg (by omega)] at h
    split at h
    · rename_i hm
      rw [if_pos hm] at h2
      obtain ⟨hr, n, hn, htn⟩ := h2
      obtain ⟨off, ho⟩ := memberOff_reach hr htn k.toNat Sym.strSize
      rw [hn] at h
      simp only [ho] at h
      split at h <;> cases h
      rfl
    · rename_i hm
      rw [if_neg hm, ht] at h2
      obtain ⟨a, ha⟩ := h2
      rw [ha] at h
      simp only at h
      split at h <;> cases h
      rfl

theorem typeOf_ok (ht : Tidy v) {a : Nat} (ha : a < v.heap.length) : ∃ n t, v.heap[a]? = some n ∧ n.type = some t ∧ typeOf v a = .ok t := by
  have hn : v.heap[a]? = some v.heap[a] := List.getElem?_eq_getElem ha
  obtain ⟨t, hty⟩ := Option.isSome_iff_exists.1 (ht.objects a _ hn).1
  exact ⟨_, t, hn, hty, by unfold typeOf; rw [hn]; simp only [hty]⟩

/-- Whatever is printed for a reference, it is not garbage. -/
theorem showRef_says {s : Sym} {k : Byte} {x : Shown} (h : showRef v s k = .ok x) : IsValue v s k x := by
  unfold showRef at h
  unfold IsValue
  cases hs : s.type with
  | float =>
    rw [hs] at h
    simp only at h ⊢
    cases hg : s.getFloat k.toNat (instAt v v.instance_) with
    | error e => rw [hg] at h; cases h
    | ok r => rw [hg] at h; cases h; exact ⟨r, rfl, rfl⟩
  | int =>
    rw [hs] at h
    simp only at h ⊢
    cases hg : s.getInt k.toNat (instAt v v.instance_) with
    | error e => rw [hg] at h; cases h
    | ok r => rw [hg] at h; cases h; exact ⟨r, rfl, rfl⟩
  | string =>
    rw [hs] at h
    simp only at h ⊢
    cases hg : s.getString k.toNat (instAt v v.instance_) with
    | error e => rw [hg] at h; cases h
    | ok r => rw [hg] at h; cases h; exact ⟨r, rfl, rfl⟩
  | function =>
    rw [hs] at h
    simp only at h ⊢
    cases hg : s.getInt k.toNat (instAt v v.instance_) with
    | error e => rw [hg] at h; cases h
    | ok r =>
      rw [hg] at h
      simp only at h
      cases hy : v.syms[r.toNat]? with
      | none => rw [hy] at h; cases h
      | some t => rw [hy] at h; cases h; exact ⟨r, t, rfl, hy, rfl⟩
  | «instance» =>
    rw [hs] at h
    simp only at h ⊢
    cases hg : s.getInstance with
    | error e => rw [hg] at h; cases h
    | ok p =>
      rw [hg] at h
      cases p with
      | none => cases h; exact ⟨none, rfl, rfl⟩
      | some a =>
        simp only [typeOf] at h
        cases hn : v.heap[a]? with
        | none => rw [hn] at h; cases h
        | some n =>
          rw [hn] at h
          simp only at h
          cases hty : n.type with
          | none => rw [hty] at h; cases h
          | some t => rw [hty] at h; cases h; exact ⟨some a, rfl, n, t, hn, hty, rfl⟩
  | void | class_ | prototype | other => rw [hs] at h; simp only at h ⊢; cases h; rfl

theorem stackGet_slot {i : Nat} {f : Frame} (h : (stackGet i v).1 = .ok f) : v.stack[i]? = some (some f) := by
  unfold stackGet at h
  split at h
  · cases h
  · split at h
    · rename_i hf; cases h; exact hf
    · cases h

theorem slotLine_says {i : Nat} {l : Line} (h : slotLine v i = .ok l) : SaysSlot v i l := by
  unfold slotLine at h
  unfold SaysSlot
  cases hg : (stackGet i v).1 with
  | error e => rw [hg] at h; cases h
  | ok f =>
    rw [hg] at h
    rw [stackGet_slot hg]
    cases f with
    | int x => cases h; rfl
    | float x => cases h; rfl
    | inst p =>
      cases p with
      | none => cases h; rfl
      | some a =>
        simp only [typeOf] at h ⊢
        cases hn : v.heap[a]? with
        | none => rw [hn] at h; cases h
        | some n =>
          rw [hn] at h
          simp only at h
          cases hty : n.type with
          | none => rw [hty] at h; cases h
          | some t => rw [hty] at h; cases h; exact ⟨n, t, rfl, hty, rfl⟩
    | ref y k p =>
      simp only at h ⊢
      cases hy : v.syms[y]? with
      | none => rw [hy] at h; cases h
      | some s =>
        rw [hy] at h
        simp only at h
        cases hg : showRef v s k with
        | error e => rw [hg] at h; cases h
        | ok x => rw [hg] at h; cases h; exact ⟨s, x, rfl, showRef_says hg, rfl⟩

theorem slotLines_say {n : Nat} {ls : List Line} (h : slotLines v n = .ok ls) : List.Forall₂ (SaysSlot v) (List.range n).reverse ls := by
  induction n generalizing ls with
  | zero => cases h; exact .nil
  | succ n ih =>
    unfold slotLines at h
    cases hl : slotLine v n with
    | error e => rw [hl] at h; cases h
    | ok l =>
      rw [hl] at h
      simp only at h
      cases hr : slotLines v n with
      | error e => rw [hr] at h; cases h
      | ok r =>
        rw [hr] at h
        cases h
        rw [List.range_succ, List.reverse_append]
        exact .cons (slotLine_says hl) (ih hr)

theorem callLines_say {cs : List Call} {pc : BitVec 32} {ls : List Line} (h : callLines v pc cs = .ok ls) :
    List.Forall₂ (fun (c : Call × BitVec 32) l => SaysCall v c.1 c.2 l) (cs.zip (pc :: cs.map Call.pc)) ls := by
  induction cs generalizing pc ls with
  | nil => cases h; exact .nil
  | cons c cs ih =>
    unfold callLines at h
    cases hy : v.syms[c.fn]? with
    | none => rw [hy] at h; cases h
    | some s =>
      rw [hy] at h
      simp only at h
      cases hr : callLines v c.pc cs with
      | error e => rw [hr] at h; cases h
      | ok r =>
        rw [hr] at h
        cases h
        exact .cons ⟨s, hy, rfl⟩ (ih hr)

theorem allOnes_toInt {x : BitVec 32} : x.toInt = -1 ↔ x = BitVec.allOnes 32 := by
  constructor
  · intro h
    apply BitVec.eq_of_toInt_eq
    rw [h]
    decide
  · rintro rfl
    decide

theorem instLine_says {p : Option Nat} {known : Bytes → BitVec 32 → Line} {null tr l : Line} (h : instLine v p known null tr = .ok l) :
    SaysInst v p known null tr l := by
  unfold instLine at h
  unfold SaysInst
  cases p with
  | none => cases h; rfl
  | some a =>
    simp only at h ⊢
    cases hn : v.heap[a]? with
    | none => rw [hn] at h; cases h
    | some n =>
      rw [hn] at h
      simp only at h
      refine ⟨n, rfl, ?_⟩
      by_cases e : n.symIndex = BitVec.allOnes 32
      · rw [if_pos e] at h
        cases h
        exact .inl ⟨allOnes_toInt.2 e, rfl⟩
      · rw [if_neg e] at h
        cases hy : v.syms[n.symIndex.toNat]? with
        | none => rw [hy] at h; cases h
        | some s => rw [hy] at h; cases h; exact .inr ⟨fun h => e (allOnes_toInt.1 h), s, rfl, rfl⟩

theorem globalLines_say {ns : List Bytes} {ls : List Line} (h : globalLines v ns = .ok ls) :
    List.Forall₂ (SaysGlobal v) (ns.filterMap (findByName v.syms)) ls := by
  induction ns generalizing ls with
  | nil => cases h; exact .nil
  | cons n ns ih =>
    unfold globalLines at h
    cases hf : findByName v.syms n with
    | none => rw [hf] at h; rw [List.filterMap_cons_none hf]; exact ih h
    | some y =>
      rw [hf] at h
      rw [List.filterMap_cons_some hf]
      simp only at h
      cases hy : v.syms[y]? with
      | none => rw [hy] at h; cases h
      | some s =>
        rw [hy] at h
        simp only at h
        cases hg : s.getInstance with
        | error e => rw [hg] at h; cases h
        | ok p =>
          rw [hg] at h
          simp only at h
          cases hl : instLine v p (.global s.name) (.globalNull s.name) (.globalTransient s.name) with
          | error e => rw [hl] at h; cases h
          | ok l =>
            rw [hl] at h
            simp only at h
            cases hr : globalLines v ns with
            | error e => rw [hr] at h; cases h
            | ok r =>
              rw [hr] at h
              cases h
              exact .cons ⟨s, p, hy, hg, instLine_says hl⟩ (ih hr)

/-- A report that does not fail is complete. -/
theorem report_complete {ls : List Line} (h : report v = .ok ls) : Complete v ls := by
  unfold report at h
  cases h1 : callLines v v.pc v.calls with
  | error e => rw [h1] at h; cases h
  | ok c =>
    cases h2 : slotLines v v.sp.toNat with
    | error e => rw [h1, h2] at h; cases h
    | ok sl =>
      cases h3 : globalLines v globalNames with
      | error e => rw [h1, h2, h3] at h; cases h
      | ok g =>
        cases h4 : instLine v v.instance_ .this .thisNull .thisTransient with
        | error e => rw [h1, h2, h3, h4] at h; cases h
        | ok t =>
          rw [h1, h2, h3, h4] at h
          cases h
          exact ⟨c, sl, g, t, rfl, callLines_say h1, slotLines_say h2, globalLines_say h3, instLine_says h4⟩

/-! ### When it does not fail -/

theorem map_ne_ub {α β} {x : Except Fail α} {f : α → β} (h : x ≠ .error .ub) : x.map f ≠ .error .ub := by
  cases x with
  | ok a => simp [Except.map]
  | error e => intro h'; apply h; simpa [Except.map] using h'

theorem showRef_safe (ht : Tidy v) {y : Nat} {s : Sym} (hy : v.syms[y]? = some s) (hh : ¬ Hollow s) {k : Byte} (hf : HoldsFunction v s k) :
    showRef v s k ≠ .error .ub := by
  have hk : k.toNat < 256 := k.toNat_lt
  have hc := ht.ctxOk hy (i := k.toNat) (p := v.instance_) (.inr hk)
  have hst := ht.stored y s hy
  unfold showRef
  cases hs : s.type with
  | float => exact map_ne_ub (getFloat_safe hst hc)
  | int => exact map_ne_ub (getInt_safe hst hh hc)
  | string => exact map_ne_ub (getString_safe hst hc)
  | function =>
    simp only
    have := getInt_safe hst hh hc
    cases hg : s.getInt k.toNat (instAt v v.instance_) with
    | error e => rw [hg] at this; simpa using this
    | ok r =>
      simp only
      rw [List.getElem?_eq_getElem (hf hs r hg)]
      simp
  | «instance» =>
    simp only
    unfold Sym.getInstance
    rw [if_neg (by simp [hs])]
    match hv : s.value with
    | .inst none => simp
    | .inst (some a) =>
      simp only
      obtain ⟨_, t, _, _, e⟩ := typeOf_ok ht (ht.held y s a hy hv)
      rw [e]
      simp [Except.map]
    | .ints _ => simp
    | .floats _ => simp
    | .strs _ => simp
  | void | class_ | prototype | other => simp

theorem stackGet_below (ht : Tidy v) {i : Nat} (hi : i < v.sp.toNat) : ∃ f, (stackGet i v).1 = .ok f ∧ v.stack[i]? = some (some f) := by
  obtain ⟨f, hf⟩ := ht.written i hi
  refine ⟨f, ?_, hf⟩
  unfold stackGet
  have := ht.depth
  have : ¬ i ≥ stackSize := by unfold stackSize; omega
  rw [if_neg this, hf]

theorem slotLine_safe (ht : Tidy v) (hF : ∀ s k, OnStack v s k → HoldsFunction v s k) {i : Nat} (hi : i < v.sp.toNat) :
    slotLine v i ≠ .error .ub := by
  obtain ⟨f, hg, hf⟩ := stackGet_below ht hi
  unfold slotLine
  rw [hg]
  have hgood := ht.frames i f hf
  cases f with
  | int x => simp
  | float x => simp
  | inst p =>
    cases p with
    | none => simp
    | some a =>
      simp only
      obtain ⟨_, t, _, _, e⟩ := typeOf_ok ht (hgood.inst a rfl)
      rw [e]
      simp [Except.map]
  | ref y k p =>
    simp only
    obtain ⟨s, hy, hh⟩ := hgood.ref y k p rfl
    rw [hy]
    exact map_ne_ub (showRef_safe ht hy hh (hF s k ⟨i, y, p, hi, hf, hy⟩))

theorem slotLines_safe (ht : Tidy v) (hF : ∀ s k, OnStack v s k → HoldsFunction v s k) {n : Nat} (hn : n ≤ v.sp.toNat) :
    slotLines v n ≠ .error .ub := by
  induction n with
  | zero => simp [slotLines]
  | succ n ih =>
    unfold slotLines
    have h := slotLine_safe ht hF (i := n) (by omega)
    cases hl : slotLine v n with
    | error e => rw [hl] at h; simpa using h
    | ok l => exact map_ne_ub (ih (by omega))

theorem callLines_ok {cs : List Call} (h : ∀ c ∈ cs, ∃ s, v.syms[c.fn]? = some s) (pc : BitVec 32) : ∃ ls, callLines v pc cs = .ok ls := by
  induction cs generalizing pc with
  | nil => exact ⟨_, rfl⟩
  | cons c cs ih =>
    obtain ⟨s, hs⟩ := h c (by simp)
    obtain ⟨ls, hl⟩ := ih (fun c hc => h c (by simp [hc])) c.pc
    unfold callLines
    rw [hs]
    simp only [hl]
    exact ⟨_, rfl⟩

theorem instLine_ok {p : Option Nat} (h : Rooted v p) (known : Bytes → BitVec 32 → Line) (null tr : Line) :
    ∃ l, instLine v p known null tr = .ok l := by
  unfold instLine
  cases p with
  | none => exact ⟨_, rfl⟩
  | some a =>
    obtain ⟨n, hn, hs⟩ := h a rfl
    simp only [hn]
    by_cases e : n.symIndex = BitVec.allOnes 32
    · rw [if_pos e]; exact ⟨_, rfl⟩
    · rw [if_neg e]
      rcases hs with hs | hs
      · exact absurd (allOnes_toInt.1 hs) e
      · rw [List.getElem?_eq_getElem hs]
        exact ⟨_, rfl⟩

theorem lastIndex_lt {p : Sym → Bool} {l : List Sym} {i : Nat} (h : lastIndex p l = some i) : i < l.length := by
  induction l generalizing i with
  | nil => cases h
  | cons s l ih =>
    unfold lastIndex at h
    cases hl : lastIndex p l with
    | some j => rw [hl] at h; cases h; have := ih hl; simp; omega
    | none =>
      rw [hl] at h
      simp only at h
      split at h
      · cases h; simp
      · cases h

theorem globalLines_safe {ns : List Bytes} (hn : ∀ n ∈ ns, n ∈ globalNames)
    (hG : ∀ s p, IsGlobal v s → s.value = .inst p → Rooted v p) : globalLines v ns ≠ .error .ub := by
  induction ns with
  | nil => simp [globalLines]
  | cons n ns ih =>
    have ih := ih fun m hm => hn m (by simp [hm])
    unfold globalLines
    cases hf : findByName v.syms n with
    | none => exact ih
    | some y =>
      have hlt := lastIndex_lt hf
      simp only
      rw [List.getElem?_eq_getElem hlt]
      simp only
      cases hg : v.syms[y].getInstance with
      | error e => have := getInstance_safe (s := v.syms[y]); rw [hg] at this; simpa using this
      | ok p =>
        have hv : v.syms[y].value = .inst p := by
          unfold Sym.getInstance at hg
          split at hg
          · cases hg
          · split at hg
            · rename_i q hq; cases hg; exact hq
            · cases hg
        obtain ⟨l, hl⟩ := instLine_ok (hG _ p ⟨n, hn n (by simp), y, hf, List.getElem?_eq_getElem hlt⟩ hv) (.global v.syms[y].name)
          (.globalNull v.syms[y].name) (.globalTransient v.syms[y].name)
        simp only [hl]
        exact map_ne_ub ih

/-- No report about a machine in order is undefined if functions and instances are what they should be. -/
theorem report_safe (ht : Tidy v) (hc : ∀ c ∈ v.calls, ∃ s, v.syms[c.fn]? = some s) (hT : Traceable v) : report v ≠ .error .ub := by
  unfold report
  obtain ⟨c, h1⟩ := callLines_ok hc v.pc
  have h2 := slotLines_safe ht hT.function (n := v.sp.toNat) (Nat.le_refl _)
  have h3 := globalLines_safe (v := v) (ns := globalNames) (fun _ h => h) hT.global
  obtain ⟨t, h4⟩ := instLine_ok hT.this .this .thisNull .thisTransient
  rw [h1]
  cases hs : slotLines v v.sp.toNat with
  | error e => rw [hs] at h2; intro h; apply h2; cases h; rfl
  | ok sl =>
    cases hg : globalLines v globalNames with
    | error e => rw [hg] at h3; intro h; apply h3; cases h; rfl
    | ok g => rw [h4]; intro h; cases h

theorem showRef_ok {s : Sym} {k : Byte} (h : showRef v s k ≠ .error .ub) (ht : Tidy v) {y : Nat} (hy : v.syms[y]? = some s) (hh : ¬ Hollow s)
    (h1 : s.type = .float ∨ s.type = .int ∨ s.type = .string ∨ s.type = .function → Reachable v s k)
    (h2 : s.type = .instance → ∃ p, s.value = .inst p) : ∃ x, showRef v s k = .ok x := by
  have hk : k.toNat < 256 := k.toNat_lt
  have hc := ht.ctxOk hy (i := k.toNat) (p := v.instance_) (.inr hk)
  have hst := ht.stored y s hy
  unfold showRef at h ⊢
  cases hs : s.type with
  | float =>
    obtain ⟨r, e⟩ := getFloat_ok (h1 (by simp [hs])) hs (getFloat_safe hst hc)
    simp only [e]; exact ⟨_, rfl⟩
  | int =>
    obtain ⟨r, e⟩ := getInt_ok (h1 (by simp [hs])) (.inl hs) (getInt_safe hst hh hc)
    simp only [e]; exact ⟨_, rfl⟩
  | string =>
    obtain ⟨r, e⟩ := getString_ok (h1 (by simp [hs])) hs (getString_safe hst hc)
    simp only [e]; exact ⟨_, rfl⟩
  | function =>
    obtain ⟨r, e⟩ := getInt_ok (h1 (by simp [hs])) (.inr hs) (getInt_safe hst hh hc)
    rw [hs] at h
    simp only [e] at h ⊢
    cases hr : v.syms[r.toNat]? with
    | none => rw [hr] at h; exact absurd rfl h
    | some t => exact ⟨_, rfl⟩
  | «instance» =>
    obtain ⟨p, hp⟩ := h2 hs
    have e : s.getInstance = .ok p := by unfold Sym.getInstance; rw [if_neg (by simp [hs]), hp]
    simp only [e]
    cases p with
    | none => exact ⟨_, rfl⟩
    | some a =>
      obtain ⟨_, t, _, _, e⟩ := typeOf_ok ht (ht.held y s a hy hp)
      simp only [e]; exact ⟨_, rfl⟩
  | void | class_ | prototype | other => exact ⟨_, rfl⟩

theorem slotLine_ok (ht : Tidy v) (hT : Traceable v) (hP : Presentable v) {i : Nat} (hi : i < v.sp.toNat) : ∃ l, slotLine v i = .ok l := by
  obtain ⟨f, hg, hf⟩ := stackGet_below ht hi
  unfold slotLine
  rw [hg]
  have hgood := ht.frames i f hf
  cases f with
  | int x => exact ⟨_, rfl⟩
  | float x => exact ⟨_, rfl⟩
  | inst p =>
    cases p with
    | none => exact ⟨_, rfl⟩
    | some a =>
      obtain ⟨_, t, _, _, e⟩ := typeOf_ok ht (hgood.inst a rfl)
      simp only [e]
      exact ⟨_, rfl⟩
  | ref y k p =>
    obtain ⟨s, hy, hh⟩ := hgood.ref y k p rfl
    have on : OnStack v s k := ⟨i, y, p, hi, hf, hy⟩
    obtain ⟨x, e⟩ := showRef_ok (showRef_safe ht hy hh (hT.function s k on)) ht hy hh (hP.element s k on) (hP.instance_ s k on)
    simp only [hy, e]
    exact ⟨_, rfl⟩

theorem slotLines_ok (ht : Tidy v) (hT : Traceable v) (hP : Presentable v) {n : Nat} (hn : n ≤ v.sp.toNat) :
    ∃ ls, slotLines v n = .ok ls := by
  induction n with
  | zero => exact ⟨_, rfl⟩
  | succ n ih =>
    obtain ⟨l, e⟩ := slotLine_ok ht hT hP (i := n) (by omega)
    obtain ⟨ls, e'⟩ := ih (by omega)
    unfold slotLines
    rw [e]
    simp only [e']
    exact ⟨_, rfl⟩

theorem globalLines_ok {ns : List Bytes} (hn : ∀ n ∈ ns, n ∈ globalNames) (hT : Traceable v) (hP : Presentable v) :
    ∃ ls, globalLines v ns = .ok ls := by
  induction ns with
  | nil => exact ⟨_, rfl⟩
  | cons n ns ih =>
    obtain ⟨ls, e⟩ := ih fun m hm => hn m (by simp [hm])
    unfold globalLines
    cases hf : findByName v.syms n with
    | none => exact ⟨_, e⟩
    | some y =>
      have hlt := lastIndex_lt hf
      have hy := List.getElem?_eq_getElem hlt
      have hg : IsGlobal v v.syms[y] := ⟨n, hn n (by simp), y, hf, hy⟩
      obtain ⟨h1, p, h2⟩ := hP.global _ hg
      have hi : v.syms[y].getInstance = .ok p := by unfold Sym.getInstance; rw [if_neg (by simp [h1]), h2]
      obtain ⟨l, hl⟩ := instLine_ok (hT.global _ p hg h2) (.global v.syms[y].name) (.globalNull v.syms[y].name)
        (.globalTransient v.syms[y].name)
      simp only [hy, hi, hl, e]
      exact ⟨_, rfl⟩

/-- When the report succeeds. -/
theorem report_ok (ht : Tidy v) (hc : ∀ c ∈ v.calls, ∃ s, v.syms[c.fn]? = some s) (hT : Traceable v) (hP : Presentable v) :
    ∃ ls, report v = .ok ls := by
  obtain ⟨c, h1⟩ := callLines_ok hc v.pc
  obtain ⟨sl, h2⟩ := slotLines_ok ht hT hP (n := v.sp.toNat) (Nat.le_refl _)
  obtain ⟨g, h3⟩ := globalLines_ok (ns := globalNames) (fun _ h => h) hT hP
  obtain ⟨t, h4⟩ := instLine_ok hT.this .this .thisNull .thisTransient
  unfold report
  rw [h1, h2, h3, h4]
  exact ⟨_, rfl⟩

/-! ### The machine with reports -/

/-- The same machine afterwards and the same result, or both fail; if the second fails in another way, because a report failed. -/
def Sim {α} (p q : M α) : Prop :=
  ∀ v, (q v).2 = (p v).2 ∧
    ((q v).1 = (p v).1 ∨ ∃ e e' w, (p v).1 = .error e ∧ (q v).1 = .error e' ∧ report w = .error e')

theorem Sim.refl {α} (p : M α) : Sim p p := fun _ => ⟨rfl, .inl rfl⟩

theorem Sim.bind {α β} {p q : M α} {f g : α → M β} (h : Sim p q) (hf : ∀ a, Sim (f a) (g a)) : Sim (p >>= f) (q >>= g) := by
  intro v
  obtain ⟨h1, h2⟩ := h v
  show (M.bind q g v).2 = (M.bind p f v).2 ∧ _
  change _ ∧ ((M.bind q g v).1 = (M.bind p f v).1 ∨ ∃ e e' w, (M.bind p f v).1 = .error e ∧ (M.bind q g v).1 = .error e' ∧ report w = .error e')
  unfold M.bind
  rcases hp : p v with ⟨r, v'⟩
  rcases hq : q v with ⟨r', v''⟩
  rw [hp, hq] at h1 h2
  simp only at h1 h2
  subst h1
  rcases h2 with rfl | ⟨e, e', w, rfl, rfl, hw⟩
  · cases r' with
    | ok a => exact hf a _
    | error e => exact ⟨rfl, .inl rfl⟩
  · exact ⟨rfl, .inr ⟨e, e', w, rfl, rfl, hw⟩⟩

theorem Sim.execOp {h : Host} {call call' : Nat → M Unit} (hc : ∀ y, Sim (call y) (call' y)) (i : Instr) :
    Sim (execOp h call i) (execOp h call' i) := by
  have bl : Sim (execBl h call i.address) (execBl h call' i.address) := by
    unfold execBl
    refine Sim.bind (Sim.refl _) fun v => ?_
    split
    · exact Sim.refl _
    · split
      · exact Sim.refl _
      · exact Sim.bind (hc _) fun _ => Sim.refl _
  unfold Daedalus.execOp
  split
  all_goals first | exact Sim.refl _ | exact bl

section
variable {h : Host} {i : Instr} {w : Vm}

theorem execInstr_err {call : Nat → M Unit} (hh : h.handler = none) {e : Fail} (hx : execOp h call i v = (.error e, w)) :
    execInstr h call i v = (.error e, w) := by
  unfold execInstr
  rw [hx]
  cases e with
  | throw e =>
    simp only
    split
    · unfold execCatch
      rw [hh]
      rfl
    · rfl
  | ub | hang | terminate => rfl

theorem execInstrR_err {call : Nat → M Unit} (hh : h.handler = none) {e : Fail} (hx : execOp h call i v = (.error e, w)) :
    (execInstrR h call i v).2 = w ∧ ∃ e', (execInstrR h call i v).1 = .error e' ∧ (e' = e ∨ ∃ w', report w' = .error e') := by
  unfold execInstrR
  rw [hx]
  cases e with
  | throw e =>
    simp only
    split
    · have : execCatchR h e i w = rethrow e w := by
        unfold execCatchR
        rw [hh]
        rfl
      rw [this]
      unfold rethrow
      cases hr : report w with
      | ok _ => exact ⟨rfl, _, rfl, .inl rfl⟩
      | error e' => exact ⟨rfl, _, rfl, .inr ⟨w, hr⟩⟩
    · exact ⟨rfl, _, rfl, .inl rfl⟩
  | ub | hang | terminate => exact ⟨rfl, _, rfl, .inl rfl⟩

theorem execInstrR_ok {call call' : Nat → M Unit} {s : Step} (hx : execOp h call i v = (.ok s, w)) (hx' : execOp h call' i v = (.ok s, w)) :
    execInstrR h call' i v = execInstr h call i v := by
  unfold execInstrR execInstr
  rw [hx, hx']
  cases s <;> rfl

end

theorem Sim.execInstr {h : Host} (hh : h.handler = none) {call call' : Nat → M Unit} (hc : ∀ y, Sim (call y) (call' y)) (i : Instr) :
    Sim (execInstr h call i) (execInstrR h call' i) := by
  intro v
  obtain ⟨h1, h2⟩ := Sim.execOp (h := h) hc i v
  rcases hp : Daedalus.execOp h call i v with ⟨r, v'⟩
  rcases hq : Daedalus.execOp h call' i v with ⟨r', v''⟩
  rw [hp, hq] at h1 h2
  simp only at h1 h2
  subst h1
  rcases h2 with rfl | ⟨e, e', w, rfl, rfl, hw⟩
  · cases r' with
    | ok s => rw [execInstrR_ok hp hq]; exact ⟨rfl, .inl rfl⟩
    | error e =>
      obtain ⟨k1, e', k2, k3⟩ := execInstrR_err hh hq
      rw [execInstr_err hh hp]
      refine ⟨k1, ?_⟩
      rcases k3 with rfl | ⟨w', hw'⟩
      · exact .inl k2
      · exact .inr ⟨e, e', w', rfl, k2, hw'⟩
  · obtain ⟨k1, e2, k2, k3⟩ := execInstrR_err hh hq
    rw [execInstr_err hh hp]
    refine ⟨k1, .inr ⟨e, e2, ?_⟩⟩
    rcases k3 with rfl | ⟨w', hw'⟩
    · exact ⟨w, rfl, k2, hw⟩
    · exact ⟨w', rfl, k2, hw'⟩

theorem Sim.loop {p q : M Bool} (h : Sim p q) (n : Nat) : Sim (loop p n) (loop q n) := by
  induction n with
  | zero => exact Sim.refl _
  | succ n ih =>
    unfold Daedalus.loop
    refine Sim.bind h fun b => ?_
    cases b with
    | true => exact ih
    | false => exact Sim.refl _

/-- Reports change nothing but, if they fail themselves, the exception. -/
theorem Sim.unsafeCall {h : Host} (hh : h.handler = none) (fuel : Nat) (y : Nat) : Sim (unsafeCall h fuel y) (unsafeCallR h fuel y) := by
  induction fuel generalizing y with
  | zero => exact Sim.refl _
  | succ n ih =>
    unfold Daedalus.unsafeCall unsafeCallR
    refine Sim.bind (Sim.refl _) fun _ => Sim.bind (Sim.refl _) fun f => Sim.bind (Sim.refl _) fun _ =>
      Sim.bind (Sim.loop (Sim.bind (Sim.refl _) fun i => Sim.execInstr hh ih i) n) fun _ => Sim.refl _

/-- A handler that never gives up: no reports. -/
theorem unsafeCallR_eq {h : Host} {hd : Exc → Instr → M Strategy} (hh : h.handler = some hd) (hn : ∀ e i v, (hd e i v).1 ≠ .ok .fail)
    (fuel : Nat) : unsafeCallR h fuel = unsafeCall h fuel := by
  have hc : ∀ e i, execCatchR h e i = execCatch h e i := by
    intro e i
    funext v
    unfold execCatchR execCatch
    rw [hh]
    show M.bind M.get _ v = M.bind M.get _ v
    unfold M.bind M.get
    simp only
    show M.bind (hd e i) _ v = M.bind (hd e i) _ v
    unfold M.bind
    have := hn e i v
    rcases hx : hd e i v with ⟨r, v'⟩
    rw [hx] at this
    match r with
    | .ok .fail => exact absurd rfl this
    | .ok .return_ => rfl
    | .ok .continue_ => rfl
    | .error e => rfl
  have hi : ∀ call i, execInstrR h call i = execInstr h call i := by
    intro call i
    funext v
    unfold execInstrR execInstr
    simp only [hc]
    rfl
  induction fuel with
  | zero => rfl
  | succ n ih =>
    funext y
    unfold unsafeCallR Daedalus.unsafeCall
    have : execR h (unsafeCallR h n) = exec h (Daedalus.unsafeCall h n) := by
      unfold execR exec
      rw [ih]
      congr 1
      funext i
      exact hi _ i
    rw [this]

end Verif.Daedalus
