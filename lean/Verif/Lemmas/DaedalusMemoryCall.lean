import Verif.Lemmas.DaedalusMemory

/-!
# Lemmas about the memory of the machine (C100): calls
-/

namespace Verif.Daedalus

open Verif.Spec.Daedalus

theorem localsEnd_le {parent : Bytes} : ∀ {l : List Sym} {i k : Nat}, localsEnd parent l i = some k → k ≤ i + l.length
  | [], _, _, h => by cases h
  | s :: rest, i, k, h => by
    unfold localsEnd at h
    split at h
    · have := localsEnd_le h
      rw [List.length_cons]
      omega
    · cases h
      omega

/-- Locals are in the table. -/
theorem localsOf_lt {v : Vm} {f : Sym} {l : Nat} (h : l ∈ localsOf v f) : l < v.syms.length := by
  unfold localsOf findLocals at h
  dsimp only at h
  rw [List.mem_range'_1] at h
  split at h
  · rename_i last he
    have := localsEnd_le he
    rw [List.length_drop] at this
    omega
  · omega

theorem sum_map_congr {α} {f g : α → Nat} : ∀ {l : List α}, (∀ x ∈ l, f x = g x) → (l.map f).sum = (l.map g).sum
  | [], _ => rfl
  | a :: as, h => by
    rw [List.map_cons, List.map_cons, List.sum_cons, List.sum_cons, h a (List.mem_cons_self ..),
      sum_map_congr fun x hx => h x (List.mem_cons_of_mem _ hx)]

theorem shape_hasReturn {s t : Sym} (h : s.shape = t.shape) : s.hasReturn = t.hasReturn := by unfold Sym.hasReturn; rw [shape_flags h]

/-- Functions keep what makes them callable. -/
theorem _root_.Verif.Spec.Daedalus.Fits.same {v w : Vm} (h : Same v w) {y : Nat} (hy : Fits v y) : Fits w y := by
  obtain ⟨f, h1, h2, h3, h4⟩ := hy
  obtain ⟨f', k1, k2, k3⟩ := h.decl y f h1
  have hc := extent_count (k3 h2)
  refine ⟨f', k1, by rw [h.tmp]; exact h2, by rw [shape_index k2, hc, h.len]; exact h3, fun hl => ?_⟩
  obtain ⟨a1, a2, a3⟩ := h4 (by rw [← shape_hasLocals k2]; exact hl)
  rw [h.localsOf k2 hc]
  refine ⟨fun hr => by rw [shape_rtype k2]; exact a1 (by rw [← shape_hasReturn k2]; exact hr), ?_, fun l hm => ?_⟩
  · suffices e : slotsOf w (localsOf v f) = slotsOf v (localsOf v f) by rw [e]; exact a2
    unfold slotsOf
    refine sum_map_congr fun l hm => ?_
    obtain ⟨b1, -⟩ := a3 l hm
    have hlt := localsOf_lt hm
    obtain ⟨s', c1, c2, c3⟩ := h.decl l _ (List.getElem?_eq_getElem hlt)
    rw [c1, List.getElem?_eq_getElem hlt]
    dsimp only
    unfold localSlots
    rw [shape_type c2, extent_count (c3 b1)]
  · obtain ⟨b1, b2⟩ := a3 l hm
    refine ⟨by rw [h.tmp]; exact b1, fun s hs hh => ?_⟩
    obtain ⟨t, c1, c2, c3⟩ := h.symm.decl l s hs
    exact b2 t c1 (hh.extent c2.symm (c3 (by rw [h.tmp]; exact b1)).symm)

theorem _root_.Verif.Spec.Daedalus.Callables.same {h : Host} {v w : Vm} (hs : Same v w) (hc : Callables h v) : Callables h w :=
  ⟨fun a y hy => (hc.code a y (by rw [← hs.findByAddress]; exact hy)).same hs,
   fun y h1 h2 => (hc.external y h1 (by rw [← hs.len]; exact h2)).same hs,
   fun a ha => by rw [hs.findByAddress]; exact hc.override_ a ha⟩

theorem callsFit_step {v w : Vm} (h : CallsFit v) (hs : Same v w) (hu : Up v w) (hc : ∀ c ∈ w.calls, c ∈ v.calls) : CallsFit w :=
  fun c hm => by
    obtain ⟨h1, h2, h3⟩ := h c (hc c hm)
    exact ⟨h1.same hs, h2, hu.written h3⟩

theorem _root_.Verif.Spec.Daedalus.Good.step {h : Host} {v w : Vm} (hg : Good h v) (ht : Tidy w) (hs : Same v w) (hu : Up v w)
    (hc : w.calls = v.calls) : Good h w :=
  ⟨ht, callsFit_step hg.calls hs hu (fun c h => by rw [hc] at h; exact h), hg.callables.same hs⟩

/-! ## Locals -/

theorem TmAt.params {v : Vm} (hs : Tidy v) {f : Sym} (h : f.index.toNat + f.count.toNat < v.syms.length) :
    TmAt v (fun ps w => ps.length = f.count.toNat ∧ w = v) (params f) := by
  unfold Daedalus.params
  refine TmAt.get_bind ?_
  rw [if_neg (by omega)]
  exact TmAt.pure hs ⟨List.length_range', rfl⟩

theorem TmAt.moves {base size n : Nat} (hn : base + n ≤ 2048) (hsz : base + size + n ≤ 2048) : ∀ (l : List Nat) {v : Vm}, Tidy v →
    (∀ i ∈ l, i < n) → Written v (base + n) →
    TmAt v (fun _ w => w.sp = v.sp ∧ ∀ i ∈ l, ∃ f, w.stack[base + size + i]? = some (some f))
      (forM_ (fun i => Daedalus.moveSlot (base + i) (base + size + i)) l)
  | [], _, hs, _, _ => TmAt.pure hs ⟨rfl, by simp⟩
  | a :: as, v, hs, hl, hw => by
    have ha := hl a (List.mem_cons_self ..)
    refine (TmAt.moveSlot hs (by omega) (by omega) (hw (base + a) (by omega))).bind fun _ w _ hsw _ hu h => ?_
    refine (TmAt.moves hn hsz as hsw (fun i hi => hl i (List.mem_cons_of_mem _ hi)) (hu.written hw)).mono
      fun _ u _ _ _ hu' h' => ⟨h'.1.trans h.1, fun i hi => ?_⟩
    rcases List.mem_cons.mp hi with rfl | hi
    · obtain ⟨f, hf⟩ := h.2
      exact hu'.slots _ _ hf
    · exact h'.2 i hi

/-- Variables that a function may have as locals. -/
def Locals (v : Vm) (ls : List Nat) : Prop := ∀ l ∈ ls, ∃ s, Local v l s

theorem Locals.same {v w : Vm} (h : Same v w) {ls : List Nat} (hl : Locals v ls) : Locals w ls := fun l hm => by
  obtain ⟨s, hs⟩ := hl l hm
  obtain ⟨s', h1, -⟩ := hs.same h
  exact ⟨s', h1⟩

theorem slotsOf_same {v w : Vm} (h : Same v w) {ls : List Nat} (hl : Locals v ls) : slotsOf w ls = slotsOf v ls := by
  unfold slotsOf
  refine sum_map_congr fun l hm => ?_
  obtain ⟨s, hs⟩ := hl l hm
  obtain ⟨s', h1, h2, h3⟩ := hs.same h
  rw [h1.1, hs.1]
  dsimp only
  unfold localSlots
  rw [h2, h3]

theorem TmAt.saveLocals : ∀ (ls : List Nat) {v : Vm}, Tidy v → Locals v ls →
    TmAt v (fun _ w => w.sp.toNat = v.sp.toNat + slotsOf v ls) (forM_ Daedalus.saveLocal ls)
  | [], _, hs, _ => TmAt.pure hs rfl
  | l :: ls, v, hs, hl => by
    obtain ⟨s, h1⟩ := hl l (List.mem_cons_self ..)
    have htl : Locals v ls := fun x hx => hl x (List.mem_cons_of_mem _ hx)
    refine (TmAt.saveLocal hs h1).bind fun _ w _ hsw k _ h => ?_
    refine (TmAt.saveLocals ls hsw (htl.same k.toSame)).mono fun _ u _ _ _ _ h' => ?_
    rw [h', h, slotsOf_same k.toSame htl]
    unfold slotsOf
    rw [List.map_cons, List.sum_cons, h1.1]
    dsimp only
    omega

theorem TmAt.restoreLocals : ∀ (ls : List Nat) {v : Vm}, Tidy v → Locals v ls →
    TmAt v (fun _ w => NoMore v w) (forM_ Daedalus.restoreLocal ls)
  | [], _, hs, _ => TmAt.pure hs (Nat.le_refl _)
  | l :: ls, v, hs, hl => by
    obtain ⟨s, h1⟩ := hl l (List.mem_cons_self ..)
    have htl : Locals v ls := fun x hx => hl x (List.mem_cons_of_mem _ hx)
    refine (TmAt.restoreLocal hs h1).bind fun _ w _ hsw k _ h => ?_
    exact (TmAt.restoreLocals ls hsw (htl.same k.toSame)).mono fun _ u _ _ _ _ h' => Nat.le_trans h' h

theorem _root_.Verif.Spec.Daedalus.Fits.locals {v : Vm} {y : Nat} {f : Sym} (h : Fits v y) (hf : v.syms[y]? = some f)
    (hl : f.hasLocals = true) : Locals v (localsOf v f) ∧ slotsOf v (localsOf v f) < 2 ^ 31 ∧ (f.hasReturn = true → isValue f.rtype) := by
  obtain ⟨f', h1, h2, h3, h4⟩ := h
  rw [hf] at h1
  obtain rfl := Option.some.inj h1
  obtain ⟨a1, a2, a3⟩ := h4 hl
  refine ⟨fun l hm => ?_, a2, a1⟩
  obtain ⟨b1, b2⟩ := a3 l hm
  have hlt := localsOf_lt hm
  exact ⟨_, List.getElem?_eq_getElem hlt, b1, b2 _ (List.getElem?_eq_getElem hlt)⟩

theorem pushLocals_slots (y : Nat) : pushLocals y = (do
    let v ← M.get
    if activations v y = 0 then return ()
    else
      let f ← symAt y
      let ps ← params f
      let ls := localsOf v f
      let size := slotsOf v ls % 2 ^ 32
      if (v.sp.toNat + size) % 2 ^ 32 > stackSize then M.throw .daedalusVm
      else if v.sp.toNat < ps.length then M.throw .daedalusVm
      else
        let base := v.sp.toNat - ps.length
        setSp (BitVec.ofNat 16 base)
        forM_ (fun i => moveSlot (base + i) (base + size + i)) (List.range ps.length)
        forM_ saveLocal ls
        let v ← M.get
        setSp (v.sp + BitVec.ofNat 16 ps.length)) := rfl

theorem TmAt.pushLocals {v : Vm} (hs : Tidy v) {y : Nat} {f : Sym} (hy : Fits v y) (hf : v.syms[y]? = some f)
    (hl : f.hasLocals = true) (hsp : f.count.toNat ≤ v.sp.toNat) :
    TmAt v (fun _ w => f.count.toNat ≤ w.sp.toNat) (pushLocals y) := by
  obtain ⟨hL, hsz, -⟩ := hy.locals hf hl
  have hd := hs.depth
  rw [pushLocals_slots]
  refine TmAt.get_bind ?_
  split
  · exact TmAt.pure hs hsp
  · refine TmAt.symAt_bind hf ?_
    have hin : f.index.toNat + f.count.toNat < v.syms.length := by
      obtain ⟨f', h1, -, h3, -⟩ := hy
      rw [hf] at h1
      obtain rfl := Option.some.inj h1
      exact h3
    refine (TmAt.params hs hin).bind fun ps w _ _ _ _ hps => ?_
    obtain ⟨hlen, rfl⟩ := hps
    rw [hlen]
    dsimp only
    rw [Nat.mod_eq_of_lt (show slotsOf w (localsOf w f) < 2 ^ 32 by omega)]
    generalize hsize : slotsOf w (localsOf w f) = size at *
    rw [Nat.mod_eq_of_lt (show w.sp.toNat + size < 2 ^ 32 by omega)]
    split
    · exact TmAt.throw hs _
    · rename_i hle
      replace hle : w.sp.toNat + size ≤ 2048 := by unfold stackSize at hle; omega
      split
      · exact TmAt.throw hs _
      · have hb : (BitVec.ofNat 16 (w.sp.toNat - f.count.toNat)).toNat = w.sp.toNat - f.count.toNat := by
          rw [BitVec.toNat_ofNat]
          exact Nat.mod_eq_of_lt (by omega)
        generalize hbase : w.sp.toNat - f.count.toNat = base at *
        refine (TmAt.setSp hs (sp := BitVec.ofNat 16 base) (by omega) fun i hi => hs.written i (by omega)).bind
          fun _ w1 _ hs1 k1 u1 e1 => ?_
        have hsp1 : w1.sp = BitVec.ofNat 16 base := by subst e1; rfl
        refine (TmAt.moves (n := f.count.toNat) (base := base) (size := size) (by omega) (by omega) _ hs1
          (fun i hi => List.mem_range.mp hi) (fun i hi => u1.written hs.written i (by omega))).bind fun _ w2 _ hs2 k2 u2 h2 => ?_
        have k02 : Keeps w w2 := k1.trans k2
        refine (TmAt.saveLocals (localsOf w f) hs2 (hL.same k02.toSame)).bind fun _ w3 _ hs3 k3 u3 h3 => ?_
        rw [slotsOf_same k02.toSame hL, h2.1, hsp1, hb, hsize] at h3
        refine TmAt.get_bind ?_
        have hn : (w3.sp + BitVec.ofNat 16 f.count.toNat).toNat = w3.sp.toNat + f.count.toNat := by
          rw [BitVec.toNat_add, BitVec.toNat_ofNat]
          rw [Nat.mod_eq_of_lt (show f.count.toNat < 2 ^ 16 by omega)]
          exact Nat.mod_eq_of_lt (by omega)
        refine (TmAt.setSp hs3 (by rw [hn]; omega) fun i hi => ?_).mono fun _ w4 _ _ _ _ e4 => ?_
        · rw [hn] at hi
          by_cases hi' : i < w3.sp.toNat
          · exact hs3.written i hi'
          · obtain ⟨g, hg⟩ := h2.2 (i - (base + size)) (List.mem_range.mpr (by omega))
            rw [show base + size + (i - (base + size)) = i by omega] at hg
            exact u3.slots _ _ hg
        · subst e4
          show f.count.toNat ≤ (w3.sp + BitVec.ofNat 16 f.count.toNat).toNat
          rw [hn]
          omega

theorem goodFrame_same {v w : Vm} (hs : Tidy v) (h : Same v w) (hu : Up v w) {f : Frame} (hf : GoodFrame v f) : GoodFrame w f :=
  ⟨fun y i p e => notHollow_same hs h (hf.ref y i p e), fun a e => Nat.lt_of_lt_of_le (hf.inst a e) hu.heap⟩

theorem TmAt.popLocals {v : Vm} (hs : Tidy v) {y : Nat} {f : Sym} (hy : Fits v y) (hf : v.syms[y]? = some f)
    (hl : f.hasLocals = true) (hsp : f.hasReturn = true → v.sp ≠ 0) : TmAt v (fun _ _ => True) (popLocals y) := by
  obtain ⟨hL, -, -⟩ := hy.locals hf hl
  have hLr : Locals v (localsOf v f).reverse := fun l hm => hL l (List.mem_reverse.mp hm)
  unfold Daedalus.popLocals
  refine TmAt.get_bind ?_
  split
  · exact TmAt.pure hs trivial
  · refine TmAt.symAt_bind hf ?_
    split
    · rename_i hr
      refine (TmAt.take hs (hsp hr)).bind fun ret w _ hsw k _ h => ?_
      refine (TmAt.restoreLocals _ hsw (hLr.same k.toSame)).bind fun _ w2 _ hs2 k2 u2 h2 => TmAt.get_bind ?_
      have hd := hs.depth
      have hlt : w2.sp.toNat < 2048 := by
        have := h.2
        have : w2.sp.toNat ≤ w.sp.toNat := h2
        omega
      refine (TmAt.stackPut hs2 hlt (goodFrame_same hsw k2.toSame u2 h.1)).bind fun _ w3 _ hs3 _ _ e3 => ?_
      refine (TmAt.setSp hs3 (sp := w2.sp + 1) (by rw [sp_succ hlt]; omega) fun i hi => ?_).mono fun _ _ _ _ _ _ _ => trivial
      rw [sp_succ hlt] at hi
      subst e3
      by_cases e : i = w2.sp.toNat
      · subst e; exact ⟨_, putSlot_self _ _ _⟩
      · obtain ⟨g, hg⟩ := hs2.written i (by omega)
        exact putSlot_up _ _ hg
    · exact (TmAt.restoreLocals _ hs hLr).mono fun _ _ _ _ _ _ _ => trivial

/-! ## Repairing the stack -/

theorem toNat_setWidth16 {x : BitVec 32} (h : x.toNat ≤ 2048) : (x.setWidth 16).toNat = x.toNat := by
  rw [BitVec.toNat_setWidth]
  exact Nat.mod_eq_of_lt (by omega)

theorem TmAt.fixStack {v : Vm} (hs : Tidy v) {c : Call} {f : Sym} (h1 : c.sp.toNat ≤ 2048) (h2 : Written v c.sp.toNat)
    (h3 : c.sp.toNat ≤ v.sp.toNat) :
    TmAt v (fun _ w => f.hasReturn = true → isValue f.rtype → w.sp ≠ 0) (fixStack c f) := by
  have hd := hs.depth
  have e16 := toNat_setWidth16 h1
  unfold Daedalus.fixStack
  refine TmAt.get_bind ?_
  have nz : ∀ {w : Vm} {n : Nat}, w.sp.toNat = n + 1 → w.sp ≠ 0 := by
    intro w n h h0
    rw [h0] at h
    cases h
  split
  · rename_i hr
    refine (TmAt.setSp hs (by rw [e16]; exact h1) (by rw [e16]; exact h2)).mono fun _ _ _ _ _ _ _ h => ?_
    rw [h] at hr
    cases hr
  · have hrem : (v.sp.setWidth 32 - c.sp).toNat = v.sp.toNat - c.sp.toNat := by
      rw [BitVec.toNat_sub, BitVec.toNat_setWidth, Nat.mod_eq_of_lt (show v.sp.toNat < 2 ^ 32 by omega)]
      have := c.sp.isLt
      rw [show 2 ^ 32 - c.sp.toNat + v.sp.toNat = 2 ^ 32 + (v.sp.toNat - c.sp.toNat) by omega, Nat.add_mod_left]
      exact Nat.mod_eq_of_lt (by omega)
    dsimp only
    split
    · exact (TmAt.fix hs f.rtype).mono fun _ w _ _ _ _ h _ hv => nz (h hv)
    · rename_i hne
      have hne' : v.sp.toNat - c.sp.toNat ≠ 0 := fun h0 => hne (BitVec.eq_of_toNat_eq (by rw [hrem, h0]; rfl))
      split
      · rename_i hgt
        rw [hrem] at hgt
        have hp := (sp_pred (x := v.sp) (fun h0 => by rw [h0] at hgt; simp at hgt)).1
        obtain ⟨r, hr⟩ := hs.written (v.sp.toNat - 1) (by omega)
        refine (TmAt.stackGet hs (by rw [hp]; omega) (by rw [hp]; exact hr)).bind fun g w _ _ _ _ e => ?_
        obtain ⟨rfl, rfl⟩ := e
        refine (TmAt.stackPut hs (i := (c.sp.setWidth 16).toNat) (by rw [e16]; omega) (hs.frames _ _ hr)).bind fun _ w2 _ hs2 _ u2 e2 => ?_
        have hlt : (c.sp.setWidth 16).toNat < 2048 := by rw [e16]; omega
        refine (TmAt.setSp hs2 (sp := c.sp.setWidth 16 + 1) (by rw [sp_succ hlt]; omega) fun i hi => ?_).mono
          fun _ w3 _ _ _ _ e3 _ _ => ?_
        · rw [sp_succ hlt, e16] at hi
          exact u2.written hs.written i (by omega)
        · subst e3
          exact nz (sp_succ hlt)
      · refine TmAt.pure hs fun _ _ h0 => ?_
        rw [h0] at hne'
        simp at hne'

/-! ## Operations that call -/

/-- An operation that leaves all in order and at least `n` activations. -/
def LvAt (h : Host) (n : Nat) {α} (v : Vm) (Q : α → Vm → Prop) (p : M α) : Prop :=
  match p v with
  | (.ok a, w) => Good h w ∧ Same v w ∧ n ≤ w.calls.length ∧ Q a w
  | (.error .ub, w) => Full w
  | (.error _, w) => Good h w ∧ Same v w ∧ n ≤ w.calls.length

variable {h : Host}

theorem LvAt.bind {α β} {n : Nat} {v : Vm} {p : M α} {f : α → M β} {Q : α → Vm → Prop} {R : β → Vm → Prop} (hp : LvAt h n v Q p)
    (hf : ∀ a w, p v = (.ok a, w) → Good h w → Same v w → n ≤ w.calls.length → Q a w → LvAt h n w R (f a)) :
    LvAt h n v R (p >>= f) := by
  unfold LvAt at hp ⊢
  rw [M.bind_def]
  match hpv : p v with
  | (.ok a, w) =>
    rw [hpv] at hp
    obtain ⟨h1, h2, h3, h4⟩ := hp
    have := hf a w hpv h1 h2 h3 h4
    unfold LvAt at this
    dsimp only
    match h' : f a w with
    | (.ok b, u) =>
      rw [h'] at this
      exact ⟨this.1, h2.trans this.2.1, this.2.2⟩
    | (.error .ub, u) => rw [h'] at this; exact this
    | (.error (.throw e), u) => rw [h'] at this; exact ⟨this.1, h2.trans this.2.1, this.2.2⟩
    | (.error .terminate, u) => rw [h'] at this; exact ⟨this.1, h2.trans this.2.1, this.2.2⟩
    | (.error .hang, u) => rw [h'] at this; exact ⟨this.1, h2.trans this.2.1, this.2.2⟩
  | (.error .ub, w) => rw [hpv] at hp; exact hp
  | (.error (.throw e), w) => rw [hpv] at hp; exact hp
  | (.error .terminate, w) => rw [hpv] at hp; exact hp
  | (.error .hang, w) => rw [hpv] at hp; exact hp

theorem LvAt.mono {α} {n m : Nat} (hnm : m ≤ n) {v : Vm} {p : M α} {Q R : α → Vm → Prop} (hp : LvAt h n v Q p)
    (hq : ∀ a w, p v = (.ok a, w) → Q a w → R a w) : LvAt h m v R p := by
  unfold LvAt at hp ⊢
  match h' : p v with
  | (.ok b, u) =>
    rw [h'] at hp
    exact ⟨hp.1, hp.2.1, Nat.le_trans hnm hp.2.2.1, hq b u h' hp.2.2.2⟩
  | (.error .ub, w) => rw [h'] at hp; exact hp
  | (.error (.throw e), w) => rw [h'] at hp; exact ⟨hp.1, hp.2.1, Nat.le_trans hnm hp.2.2⟩
  | (.error .terminate, w) => rw [h'] at hp; exact ⟨hp.1, hp.2.1, Nat.le_trans hnm hp.2.2⟩
  | (.error .hang, w) => rw [h'] at hp; exact ⟨hp.1, hp.2.1, Nat.le_trans hnm hp.2.2⟩

theorem LvAt.ofTm {α} {n : Nat} {v : Vm} (hg : Good h v) (hn : n ≤ v.calls.length) {p : M α} {Q : α → Vm → Prop} (hp : TmAt v Q p) :
    LvAt h n v (fun a w => Keeps v w ∧ Up v w ∧ Q a w) p := by
  unfold TmAt at hp
  unfold LvAt
  match h' : p v with
  | (.ok b, u) =>
    rw [h'] at hp
    obtain ⟨h1, h2, h3, h4⟩ := hp
    exact ⟨hg.step h1 h2.toSame h3 h2.calls, h2.toSame, by rw [h2.calls]; exact hn, h2, h3, h4⟩
  | (.error .ub, w) => rw [h'] at hp; exact hp
  | (.error (.throw e), w) =>
    rw [h'] at hp; obtain ⟨h1, h2, h3⟩ := hp
    exact ⟨hg.step h1 h2.toSame h3 h2.calls, h2.toSame, by rw [h2.calls]; exact hn⟩
  | (.error .terminate, w) =>
    rw [h'] at hp; obtain ⟨h1, h2, h3⟩ := hp
    exact ⟨hg.step h1 h2.toSame h3 h2.calls, h2.toSame, by rw [h2.calls]; exact hn⟩
  | (.error .hang, w) =>
    rw [h'] at hp; obtain ⟨h1, h2, h3⟩ := hp
    exact ⟨hg.step h1 h2.toSame h3 h2.calls, h2.toSame, by rw [h2.calls]; exact hn⟩

theorem LvAt.ofLeaves {α} {n : Nat} {v : Vm} (hg : Good h v) (hn : n ≤ v.calls.length) {p : M α} {Q : α → Vm → Prop}
    {P : Vm → Prop} (hp : Leaves h P p Q) (hP : P v) : LvAt h n v Q p := by
  have hp := hp v hg hP
  unfold LvAt
  match h' : p v with
  | (.ok b, u) => rw [h'] at hp; exact ⟨hp.1, hp.2.1, Nat.le_trans hn hp.2.2.1, hp.2.2.2⟩
  | (.error .ub, w) => rw [h'] at hp; exact hp
  | (.error (.throw e), w) => rw [h'] at hp; exact ⟨hp.1, hp.2.1, Nat.le_trans hn hp.2.2⟩
  | (.error .terminate, w) => rw [h'] at hp; exact ⟨hp.1, hp.2.1, Nat.le_trans hn hp.2.2⟩
  | (.error .hang, w) => rw [h'] at hp; exact ⟨hp.1, hp.2.1, Nat.le_trans hn hp.2.2⟩

theorem LvAt.pure {α} {n : Nat} {v : Vm} (hg : Good h v) (hn : n ≤ v.calls.length) {a : α} {Q : α → Vm → Prop} (hq : Q a v) :
    LvAt h n v Q (Pure.pure a : M α) := ⟨hg, Same.refl v, hn, hq⟩

theorem LvAt.throw {α} {n : Nat} {v : Vm} (hg : Good h v) (hn : n ≤ v.calls.length) (e : Exc) {Q : α → Vm → Prop} :
    LvAt h n v Q (M.throw e : M α) := ⟨hg, Same.refl v, hn⟩

theorem LvAt.get_bind {β} {n : Nat} {v : Vm} {f : Vm → M β} {R : β → Vm → Prop} (hf : LvAt h n v R (f v)) :
    LvAt h n v R (M.get >>= f) := hf

theorem LvAt.symAt_bind {β} {n : Nat} {v : Vm} {y : Nat} {s : Sym} (hs : v.syms[y]? = some s) {f : Sym → M β} {R : β → Vm → Prop}
    (hf : LvAt h n v R (f s)) : LvAt h n v R (symAt y >>= f) := by
  unfold LvAt at hf ⊢
  rw [M.bind_ok (symAt_some hs)]
  exact hf

theorem _root_.Verif.Spec.Daedalus.Tidy.calls {v : Vm} (hs : Tidy v) (tp : Nat) (pc : BitVec 32) (i : Option Nat) (cs : List Call) :
    Tidy { v with textPos := tp, pc := pc, instance_ := i, calls := cs } :=
  ⟨hs.stored, hs.temp, hs.objects, hs.held, hs.depth, hs.written, fun i f h => ⟨(hs.frames i f h).ref, (hs.frames i f h).inst⟩⟩

/-- The position, the context and the reader of the code do not matter. -/
theorem _root_.Verif.Spec.Daedalus.Good.aside {v : Vm} (hg : Good h v) (tp : Nat) (pc : BitVec 32) (i : Option Nat) :
    Good h { v with textPos := tp, pc := pc, instance_ := i } :=
  ⟨hg.sound.calls _ _ _ _, hg.calls,
   ⟨hg.callables.code, hg.callables.external, hg.callables.override_⟩⟩

theorem Same.aside (v : Vm) (tp : Nat) (pc : BitVec 32) (i : Option Nat) : Same v { v with textPos := tp, pc := pc, instance_ := i } :=
  ⟨rfl, rfl, rfl, rfl, rfl, fun _ s hs => ⟨s, hs, rfl, fun _ => rfl⟩⟩

theorem LvAt.jump {n : Nat} {v : Vm} (hg : Good h v) (hn : n ≤ v.calls.length) (a : BitVec 32) :
    LvAt h n v (fun _ w => w.calls = v.calls ∧ w.sp = v.sp) (jump a) := by
  unfold Daedalus.jump
  refine LvAt.get_bind ?_
  split
  · exact LvAt.throw hg hn _
  · exact ⟨hg.aside v.textPos a v.instance_, Same.aside v v.textPos a v.instance_, hn, rfl, rfl⟩

theorem LvAt.pushCall {v : Vm} (hg : Good h v) {y : Nat} {f : Sym} (hy : Fits v y) (hf : v.syms[y]? = some f)
    (hsp : f.count.toNat ≤ v.sp.toNat) :
    LvAt h v.calls.length v (fun _ w => v.calls.length + 1 ≤ w.calls.length ∧ Entered w y f.count.toNat) (pushCall y) := by
  unfold Daedalus.pushCall
  refine LvAt.symAt_bind hf ?_
  have key : ∀ w, Good h w → Keeps v w → f.count.toNat ≤ w.sp.toNat →
      LvAt h v.calls.length w (fun _ u => v.calls.length + 1 ≤ u.calls.length ∧ Entered u y f.count.toNat) (do
        let ps ← params f
        let v ← M.get
        M.set { v with calls := ⟨y, v.pc, v.sp.setWidth 32 - BitVec.ofNat 32 ps.length, v.instance_⟩ :: v.calls }) := by
    intro w hw k hc
    have hyw := hy.same k.toSame
    obtain ⟨f', h1, h2, h3, -⟩ := hy
    rw [hf] at h1
    obtain rfl := Option.some.inj h1
    refine (LvAt.ofTm hw (by rw [k.calls]; exact Nat.le_refl _) (TmAt.params hw.sound (by rw [k.len]; exact h3))).bind
      fun ps u _ hu _ _ e => ?_
    obtain ⟨-, -, hlen, rfl⟩ := e
    refine LvAt.get_bind ?_
    have hd := hu.sound.depth
    have hsub : (u.sp.setWidth 32 - BitVec.ofNat 32 ps.length).toNat = u.sp.toNat - f.count.toNat := by
      rw [BitVec.toNat_sub, BitVec.toNat_setWidth, BitVec.toNat_ofNat, hlen, Nat.mod_eq_of_lt (show f.count.toNat < 2 ^ 32 by omega),
        Nat.mod_eq_of_lt (show u.sp.toNat < 2 ^ 32 by omega),
        show 2 ^ 32 - f.count.toNat + u.sp.toNat = 2 ^ 32 + (u.sp.toNat - f.count.toNat) by omega, Nat.add_mod_left]
      exact Nat.mod_eq_of_lt (by omega)
    have hsame : Same u { u with calls := ⟨y, u.pc, u.sp.setWidth 32 - BitVec.ofNat 32 ps.length, u.instance_⟩ :: u.calls } :=
      ⟨rfl, rfl, rfl, rfl, rfl, fun _ s hs => ⟨s, hs, rfl, fun _ => rfl⟩⟩
    refine ⟨⟨hu.sound.calls _ _ _ _, ?_,
      hu.callables.same hsame⟩, hsame, ?_, ?_, ?_⟩
    · intro c hm
      rcases List.mem_cons.mp hm with rfl | hm
      · exact ⟨hyw, by rw [hsub]; omega, fun i hi => by rw [hsub] at hi; exact hu.sound.written i (by omega)⟩
      · obtain ⟨a1, a2, a3⟩ := hu.calls c hm
        exact ⟨a1.same hsame, a2, a3⟩
    · show _ ≤ (_ :: u.calls).length
      rw [List.length_cons, k.calls]; omega
    · show _ ≤ (_ :: u.calls).length
      rw [List.length_cons, k.calls]; exact Nat.le_refl _
    · refine ⟨_, _, rfl, rfl, ?_⟩
      show u.sp.toNat = (u.sp.setWidth 32 - BitVec.ofNat 32 ps.length).toNat + _
      rw [hsub]
      omega
  by_cases hl : f.hasLocals = true
  · rw [if_pos hl]
    refine (LvAt.ofTm hg (Nat.le_refl _) (TmAt.pushLocals hg.sound hy hf hl hsp)).bind fun _ w _ hw _ _ hq => ?_
    exact key w hw hq.1 hq.2.2
  · rw [if_neg hl]
    exact key v hg (Keeps.refl v) hsp

theorem LvAt.popCall {n : Nat} {v : Vm} (hg : Good h v) (hn : n + 1 ≤ v.calls.length) (hu : Untouched v) :
    LvAt h n v (fun _ _ => True) popCall := by
  unfold Daedalus.popCall
  refine LvAt.get_bind ?_
  match hc : v.calls with
  | [] => rw [hc] at hn; cases hn
  | c :: rest =>
    obtain ⟨h1, h2, h3⟩ := hg.calls c (by rw [hc]; exact List.mem_cons_self ..)
    obtain ⟨f, hf, -⟩ := id h1
    refine LvAt.symAt_bind hf ?_
    refine (LvAt.ofTm hg (by omega) (TmAt.fixStack hg.sound (f := f) h2 h3 (hu c rest hc))).bind fun _ w _ hw _ _ hq => ?_
    obtain ⟨k, _, hq⟩ := hq
    have fin : ∀ u, Good h u → Keeps w u → LvAt h n u (fun _ _ => True) (do
        let v ← M.get
        M.set { v with pc := c.pc, instance_ := c.ctx, calls := v.calls.tail }) := by
      intro u gu ku
      refine LvAt.get_bind ?_
      have hsame : Same u { u with pc := c.pc, instance_ := c.ctx, calls := u.calls.tail } :=
        ⟨rfl, rfl, rfl, rfl, rfl, fun _ s hs => ⟨s, hs, rfl, fun _ => rfl⟩⟩
      refine ⟨⟨gu.sound.calls _ _ _ _,
        callsFit_step gu.calls hsame ⟨fun i f h => ⟨f, h⟩, Nat.le_refl _⟩ fun c hm => List.mem_of_mem_tail hm, gu.callables.same hsame⟩, hsame, ?_, trivial⟩
      show n ≤ u.calls.tail.length
      rw [List.length_tail, ku.calls, k.calls]
      omega
    by_cases hl : f.hasLocals = true
    · rw [if_pos hl]
      obtain ⟨f', e1, e2, e3⟩ := k.decl _ _ hf
      have hl' : f'.hasLocals = true := by rw [shape_hasLocals e2]; exact hl
      have hrt := (h1.locals hf hl).2.2
      refine (LvAt.ofTm hw (by rw [k.calls]; omega) (TmAt.popLocals hw.sound (h1.same k.toSame) e1 hl' fun hr => ?_)).bind
        fun _ u _ gu _ _ hq' => fin u gu hq'.1
      rw [shape_hasReturn e2] at hr
      exact hq hr (hrt hr)
    · rw [if_neg hl]
      exact fin w hw (Keeps.refl w)

end Verif.Daedalus
