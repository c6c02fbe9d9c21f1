import Verif.Lemmas.DaedalusArgs

/-!
# What saving locals does to the number of values on the stack

`Lemmas/DaedalusLocals` follows the values; here only their number is counted, so that nothing has to be known of the temporary strings.
-/

namespace Verif.Daedalus

open Verif.Spec.Daedalus

theorem localsEnd_bound {parent : Bytes} : ∀ {l : List Sym} {i k : Nat}, localsEnd parent l i = some k → k ≤ i + l.length
  | [], _, _, h => by cases h
  | s :: rest, i, k, h => by
    unfold localsEnd at h
    split at h
    · have := localsEnd_bound h
      rw [List.length_cons]
      omega
    · cases h
      omega

/-- Locals are in the table. -/
theorem localsOf_mem_lt {v : Vm} {f : Sym} {l : Nat} (h : l ∈ localsOf v f) : l < v.syms.length := by
  unfold localsOf findLocals at h
  dsimp only at h
  rw [List.mem_range'_1] at h
  split at h
  · rename_i last he
    have := localsEnd_bound he
    rw [List.length_drop] at this
    omega
  · omega

/-- Slots that have been written stay written. -/
def Written (v w : Vm) : Prop := ∀ (j : Nat) f, v.stack[j]? = some (some f) → ∃ g, w.stack[j]? = some (some g)

theorem Written.refl (v : Vm) : Written v v := fun _ f h => ⟨f, h⟩

theorem Written.trans {a b c : Vm} (h : Written a b) (h' : Written b c) : Written a c := fun j f hf => by
  obtain ⟨g, hg⟩ := h j f hf
  exact h' j g hg

theorem stackPut_written {i : Nat} {f : Frame} {v w : Vm} (h : stackPut i f v = (.ok (), w)) :
    Written v w ∧ w.stack[i]? = some (some f) := by
  unfold stackPut at h
  split at h
  · cases h
  · cases h
    refine ⟨fun j g hg => ?_, putSlot_self _ _ _⟩
    by_cases hj : j = i
    · subst hj; exact ⟨f, putSlot_self _ _ _⟩
    · exact ⟨g, putSlot_other hj hg⟩

theorem moveSlot_written {src dst : Nat} {v w : Vm} (h : moveSlot src dst v = (.ok (), w)) :
    Written v w ∧ ∃ f, w.stack[dst]? = some (some f) := by
  unfold moveSlot at h
  obtain ⟨f, u, k1, h⟩ := M.bind_inv h
  unfold stackGet at k1
  split at k1
  · cases k1
  · split at k1
    · rename_i hf
      cases k1
      split at h
      · rename_i he
        cases h
        subst he
        exact ⟨Written.refl _, f, hf⟩
      · obtain ⟨_, u, k2, h⟩ := M.bind_inv h
        obtain ⟨a1, a2⟩ := stackPut_written k2
        obtain ⟨b1, -⟩ := stackPut_written h
        obtain ⟨g, hg⟩ := b1 dst f a2
        exact ⟨a1.trans b1, g, hg⟩
    · cases k1

theorem moves_written {base size : Nat} : ∀ (is : List Nat) {v w : Vm},
    forM_ (fun i => moveSlot (base + i) (base + size + i)) is v = (.ok (), w) →
    Written v w ∧ ∀ i ∈ is, ∃ f, w.stack[base + size + i]? = some (some f) := by
  intro is
  induction is with
  | nil => intro v w h; cases h; exact ⟨Written.refl _, by simp⟩
  | cons i is ih =>
    intro v w h
    obtain ⟨_, u, h1, h2⟩ := M.bind_inv
      (show (moveSlot (base + i) (base + size + i) >>= fun _ => forM_ (fun i => moveSlot (base + i) (base + size + i)) is) v = _ from h)
    obtain ⟨a1, f, a2⟩ := moveSlot_written h1
    obtain ⟨b1, b2⟩ := ih h2
    refine ⟨a1.trans b1, fun j hj => ?_⟩
    rcases List.mem_cons.mp hj with rfl | hj
    · exact b1 _ f a2
    · exact b2 j hj

theorem Eff.saveItem (it : Item) (k : Nat) : Eff (saveItem it) k (k + 1) := by
  have hq : Quiet it.read := fun v => by
    have := it.read_only v
    rw [this]
    exact ⟨rfl, rfl⟩
  refine (hq.eff k).bind fun x => ?_
  match x with
  | .cell (.int x) => exact Eff.push _ k
  | .cell (.float x) => exact Eff.push _ k
  | .cell (.str s) => exact Eff.pushString s k
  | .inst p => exact Eff.push _ k

theorem Eff.saveItems (its : List Item) : ∀ k, Eff (forM_ Daedalus.saveItem its) k (k + its.length) := by
  induction its with
  | nil => exact fun k v fs args a w h hs hl => by cases h; exact ⟨args, hl, hs⟩
  | cons it its ih =>
    intro k
    have := (Eff.saveItem it k).bind fun _ => ih (k + 1)
    rw [List.length_cons, show k + (its.length + 1) = k + 1 + its.length by omega]
    exact this

theorem Eff.restoreItem (it : Item) (k : Nat) : Eff (restoreItem it) (k + 1) k := by
  match it with
  | .elem .int y i => exact (Eff.popInt k).bind fun x => (Quiet.symSetInt _ _ _ _).eff k
  | .elem .float y i => exact (Eff.popFloat k).bind fun x => (Quiet.symSetFloat _ _ _ _).eff k
  | .elem .str y i => exact (Eff.popString k).bind fun x => (Quiet.symSetString _ _ _ _).eff k
  | .inst y => exact (Eff.popInst k).bind fun x => (Quiet.symSetInstance _ _).eff k

theorem Eff.restoreItems (its : List Item) : ∀ k, Eff (forM_ Daedalus.restoreItem its) (k + its.length) k := by
  induction its with
  | nil => exact fun k v fs args a w h hs hl => by cases h; exact ⟨args, hl, hs⟩
  | cons it its ih =>
    intro k
    have := (Eff.restoreItem it (k + its.length)).bind fun _ => ih k
    rw [List.length_cons, show k + (its.length + 1) = k + its.length + 1 by omega]
    exact this

/-- The frames above of known ones. -/
theorem Stk.above {v : Vm} {fs : List Frame} {n : Nat} (hsp : v.sp.toNat = fs.length + n) (hle : fs.length + n ≤ stackSize)
    (hfs : v.stack.take fs.length = fs.map some) (hn : ∀ i < n, ∃ f, v.stack[fs.length + i]? = some (some f)) :
    ∃ rs, rs.length = n ∧ Stk v (fs ++ rs) := by
  induction n with
  | zero => exact ⟨[], rfl, by simpa using hsp, by simpa using hle, by simpa using hfs⟩
  | succ n ih =>
    have key : ∀ n : Nat, (∀ i < n, ∃ f, v.stack[fs.length + i]? = some (some f)) →
        ∃ rs : List Frame, rs.length = n ∧ v.stack.take (fs.length + n) = (fs ++ rs).map some := by
      intro n
      induction n with
      | zero => exact fun _ => ⟨[], rfl, by simpa using hfs⟩
      | succ n ih =>
        intro h
        obtain ⟨rs, h1, h2⟩ := ih fun i hi => h i (by omega)
        obtain ⟨f, hf⟩ := h n (by omega)
        refine ⟨rs ++ [f], by simp [h1], ?_⟩
        rw [show fs.length + (n + 1) = fs.length + n + 1 by omega, List.take_add_one, h2, hf]
        simp
    obtain ⟨rs, h1, h2⟩ := key (n + 1) hn
    refine ⟨rs, h1, by simp [hsp, h1], by simpa [h1] using hle, ?_⟩
    rw [List.length_append, h1]
    exact h2

/-- The number of values `push_local_variables` leaves: the locals, and above of them as many arguments as before. -/
theorem pushLocals_count {y : Nat} {v w : Vm} {f : Sym} {fs args : List Frame}
    (hf : v.syms[y]? = some f) (hrec : activations v y ≠ 0) (hs : Stk v (fs ++ args)) (ha : args.length = f.count.toNat)
    (hl : ∀ l ∈ localsOf v f, l ≠ v.tmp ∧ ∃ s, v.syms[l]? = some s) (h : pushLocals y v = (.ok (), w)) :
    ∃ frs args', frs.length = ((localsOf v f).flatMap (itemsOf v)).length ∧ args'.length = args.length ∧ Stk w (fs ++ frs ++ args') := by
  have hss : stackSize = 2048 := rfl
  have hle0 := hs.2.1
  simp only [List.length_append] at hle0
  unfold pushLocals at h
  rw [M.get_bind, if_neg hrec, M.bind_ok (symAt_some hf)] at h
  obtain ⟨ps, u, h1, h⟩ := M.bind_inv h
  obtain ⟨hu, hps⟩ := params_inv h1
  subst u
  dsimp only at h
  generalize hS : List.sum (α := Nat) (List.map _ (localsOf v f)) = S at h
  have hS' : S = ((localsOf v f).flatMap (itemsOf v)).length := by rw [← hS]; exact (items_length v _).symm
  clear hS
  subst hS'
  split at h
  · cases h
  rename_i hsize
  split at h
  · cases h
  have hlen : v.sp.toNat = fs.length + args.length := by have := hs.1; simpa using this
  have hbase : v.sp.toNat - ps.length = fs.length := by omega
  rw [hbase] at h
  have hstk0 : Stk ({ v with sp := BitVec.ofNat 16 fs.length } : Vm) fs :=
    hs.lower (by rw [BitVec.toNat_ofNat]; exact Nat.mod_eq_of_lt (by omega))
  obtain ⟨_, u0, k0, h⟩ := M.bind_inv h
  have hu0 : u0 = ({ v with sp := BitVec.ofNat 16 fs.length } : Vm) := by cases k0; rfl
  subst u0
  obtain ⟨_, u1, h2, h⟩ := M.bind_inv h
  have hab := moves_above _ h2
  obtain ⟨-, hw1⟩ := moves_written _ h2
  have hstk1 := hab.stk hstk0
  obtain ⟨_, u2, h3, h⟩ := M.bind_inv h
  rw [M.get_bind] at h
  have hsyms1 : u1.syms = v.syms := by rw [hab.rest]
  have htmp1 : u1.tmp = v.tmp := by rw [hab.rest]
  have hfun : itemsOf u1 = itemsOf v := funext fun l => by unfold itemsOf; rw [hsyms1]
  rw [saveAll_eq _ _ (fun l hl' => by rw [hsyms1, htmp1]; exact hl l hl'), hfun] at h3
  obtain ⟨frs, hfr, hstk2⟩ := Eff.saveItems _ 0 u1 fs [] _ _ h3 (by simpa using hstk1) rfl
  rw [Nat.zero_add] at hfr
  have hle := hstk2.2.1
  have hsp2 := hstk2.1
  simp only [List.length_append] at hle hsp2
  have hw : w = { u2 with sp := u2.sp + BitVec.ofNat 16 ps.length } := by cases h; rfl
  clear h
  subst hw
  generalize ((localsOf v f).flatMap (itemsOf v)) = its at *
  rw [Nat.mod_eq_of_lt (show its.length < 2 ^ 32 by omega)] at hsize hw1
  rw [hlen, Nat.mod_eq_of_lt (by omega)] at hsize
  have hw2 : ∀ i < args.length, ∃ f, u2.stack[(fs ++ frs).length + i]? = some (some f) := by
    intro i hi
    obtain ⟨g, hg⟩ := hw1 i (by simp; omega)
    refine ⟨g, ?_⟩
    rw [List.length_append, hfr]
    exact save_above _ h3 (by rw [hstk1.1]; omega) hg
  obtain ⟨rs, hr1, hr2⟩ := Stk.above (v := { u2 with sp := u2.sp + BitVec.ofNat 16 ps.length }) (fs := fs ++ frs) (n := args.length)
    (by
      show (u2.sp + BitVec.ofNat 16 ps.length).toNat = _
      rw [BitVec.toNat_add, hsp2, BitVec.toNat_ofNat, Nat.mod_eq_of_lt (show ps.length < 2 ^ 16 by omega), Nat.mod_eq_of_lt (by omega)]
      simp only [List.length_append]
      omega)
    (by simp only [List.length_append]; omega) hstk2.2.2 hw2
  exact ⟨frs, rs, hfr, hr1, hr2⟩

/-- What `pop_local_variables` takes from the stack. -/
theorem popLocals_count {y : Nat} {u w : Vm} {f : Sym} {fs frs rs : List Frame} (hf : u.syms[y]? = some f) (hrec : 2 ≤ activations u y)
    (hl : ∀ l ∈ localsOf u f, l ≠ u.tmp ∧ ∃ s, u.syms[l]? = some s) (hfr : frs.length = ((localsOf u f).flatMap (itemsOf u)).length)
    (hr : rs.length = results f) (hs : Stk u (fs ++ frs ++ rs)) (h : popLocals y u = (.ok (), w)) : Stk w (fs ++ rs) := by
  have hss : stackSize = 2048 := rfl
  unfold popLocals at h
  rw [M.get_bind, if_neg (by omega), M.bind_ok (symAt_some hf)] at h
  have key : ∀ {u1 u2 : Vm}, Stk u1 (fs ++ frs) → u1.syms = u.syms → u1.tmp = u.tmp →
      forM_ restoreLocal (localsOf u f).reverse u1 = (.ok (), u2) → Stk u2 fs := by
    intro u1 u2 hs1 e1 e2 hx
    rw [restoreAll_eq _ _ (fun l hl' => by rw [e1, e2]; exact hl l (List.mem_reverse.mp hl'))] at hx
    have hlen : frs.length = 0 + ((localsOf u f).reverse.flatMap fun l => (itemsOf u1 l).reverse).length := by
      have : (fun l => (itemsOf u1 l).reverse) = fun l => (itemsOf u l).reverse := funext fun l => by unfold itemsOf; rw [e1]
      rw [this, hfr, Nat.zero_add, flatMap_reverse_items, List.length_reverse]
    obtain ⟨rs', h1, h2⟩ := Eff.restoreItems _ 0 u1 fs frs _ _ hx hs1 hlen
    rw [List.eq_nil_of_length_eq_zero h1, List.append_nil] at h2
    exact h2
  cases hret : f.hasReturn with
  | false =>
    rw [hret] at h
    have : rs = [] := List.eq_nil_of_length_eq_zero (by rw [hr]; simp [results, hret])
    subst this
    rw [List.append_nil] at hs ⊢
    exact key hs rfl rfl h
  | true =>
    rw [hret, if_pos rfl] at h
    obtain ⟨r, rfl⟩ : ∃ r, rs = [r] := List.length_eq_one_iff.mp (by rw [hr]; simp [results, hret])
    obtain ⟨h1, h2⟩ := take_ok hs
    rw [M.bind_ok h1] at h
    obtain ⟨_, u2, h3, h⟩ := M.bind_inv h
    rw [M.get_bind] at h
    obtain ⟨_, u3, h4, h⟩ := M.bind_inv h
    have hk := key h2 rfl rfl h3
    have hlim := hs.2.1
    simp only [List.length_append, List.length_singleton] at hlim
    unfold stackPut at h4
    split at h4
    · cases h4
    · cases h4
      cases h
      have hsp := hk.1
      refine ⟨?_, by simp; omega, ?_⟩
      · show (u2.sp + 1).toNat = _
        rw [BitVec.toNat_add, hsp, List.length_append]
        show (fs.length + 1) % 65536 = _
        rw [Nat.mod_eq_of_lt (by omega)]
        rfl
      · show (putSlot u2.stack u2.sp.toNat r).take _ = _
        rw [hsp, List.length_append, List.length_singleton, putSlot_take _ hk.len, hk.2.2, List.map_append]
        rfl

/-- A call whose middle part only touches the arguments leaves exactly the results in their place, with or without saved locals. -/
theorem call_effect_locals {y : Nat} {mid : M Unit} {f : Sym} {v w : Vm} (hy : v.syms[y]? = some f) (hyt : y ≠ v.tmp)
    (hl : f.hasLocals = true → ∀ l ∈ localsOf v f, l ≠ v.tmp ∧ ∃ s, v.syms[l]? = some s)
    (hv : f.hasReturn = true → isValue f.rtype) (hm : Ret mid)
    (hmid : ∀ u u' fs args, mid u = (.ok (), u') → Same v u → u.calls ≠ [] → Stk u (fs ++ args) → args.length = f.count.toNat →
      ∃ rs, Stk u' (fs ++ rs)) (h : (do pushCall y; mid; popCall : M Unit) v = (.ok (), w)) {fs args : List Frame}
    (hs : Stk v (fs ++ args)) (ha : args.length = f.count.toNat) :
    ∃ rs, rs.length = results f ∧ Stk w (fs ++ rs) := by
  by_cases hno : f.hasLocals = false
  · exact call_effect hy hyt hno hv hm hmid h hs ha
  have hloc : f.hasLocals = true := by simpa using hno
  have hl := hl hloc
  obtain ⟨_, u1, h1, h⟩ := M.bind_inv h
  obtain ⟨_, u2, h2, h3⟩ := M.bind_inv h
  obtain ⟨u, hp, hk, rfl⟩ := pushCall_locals hy hloc h1
  have hm := hm _ _ _ h2
  have hsame : Same v { u with calls := ⟨y, v.pc, u.sp.setWidth 32 - f.count, v.instance_⟩ :: v.calls } := by
    have := hk.toSame
    exact ⟨this.text, this.tmp, this.nullOk, this.ignoreConst, this.len, this.decl⟩
  obtain ⟨frs, args', hfrs, hargs', hstk⟩ : ∃ frs args' : List Frame, frs.length = (if activations v y = 0 then 0 else
      ((localsOf v f).flatMap (itemsOf v)).length) ∧ args'.length = args.length ∧ Stk u (fs ++ frs ++ args') := by
    by_cases hrec : activations v y = 0
    · unfold pushLocals at hp
      rw [M.get_bind, if_pos hrec] at hp
      cases hp
      exact ⟨[], args, by rw [if_pos hrec]; rfl, rfl, by simpa using hs⟩
    · obtain ⟨frs, args', e1, e2, e3⟩ := pushLocals_count hy hrec hs ha hl hp
      exact ⟨frs, args', by rw [if_neg hrec]; exact e1, e2, e3⟩
  obtain ⟨rs, hrs⟩ := hmid _ _ (fs ++ frs) args' h2 hsame (by simp) (hstk.congr rfl rfl) (by rw [hargs', ha])
  obtain ⟨c, rest, f', u3, u4, hc, hf', hfix, hlocs, hk', rfl⟩ := popCall_inv h3
  have hcalls := hm.2
  rw [hcalls] at hc
  simp only [List.cons.injEq] at hc
  obtain ⟨rfl, rfl⟩ := hc
  have hsame2 := hsame.trans hm.1
  obtain ⟨s', k1, k2, k3⟩ := hsame2.decl y f hy
  rw [k1] at hf'
  obtain rfl := Option.some.inj hf'
  have hfl : s'.flags = f.flags := shape_flags k2
  have hrt : s'.rtype = f.rtype := shape_rtype k2
  have hl' : s'.hasLocals = true := by unfold Sym.hasLocals at *; rw [hfl]; exact hloc
  have hr' : s'.hasReturn = f.hasReturn := by unfold Sym.hasReturn; rw [hfl]
  have hres : results s' = results f := by unfold results; rw [hr']
  rw [if_pos hl'] at hlocs
  have hcnt : (u.sp.setWidth 32 - f.count).toNat = (fs ++ frs).length := by
    have h1 := hstk.1
    have := hstk.2.1
    have hsz : stackSize = 2048 := rfl
    simp only [List.length_append] at h1 this
    rw [BitVec.toNat_sub, BitVec.toNat_setWidth, h1, ← ha, ← hargs', List.length_append]
    omega
  obtain ⟨r, e1, e2, _⟩ := fixStack_ok hrs hcnt (by rw [hr', hrt]; exact hv) hfix
  have hk3 := Kp.fixStack ⟨y, v.pc, u.sp.setWidth 32 - f.count, v.instance_⟩ s' u2
  unfold KpAt at hk3
  rw [hfix] at hk3
  have hsame3 := hsame2.trans hk3.toSame
  obtain ⟨s3, m1, m2, m3⟩ := hsame3.decl y f hy
  have m3 := extent_count (m3 hyt)
  have hlo : localsOf u3 s3 = localsOf v f := hsame3.localsOf m2 m3
  have hact : activations u3 y = activations v y + 1 := by
    unfold activations
    rw [hk3.calls, hcalls]
    simp
  have hfl3 : s3.flags = f.flags := shape_flags m2
  have hres3 : results s3 = results f := by unfold results Sym.hasReturn; rw [hfl3]
  refine ⟨r, by rw [e1, hres], ?_⟩
  suffices hfin : Stk u4 (fs ++ r) from hfin.congr rfl rfl
  by_cases hrec : activations v y = 0
  · unfold popLocals at hlocs
    rw [M.get_bind, if_pos (by rw [hact, hrec]; omega)] at hlocs
    cases hlocs
    have : frs = [] := List.eq_nil_of_length_eq_zero (by rw [hfrs, if_pos hrec])
    subst this
    simpa using e2
  · rw [if_neg hrec] at hfrs
    refine popLocals_count (f := s3) m1 (by rw [hact]; omega) ?_ ?_ (by rw [e1, hres, hres3]) e2 hlocs
    · intro l hl'
      rw [hlo] at hl'
      obtain ⟨a1, s, a2⟩ := hl l hl'
      obtain ⟨s'', b1, -⟩ := hsame3.decl l s a2
      exact ⟨by rw [hsame3.tmp]; exact a1, s'', b1⟩
    · rw [hlo, hfrs, List.flatMap_def, List.flatMap_def]
      congr 2
      exact List.map_congr_left fun l hl' => (itemsOf_same hsame3 (hl l hl').1).symm

end Verif.Daedalus
