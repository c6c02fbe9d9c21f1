import Verif.Lemmas.DaedalusCall

/-!
# Effects on the stack
-/

namespace Verif.Daedalus

open Verif.Spec.Daedalus

theorem shape_flags {s t : Sym} (h : s.shape = t.shape) : s.flags = t.flags := by have := congrArg Sym.flags h; exact this
theorem shape_rtype {s t : Sym} (h : s.shape = t.shape) : s.rtype = t.rtype := by have := congrArg Sym.rtype h; exact this
theorem shape_type {s t : Sym} (h : s.shape = t.shape) : s.type = t.type := by have := congrArg Sym.type h; exact this
theorem shape_address {s t : Sym} (h : s.shape = t.shape) : s.address = t.address := by
  have := congrArg Sym.address h; exact this

/-- Operations that do not touch the stack. -/
def Quiet {α} (p : M α) : Prop := ∀ v, (p v).2.stack = v.stack ∧ (p v).2.sp = v.sp

theorem Quiet.ofReadOnly {α} {p : M α} (h : ReadOnly p) : Quiet p := by
  intro v
  rw [h v]
  exact ⟨rfl, rfl⟩

theorem Quiet.bind {α β} {p : M α} {f : α → M β} (hp : Quiet p) (hf : ∀ a, Quiet (f a)) : Quiet (p >>= f) := by
  intro v
  have h1 := hp v
  rw [M.bind_def]
  match h : p v with
  | (.ok a, w) =>
    rw [h] at h1
    have h2 := hf a w
    exact ⟨h2.1.trans h1.1, h2.2.trans h1.2⟩
  | (.error e, w) =>
    rw [h] at h1
    exact h1

theorem Quiet.ite {α} {c : Prop} [Decidable c] {p q : M α} (hp : Quiet p) (hq : Quiet q) : Quiet (if c then p else q) := by
  split
  · exact hp
  · exact hq

theorem Quiet.get : Quiet M.get := Quiet.ofReadOnly ReadOnly.get
theorem Quiet.pure {α} (a : α) : Quiet (Pure.pure a : M α) := Quiet.ofReadOnly (ReadOnly.pure a)
theorem Quiet.throw {α} (e : Exc) : Quiet (M.throw e : M α) := Quiet.ofReadOnly (ReadOnly.fail _)
theorem Quiet.lift {α} (r : Except Fail α) : Quiet (M.lift r) := Quiet.ofReadOnly (ReadOnly.lift r)
theorem Quiet.symAt (y : Nat) : Quiet (symAt y) := Quiet.ofReadOnly (ReadOnly.symAt y)
theorem Quiet.storeSym (y : Nat) (p : Option Nat) (s : Sym) (i : Option Inst) : Quiet (storeSym y p s i) :=
  fun _ => ⟨rfl, rfl⟩
theorem Quiet.markFree (i : Byte) : Quiet (markFree i) := fun _ => ⟨rfl, rfl⟩

theorem Quiet.symSetInt (y : Nat) (x : BitVec 32) (i : Nat) (p : Option Nat) : Quiet (symSetInt y x i p) :=
  (Quiet.symAt y).bind fun _ => Quiet.get.bind fun _ => (Quiet.lift _).bind fun _ => Quiet.storeSym _ _ _ _
theorem Quiet.symSetFloat (y : Nat) (x : BitVec 32) (i : Nat) (p : Option Nat) : Quiet (symSetFloat y x i p) :=
  (Quiet.symAt y).bind fun _ => Quiet.get.bind fun _ => (Quiet.lift _).bind fun _ => Quiet.storeSym _ _ _ _
theorem Quiet.symSetString (y : Nat) (x : Bytes) (i : Nat) (p : Option Nat) : Quiet (symSetString y x i p) :=
  (Quiet.symAt y).bind fun _ => Quiet.get.bind fun _ => (Quiet.lift _).bind fun _ => Quiet.storeSym _ _ _ _
theorem Quiet.symSetInstance (y : Nat) (q : Option Nat) : Quiet (symSetInstance y q) :=
  (Quiet.symAt y).bind fun _ => (Quiet.lift _).bind fun _ => Quiet.storeSym _ _ _ _

theorem Quiet.getFreeString : Quiet getFreeString := by
  intro v
  unfold Daedalus.getFreeString
  rw [M.get_bind]
  match hf : v.free with
  | i :: rest => exact ⟨rfl, rfl⟩
  | [] =>
    dsimp only
    simp only [M.bind_def, symAt_eq]
    cases v.syms[v.tmp]? with
    | none => exact ⟨rfl, rfl⟩
    | some s =>
      simp only [M.lift_def]
      cases s.grow (s.count * 2) with
      | error e => exact ⟨rfl, rfl⟩
      | ok s' =>
        simp only [M.set_def]
        cases pushRange [] s.count.toNat s'.count.toNat <;> exact ⟨rfl, rfl⟩

theorem Quiet.checkConst (y : Nat) : Quiet (checkConst y) :=
  (Quiet.symAt y).bind fun _ => Quiet.get.bind fun _ => Quiet.ite (Quiet.throw _) (Quiet.pure _)
theorem Quiet.vmSetInt (y : Nat) (x : BitVec 32) (i : Byte) (p : Option Nat) : Quiet (vmSetInt y x i p) :=
  (Quiet.checkConst y).bind fun _ => (Quiet.symAt _).bind fun _ => Quiet.get.bind fun _ =>
    Quiet.ite (Quiet.symSetInt _ _ _ _) (Quiet.pure _)
theorem Quiet.vmSetFloat (y : Nat) (x : BitVec 32) (i : Byte) (p : Option Nat) : Quiet (vmSetFloat y x i p) :=
  (Quiet.checkConst y).bind fun _ => (Quiet.symAt _).bind fun _ => Quiet.get.bind fun _ =>
    Quiet.ite (Quiet.symSetFloat _ _ _ _) (Quiet.pure _)
theorem Quiet.vmSetString (y : Nat) (x : Bytes) (i : Byte) (p : Option Nat) : Quiet (vmSetString y x i p) :=
  (Quiet.checkConst y).bind fun _ => (Quiet.symAt _).bind fun _ => Quiet.get.bind fun _ =>
    Quiet.ite (Quiet.symSetString _ _ _ _) (Quiet.pure _)

/-- Operations that replace `n` values by `m`, when they end well. -/
def EffAt {α} (v : Vm) (p : M α) (n m : Nat) : Prop :=
  ∀ fs args a w, p v = (.ok a, w) → Stk v (fs ++ args) → args.length = n → ∃ rs, rs.length = m ∧ Stk w (fs ++ rs)
def Eff {α} (p : M α) (n m : Nat) : Prop := ∀ v, EffAt v p n m

theorem Quiet.eff {α} {p : M α} (h : Quiet p) (k : Nat) : Eff p k k := by
  intro v fs args a w hp hs hl
  have := h v
  rw [hp] at this
  exact ⟨args, hl, hs.congr this.1 this.2⟩

theorem Eff.bind {α β} {p : M α} {f : α → M β} {n m l : Nat} (hp : Eff p n m) (hf : ∀ a, Eff (f a) m l) :
    Eff (p >>= f) n l := by
  intro v fs args b w h hs hl
  obtain ⟨a, u, h1, h2⟩ := M.bind_inv h
  obtain ⟨rs, hr, hs'⟩ := hp v fs args a u h1 hs hl
  exact hf a u fs rs b w h2 hs' hr

theorem Eff.frame {α} {p : M α} {n m : Nat} (h : Eff p n m) (k : Nat) : Eff p (k + n) (k + m) := by
  intro v fs args a w hp hs hl
  obtain ⟨rs, hr, hs'⟩ := h v (fs ++ args.take k) (args.drop k) a w hp
    (by rw [List.append_assoc, List.take_append_drop]; exact hs) (by rw [List.length_drop]; omega)
  refine ⟨args.take k ++ rs, ?_, by rw [← List.append_assoc]; exact hs'⟩
  rw [List.length_append, List.length_take, hr]
  omega

theorem Eff.push (f : Frame) (k : Nat) : Eff (push f) k (k + 1) := by
  intro v fs args a w hp hs hl
  by_cases hlt : (fs ++ args).length < stackSize
  · obtain ⟨h1, h2⟩ := push_ok f hs hlt
    rw [h1] at hp
    cases hp
    exact ⟨args ++ [f], by simp [hl], by rw [← List.append_assoc]; exact h2⟩
  · rw [push_full f hs (by have := hs.2.1; omega)] at hp
    cases hp

theorem Eff.take (k : Nat) : Eff take (k + 1) k := by
  intro v fs args a w hp hs hl
  have hne : args ≠ [] := by intro h; rw [h] at hl; simp at hl
  have he : fs ++ args = (fs ++ args.dropLast) ++ [args.getLast hne] := by
    rw [List.append_assoc, List.dropLast_concat_getLast]
  rw [he] at hs
  obtain ⟨h1, h2⟩ := take_ok hs
  rw [h1] at hp
  cases hp
  exact ⟨args.dropLast, by simp [hl], h2⟩

theorem Eff.pushRef (y : Nat) (i : Byte) (k : Nat) : Eff (pushRef y i) k (k + 1) :=
  (Quiet.get.eff k).bind fun _ => Eff.push _ k

theorem Eff.pushString (s : Bytes) (k : Nat) : Eff (pushString s) k (k + 1) :=
  (Quiet.getFreeString.eff k).bind fun _ => (Quiet.get.eff k).bind fun _ => ((Quiet.symSetString _ _ _ _).eff k).bind fun _ =>
    Eff.pushRef _ _ k

theorem Eff.popWith {α} (z : M α) (g : Vm → Frame → M α) (hg : ∀ v f, Quiet (g v f)) (k : Nat) :
    Eff (M.get >>= fun v => if v.sp = 0 then z else Daedalus.take >>= g v) (k + 1) k := by
  intro v fs args a w hp hs hl
  rw [M.get_bind] at hp
  have hne : args ≠ [] := by intro h; rw [h] at hl; simp at hl
  have he : fs ++ args = (fs ++ args.dropLast) ++ [args.getLast hne] := by
    rw [List.append_assoc, List.dropLast_concat_getLast]
  rw [if_neg (sp_ne_zero (he ▸ hs))] at hp
  exact ((Eff.take k).bind fun f => (hg v f).eff k) v fs args a w hp hs hl

theorem Eff.popInt (k : Nat) : Eff popInt (k + 1) k := by
  refine Eff.popWith _ (fun _ f => _) (fun v f => ?_) k
  cases f with
  | ref y i p => exact Quiet.ofReadOnly (ReadOnly.vmGetInt y i p)
  | int x => exact Quiet.pure _
  | float x => exact Quiet.throw _
  | inst x => exact Quiet.throw _

theorem Eff.popFloat (k : Nat) : Eff popFloat (k + 1) k := by
  refine Eff.popWith _ (fun _ f => _) (fun v f => ?_) k
  cases f with
  | ref y i p => exact Quiet.ofReadOnly (ReadOnly.vmGetFloat y i p)
  | int x => exact Quiet.pure _
  | float x => exact Quiet.pure _
  | inst x => exact Quiet.throw _

theorem Eff.popInst (k : Nat) : Eff popInst (k + 1) k := by
  refine Eff.popWith _ (fun _ f => _) (fun v f => ?_) k
  cases f with
  | ref y i p => exact Quiet.ofReadOnly (ReadOnly.symGetInstance y)
  | int x => exact Quiet.throw _
  | float x => exact Quiet.throw _
  | inst x => exact Quiet.pure _

theorem Eff.popRef (k : Nat) : Eff popRef (k + 1) k := by
  refine Eff.popWith _ (fun _ f => _) (fun v f => ?_) k
  cases f with
  | ref y i p =>
    refine (Quiet.symAt _).bind fun s => (Quiet.symAt _).bind fun t => ?_
    exact Quiet.ite ((Quiet.markFree _).bind fun _ => Quiet.pure _) (Quiet.pure _)
  | int x => exact Quiet.throw _
  | float x => exact Quiet.throw _
  | inst x => exact Quiet.throw _

theorem Eff.popString (k : Nat) : Eff popString (k + 1) k :=
  (Eff.popRef k).bind fun _ => (Quiet.eff (Quiet.symAt _) k).bind fun _ => (Quiet.get.eff k).bind fun _ =>
    Quiet.eff (Quiet.ite (Quiet.ite (Quiet.pure _) (Quiet.throw _)) (Quiet.ofReadOnly (ReadOnly.symGetString _ _ _))) k

theorem Eff.assignOp (op : Op) (k : Nat) : Eff (assignOp op) (k + 2) k :=
  (Eff.popRef (k + 1)).bind fun _ => (Eff.popInt k).bind fun _ => Quiet.eff (Quiet.ite (Quiet.throw _) <|
    (Quiet.checkConst _).bind fun _ => (Quiet.symAt _).bind fun _ => Quiet.get.bind fun _ =>
      Quiet.ite ((Quiet.ofReadOnly (ReadOnly.symGetInt _ _ _)).bind fun _ => (Quiet.lift _).bind fun _ =>
        Quiet.symSetInt _ _ _ _) (Quiet.pure _)) k

theorem Eff.execBin (op : Op) (k : Nat) : Eff (execBin op) (k + 2) (k + 1) :=
  (Eff.popInt (k + 1)).bind fun _ => (Eff.popInt k).bind fun _ => ((Quiet.lift _).eff k).bind fun _ =>
    (Eff.push _ k).bind fun _ => (Quiet.pure _).eff _

theorem Eff.execUn (op : Op) (k : Nat) : Eff (execUn op) (k + 1) (k + 1) :=
  (Eff.popInt k).bind fun _ => ((Quiet.lift _).eff k).bind fun _ => (Eff.push _ k).bind fun _ => (Quiet.pure _).eff _

theorem Eff.fix {t : DType} (ht : isValue t) (k : Nat) : Eff (fix t) k (k + 1) := by
  cases t
  all_goals first
    | exact Eff.push _ k
    | exact Eff.pushString _ k
    | exact ht.elim

theorem Eff.guarded {α} {p : M α} {n m : Nat} (t : DType) (hp : Eff p n m) : Eff (guarded t p) n m := by
  intro v fs args a w h hs hl
  unfold Daedalus.guarded at h
  split at h
  · split at h <;> cases h
  · exact hp v fs args a w h hs hl

/-! ## Leaving a function -/

/-- `pop_call` on the stack: the results are one value, the topmost one if there is any, for functions that return a value,
and none for others. -/
theorem fixStack_ok {c : Call} {f : Sym} {v w : Vm} {fs rs : List Frame} (hs : Stk v (fs ++ rs))
    (hc : c.sp.toNat = fs.length) (hv : f.hasReturn = true → isValue f.rtype) (h : fixStack c f v = (.ok (), w)) :
    ∃ r, r.length = results f ∧ Stk w (fs ++ r) ∧
      (f.hasReturn = true → ∀ hne : rs ≠ [], r = [rs.getLast hne]) := by
  unfold fixStack at h
  rw [M.get_bind] at h
  have hlen := hs.2.1
  have hsz : stackSize = 2048 := rfl
  simp only [List.length_append] at hlen
  have hcs : (c.sp.setWidth 16).toNat = fs.length := by
    rw [BitVec.toNat_setWidth, hc]
    omega
  by_cases hr : f.hasReturn = true
  · rw [hr] at h
    simp only [Bool.not_true, Bool.false_eq_true, if_false] at h
    have hrem : (v.sp.setWidth 32 - c.sp).toNat = rs.length := by
      have h1 := hs.1
      simp only [List.length_append] at h1
      rw [BitVec.toNat_sub, BitVec.toNat_setWidth, h1, hc]
      omega
    by_cases h0 : v.sp.setWidth 32 - c.sp = 0
    · rw [if_pos h0] at h
      have hz : rs = [] := by
        rw [h0] at hrem
        exact List.length_eq_zero_iff.mp hrem.symm
      subst hz
      obtain ⟨r, k1, k2⟩ := Eff.fix (hv hr) 0 v fs [] () w h (by simpa using hs) rfl
      exact ⟨r, by simp [results, hr, k1], k2, fun _ hne => absurd rfl hne⟩
    · rw [if_neg h0] at h
      have hne : rs ≠ [] := by
        intro he
        apply h0
        apply BitVec.eq_of_toNat_eq
        rw [hrem, he]; rfl
      have hpos : 0 < rs.length := List.length_pos_iff.mpr hne
      by_cases h1 : (v.sp.setWidth 32 - c.sp).toNat > 1
      · rw [if_pos h1] at h
        have he : fs ++ rs = (fs ++ rs.dropLast) ++ [rs.getLast hne] := by
          rw [List.append_assoc, List.dropLast_concat_getLast]
        have hsp : (v.sp - 1).toNat = fs.length + rs.length - 1 := by
          refine sp_sub_one ?_
          rw [hs.1, List.length_append]; omega
        have hg : v.stack[fs.length + rs.length - 1]? = some (some (rs.getLast hne)) := by
          have := hs.get (fs.length + rs.length - 1) (by simp; omega)
          rw [this]
          congr 2
          rw [List.getElem_append_right (by omega), List.getLast_eq_getElem]
          congr 1
          omega
        rw [hsp, M.bind_ok (stackGet_ok (by omega) hg), hcs, M.bind_ok (stackPut_ok (by omega)), setSp_def] at h
        cases h
        refine ⟨[rs.getLast hne], by simp [results, hr], ?_, fun _ _ => rfl⟩
        refine ⟨?_, by simp; omega, ?_⟩
        · simp only [List.length_append, List.length_singleton]
          rw [BitVec.toNat_add, hcs]
          simp
          omega
        · simp only [List.length_append, List.length_singleton, List.map_append, List.map_cons, List.map_nil]
          have := hs.len
          rw [putSlot_take _ (by simp at this; omega)]
          congr 1
          have h2 := congrArg (List.take fs.length) hs.2.2
          rw [List.take_take, List.length_append, Nat.min_eq_left (by omega)] at h2
          rw [h2, List.map_append, List.take_append, List.take_of_length_le (by simp)]
          simp
      · rw [if_neg h1] at h
        cases h
        have : rs.length = 1 := by omega
        obtain ⟨r, rfl⟩ := List.length_eq_one_iff.mp this
        exact ⟨[r], by simp [results, hr], hs, fun _ _ => rfl⟩
  · have hr' : f.hasReturn = false := by simpa using hr
    rw [hr'] at h
    simp only [Bool.not_false, if_true, setSp_def] at h
    cases h
    exact ⟨[], by simp [results, hr'], by simpa using hs.lower hcs, fun h => absurd h hr⟩

/-- A call whose middle part only touches the arguments leaves exactly the results in their place. -/
theorem call_effect {y : Nat} {mid : M Unit} {f : Sym} {v w : Vm} (hy : v.syms[y]? = some f) (hyt : y ≠ v.tmp)
    (hl : f.hasLocals = false) (hv : f.hasReturn = true → isValue f.rtype) (hm : Ret mid)
    (hmid : ∀ u u' fs args, mid u = (.ok (), u') → Same v u → u.calls ≠ [] → Stk u (fs ++ args) → args.length = f.count.toNat →
      ∃ rs, Stk u' (fs ++ rs)) (h : (do pushCall y; mid; popCall : M Unit) v = (.ok (), w)) {fs args : List Frame}
    (hs : Stk v (fs ++ args)) (ha : args.length = f.count.toNat) :
    ∃ rs, rs.length = results f ∧ Stk w (fs ++ rs) := by
  obtain ⟨_, u1, h1, h⟩ := M.bind_inv h
  obtain ⟨_, u2, h2, h3⟩ := M.bind_inv h
  obtain ⟨f', u, hf, hk, hu, rfl⟩ := pushCall_inv h1
  rw [hy] at hf
  obtain rfl := Option.some.inj hf
  have hu := hu hl
  subst u
  have hm := hm _ _ _ h2
  have hsame : Same v { v with calls := ⟨y, v.pc, v.sp.setWidth 32 - f.count, v.instance_⟩ :: v.calls } :=
    ⟨rfl, rfl, rfl, rfl, rfl, fun _ s h => ⟨s, h, rfl, fun _ => rfl⟩⟩
  obtain ⟨rs, hrs⟩ := hmid _ _ fs args h2 hsame (by simp) (hs.congr rfl rfl) ha
  obtain ⟨c, rest, f', u3, u4, hc, hf', hfix, hloc, hk', rfl⟩ := popCall_inv h3
  rw [hm.2] at hc
  simp only [List.cons.injEq] at hc
  obtain ⟨rfl, rfl⟩ := hc
  obtain ⟨s', k1, k2, k3⟩ := (hsame.trans hm.1).decl y f hy
  rw [k1] at hf'
  obtain rfl := Option.some.inj hf'
  have hfl : s'.flags = f.flags := shape_flags k2
  have hrt : s'.rtype = f.rtype := shape_rtype k2
  have hl' : s'.hasLocals = false := by unfold Sym.hasLocals at *; rw [hfl]; exact hl
  have hr' : s'.hasReturn = f.hasReturn := by unfold Sym.hasReturn; rw [hfl]
  rw [if_neg (by rw [hl']; simp)] at hloc
  cases hloc
  have hcnt : (v.sp.setWidth 32 - f.count).toNat = fs.length := by
    have h1 := hs.1
    have := hs.2.1
    have hsz : stackSize = 2048 := rfl
    simp only [List.length_append] at h1 this
    rw [BitVec.toNat_sub, BitVec.toNat_setWidth, h1, ← ha]
    omega
  obtain ⟨r, e1, e2, _⟩ := fixStack_ok hrs hcnt (by rw [hr', hrt]; exact hv) hfix
  refine ⟨r, ?_, e2.congr rfl rfl⟩
  rw [e1]
  unfold results
  rw [hr']

/-! ## Compiled code -/

theorem lastIndex_congr {p : Sym → Bool} {a b : List Sym} (hl : b.length = a.length)
    (h : ∀ (y : Nat) s, a[y]? = some s → ∃ s', b[y]? = some s' ∧ p s' = p s) : lastIndex p b = lastIndex p a := by
  induction a generalizing b with
  | nil =>
    have : b = [] := List.length_eq_zero_iff.mp hl
    rw [this]
  | cons s a ih =>
    match b, hl with
    | t :: b, hl =>
      have h0 := h 0 s rfl
      obtain ⟨s', e1, e2⟩ := h0
      simp only [List.getElem?_cons_zero, Option.some.injEq] at e1
      subst e1
      have := ih (b := b) (by simpa using hl) (fun y s hy => by simpa using h (y + 1) s (by simpa using hy))
      simp only [lastIndex, this, e2]

theorem lastIndex_some {p : Sym → Bool} {a : List Sym} {y : Nat} (h : lastIndex p a = some y) :
    ∃ s, a[y]? = some s ∧ p s = true := by
  induction a generalizing y with
  | nil => cases h
  | cons s a ih =>
    simp only [lastIndex] at h
    match hl : lastIndex p a, h with
    | some i, h =>
      cases h
      simpa using ih hl
    | none, h =>
      dsimp only at h
      split at h
      · cases h
        exact ⟨s, rfl, by assumption⟩
      · cases h

theorem Same.findByAddress {v w : Vm} (h : Same v w) (a : BitVec 32) : findByAddress w.syms a = findByAddress v.syms a := by
  unfold Daedalus.findByAddress
  refine lastIndex_congr h.len fun y s hs => ?_
  obtain ⟨s', h1, h2, _⟩ := h.decl y s hs
  refine ⟨s', h1, ?_⟩
  have e1 : s'.type = s.type := shape_type h2
  have e2 : s'.flags = s.flags := shape_flags h2
  have e3 : s'.address = s.address := shape_address h2
  simp only [hasCode, Sym.isConst, Sym.isMember, e1, e2, e3]

/-- What a call of a function must do. -/
def Calls (v0 : Vm) (H : BitVec 32 → Option Nat) (call : Nat → M Unit) : Prop :=
  ∀ y f v w, v0.syms[y]? = some f → y ≠ v0.tmp → Callable H f → Same v0 v → call y v = (.ok (), w) → Keeps v w ∧
    ∀ fs args, Stk v (fs ++ args) → args.length = f.count.toNat → ∃ rs, rs.length = results f ∧ Stk w (fs ++ rs)

/-- What an operation does when it ends well: the position stays, `n` values become `m`. -/
def Does {α} (v : Vm) (p : M α) (fs : List Frame) (m : Nat) : Prop :=
  ∀ a w, p v = (.ok a, w) → w.pc = v.pc ∧ ∃ rs, rs.length = m ∧ Stk w (fs ++ rs)

theorem Does.of {α} {v : Vm} {p : M α} {fs args : List Frame} {n m : Nat} (hk : Kp p) (he : Eff p n m)
    (hs : Stk v (fs ++ args)) (hl : args.length = n) : Does v p fs m := by
  intro a w h
  have := hk v
  unfold KpAt at this
  rw [h] at this
  exact ⟨this.pc, he v fs args a w h hs hl⟩

end Verif.Daedalus
