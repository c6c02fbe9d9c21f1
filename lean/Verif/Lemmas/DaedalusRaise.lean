import Verif.Lemmas.DaedalusFlow

/-!
# Depth of the stack after a call; exceptions
-/

namespace Verif.Daedalus

open Verif.Spec.Daedalus

theorem push_sp {f : Frame} {v w : Vm} (h : push f v = (.ok (), w)) : w.sp = v.sp + 1 := by
  unfold push at h
  rw [M.get_bind] at h
  split at h
  · cases h
  · obtain ⟨_, u, h1, h2⟩ := M.bind_inv h
    cases h2
    rfl

theorem fix_sp {t : DType} (ht : isValue t) {v w : Vm} (h : fix t v = (.ok (), w)) : w.sp = v.sp + 1 := by
  cases t
  case string =>
    have h : pushString [] v = (.ok (), w) := h
    unfold pushString at h
    obtain ⟨i, u, h1, h⟩ := M.bind_inv h
    have q1 := Quiet.getFreeString v
    rw [h1] at q1
    rw [M.get_bind] at h
    obtain ⟨_, u2, h2, h⟩ := M.bind_inv h
    have q2 := Quiet.symSetString u.tmp [] (i.toNat % 65536) none u
    rw [h2] at q2
    unfold pushRef at h
    rw [M.get_bind] at h
    rw [push_sp h, q2.2, q1.2]
  all_goals first
    | exact push_sp h
    | exact ht.elim

/-- The depth `pop_call` leaves, whatever the callee did to the stack. -/
theorem fixStack_sp {c : Call} {f : Sym} {v w : Vm} (h : fixStack c f v = (.ok (), w)) (hc : c.sp.toNat ≤ stackSize)
    (hv : f.hasReturn = true → isValue f.rtype) : w.sp.toNat = c.sp.toNat + results f := by
  have hsz : stackSize = 2048 := rfl
  have hcs : (c.sp.setWidth 16).toNat = c.sp.toNat := by rw [BitVec.toNat_setWidth]; omega
  have hcs1 : (c.sp.setWidth 16 + 1).toNat = c.sp.toNat + 1 := by rw [BitVec.toNat_add, hcs]; simp; omega
  unfold fixStack at h
  rw [M.get_bind] at h
  by_cases hr : f.hasReturn = true
  · rw [hr] at h
    simp only [Bool.not_true, Bool.false_eq_true, if_false] at h
    have hres : results f = 1 := by unfold results; rw [if_pos hr]
    rw [hres]
    have hsub : (v.sp.setWidth 32 - c.sp).toNat = (2 ^ 32 - c.sp.toNat + v.sp.toNat) % 2 ^ 32 := by
      rw [BitVec.toNat_sub, BitVec.toNat_setWidth]
      have := v.sp.isLt
      omega
    have hlt := v.sp.isLt
    by_cases h0 : v.sp.setWidth 32 - c.sp = 0
    · rw [if_pos h0] at h
      rw [fix_sp (hv hr) h, BitVec.toNat_add]
      rw [h0] at hsub
      simp at hsub ⊢
      omega
    · rw [if_neg h0] at h
      by_cases h1 : (v.sp.setWidth 32 - c.sp).toNat > 1
      · rw [if_pos h1] at h
        obtain ⟨r, u, e1, h⟩ := M.bind_inv h
        obtain ⟨_, u', e2, h⟩ := M.bind_inv h
        cases h
        exact hcs1
      · rw [if_neg h1] at h
        cases h
        have : (v.sp.setWidth 32 - c.sp).toNat ≠ 0 := fun he => h0 (BitVec.eq_of_toNat_eq he)
        omega
  · have hr' : f.hasReturn = false := by simpa using hr
    rw [hr'] at h
    simp only [Bool.not_false, if_true, setSp_def] at h
    cases h
    simp only [results, hr', Bool.false_eq_true, if_false, Nat.add_zero]
    exact hcs

/-- The depth after a call of any function. -/
theorem unsafeCall_sp {h : Host} (hb : Balanced h) {fuel y : Nat} {f : Sym} {v w : Vm} (hy : v.syms[y]? = some f)
    (hl : f.hasLocals = false) (hv : f.hasReturn = true → isValue f.rtype)
    (hn : f.count.toNat ≤ v.sp.toNat) (hsp : v.sp.toNat ≤ stackSize) (hc : unsafeCall h fuel y v = (.ok (), w)) :
    w.sp.toNat = v.sp.toNat - f.count.toNat + results f := by
  match fuel, hc with
  | 0, hc => cases hc
  | n + 1, hc =>
    have hret : ∀ z, Ret (unsafeCall h n z) := fun z v a w hz => by
      have := unsafeCall_keeps hb n z (by cases a; exact hz)
      exact ⟨this.toSame, this.calls⟩
    have hmid : Ret (do let f ← symAt y; jump f.address; loop (exec h (unsafeCall h n)) n) :=
      (Kp.symAt y).ret.bind fun f => (Ret.jump _).bind fun _ => Ret.loop (Ret.exec hb hret) n
    obtain ⟨_, u1, h1, h⟩ := M.bind_inv (unsafeCall_eq hc)
    obtain ⟨_, u2, h2, h3⟩ := M.bind_inv h
    obtain ⟨f', u, hf, hk, hu, rfl⟩ := pushCall_inv h1
    rw [hy] at hf
    obtain rfl := Option.some.inj hf
    have hu := hu hl
    subst u
    have hm := hmid _ _ _ h2
    have hsame : Same v { v with calls := ⟨y, v.pc, v.sp.setWidth 32 - f.count, v.instance_⟩ :: v.calls } :=
      ⟨rfl, rfl, rfl, rfl, rfl, fun _ s h => ⟨s, h, rfl, fun _ => rfl⟩⟩
    obtain ⟨c, rest, f', u3, u4, hcc, hf', hfix, hloc, hk', rfl⟩ := popCall_inv h3
    rw [hm.2] at hcc
    simp only [List.cons.injEq] at hcc
    obtain ⟨rfl, rfl⟩ := hcc
    obtain ⟨s', k1, k2, _⟩ := (hsame.trans hm.1).decl y f hy
    rw [k1] at hf'
    obtain rfl := Option.some.inj hf'
    have hfl := shape_flags k2
    have hr' : s'.hasReturn = f.hasReturn := by unfold Sym.hasReturn; rw [hfl]
    rw [if_neg (by unfold Sym.hasLocals at *; rw [hfl, hl]; simp)] at hloc
    cases hloc
    have hcnt : (v.sp.setWidth 32 - f.count).toNat = v.sp.toNat - f.count.toNat := by
      have hsz : stackSize = 2048 := rfl
      have := f.count.isLt
      rw [BitVec.toNat_sub, BitVec.toNat_setWidth]
      omega
    have := fixStack_sp hfix (by show (v.sp.setWidth 32 - f.count).toNat ≤ _; rw [hcnt]; omega)
      (by rw [hr', shape_rtype k2]; exact hv)
    show u3.sp.toNat = _
    rw [this]
    show (v.sp.setWidth 32 - f.count).toNat + _ = _
    rw [hcnt]
    unfold results
    rw [hr']

/-! ## Exceptions -/

/-- An operation that leaves the call stack alone even if it raises. -/
def CallsSame {α} (p : M α) : Prop := ∀ v, (p v).2.calls = v.calls

theorem Kp.callsSame {α} {p : M α} (h : Kp p) : CallsSame p := fun v => (h v).calls

theorem CallsSame.bind {α β} {p : M α} {f : α → M β} (hp : CallsSame p) (hf : ∀ a, CallsSame (f a)) :
    CallsSame (p >>= f) := by
  intro v
  have h1 := hp v
  rw [M.bind_def]
  match h : p v with
  | (.ok a, w) =>
    rw [h] at h1
    exact (hf a w).trans h1
  | (.error e, w) =>
    rw [h] at h1
    exact h1

theorem CallsSame.jump (a : BitVec 32) : CallsSame (jump a) := by
  intro v
  unfold Daedalus.jump
  rw [M.get_bind]
  split <;> rfl

theorem CallsSame.guarded {α} {p : M α} (t : DType) (hp : CallsSame p) : CallsSame (guarded t p) := by
  intro v
  have h1 := hp v
  unfold Daedalus.guarded
  match h : p v with
  | (.ok a, w) => rw [h] at h1; exact h1
  | (.error (.throw e), w) =>
    rw [h] at h1
    dsimp only
    have h2 := (Kp.fix t w).calls
    match hf : fix t w with
    | (.ok _, w') => rw [hf] at h2; exact h2.trans h1
    | (.error (.throw _), w') => rw [hf] at h2; exact h2.trans h1
    | (.error .ub, w') => rw [hf] at h2; exact h2.trans h1
    | (.error .terminate, w') => rw [hf] at h2; exact h2.trans h1
    | (.error .hang, w') => rw [hf] at h2; exact h2.trans h1
  | (.error .ub, w) => rw [h] at h1; exact h1
  | (.error .terminate, w) => rw [h] at h1; exact h1
  | (.error .hang, w) => rw [h] at h1; exact h1

theorem CallsSame.pushVar {h : Host} (ht : ∀ t y, h.trap = some t → CallsSame (t y)) (y : Nat) (s : Sym) :
    CallsSame (pushVar h y s) := by
  unfold Daedalus.pushVar
  match htt : h.trap with
  | some t =>
    dsimp only
    split
    · exact ht t y htt
    · exact (Kp.pushRef _ _).callsSame
  | none => exact (Kp.pushRef _ _).callsSame

/-- The switch, for anything but calls of script functions and of externals. -/
theorem CallsSame.execOp {h : Host} {call : Nat → M Unit} {i : Instr} (ht : ∀ t y, h.trap = some t → CallsSame (t y))
    (hbl : i.op = .bl → ∃ p, h.override_ i.address = some p ∧ CallsSame p)
    (hbe : i.op = .be → h.external i.symbol.toNat = none ∧ ∀ d y, h.default_ = some d → CallsSame (d y)) :
    CallsSame (execOp h call i) := by
  obtain ⟨op, a, y, m, x, sz⟩ := i
  cases op
  case bl =>
    obtain ⟨p, hp, hk⟩ := hbl rfl
    refine Kp.get.callsSame.bind fun v => ?_
    have hp : h.override_ a = some p := hp
    show CallsSame (match h.override_ a with | some cb => _ | none => _)
    rw [hp]
    dsimp only
    cases findByAddress v.syms a with
    | none => exact Kp.ub.callsSame
    | some z => exact (Kp.symAt z).callsSame.bind fun s => (CallsSame.guarded _ hk).bind fun _ => (Kp.pure _).callsSame
  case be =>
    obtain ⟨he, hd⟩ := hbe rfl
    intro v
    show (execBe h y v).2.calls = _
    unfold execBe
    rw [M.bind_def]
    match hs : symByIndex y v with
    | (.error e, w) =>
      have := (Kp.symByIndex y v).calls
      rw [hs] at this
      exact this
    | (.ok r, w) =>
      obtain ⟨hw, hr, _⟩ := symByIndex_inv hs
      subst w
      obtain ⟨z, s⟩ := r
      simp only at hr
      subst z
      have he : h.external y.toNat = none := he
      dsimp only
      rw [he]
      refine ((CallsSame.guarded s.rtype ?_).bind fun _ => (Kp.pure _).callsSame) v
      dsimp only
      match hdd : h.default_ with
      | some d => exact hd d _ hdd
      | none => exact (Kp.throw _).callsSame
  case b => exact (CallsSame.jump _).bind fun _ => (Kp.pure _).callsSame
  case bz =>
    refine Kp.popInt.callsSame.bind fun z => ?_
    split
    · exact (CallsSame.jump _).bind fun _ => (Kp.pure _).callsSame
    · exact (Kp.pure _).callsSame
  case gmovi =>
    refine (Kp.symByIndex _).callsSame.bind fun p => (Kp.ofReadOnly (ReadOnly.symGetInstance _)).callsSame.bind fun q => ?_
    intro v
    rw [M.get_bind]
    rfl
  case pushv => exact (Kp.symByIndex _).callsSame.bind fun p => (CallsSame.pushVar ht _ _).bind fun _ => (Kp.pure _).callsSame
  case pushvi => exact (Kp.symByIndex _).callsSame.bind fun p => (CallsSame.pushVar ht _ _).bind fun _ => (Kp.pure _).callsSame
  all_goals
    exact Kp.callsSame (Kp.execOp h call ⟨_, a, y, m, x, sz⟩ (by simp) (by simp))

/-- `exec` with any handler that leaves the call stack alone. -/
theorem execInstr_calls {h : Host} {call : Nat → M Unit} {i : Instr} (ho : CallsSame (execOp h call i))
    (hh : ∀ hd e i, h.handler = some hd → CallsSame (hd e i)) : CallsSame (execInstr h call i) := by
  intro v
  have h1 := ho v
  unfold execInstr
  match he : Daedalus.execOp h call i v with
  | (.ok .next, u) => rw [he] at h1; exact h1
  | (.ok .stay, u) => rw [he] at h1; exact h1
  | (.ok .ret, u) => rw [he] at h1; exact h1
  | (.error .ub, u) => rw [he] at h1; exact h1
  | (.error .terminate, u) => rw [he] at h1; exact h1
  | (.error .hang, u) => rw [he] at h1; exact h1
  | (.error (.throw e), u) =>
    rw [he] at h1
    dsimp only at h1 ⊢
    split
    · refine Eq.trans ?_ h1
      unfold execCatch
      rw [M.get_bind]
      match hd : h.handler with
      | none => rfl
      | some f =>
        dsimp only
        have h2 := hh f e i hd u
        rw [M.bind_def]
        match hs : f e i u with
        | (.error e', u') => rw [hs] at h2; exact h2
        | (.ok .fail, u') => rw [hs] at h2; exact h2
        | (.ok .return_, u') => rw [hs] at h2; exact h2
        | (.ok .continue_, u') =>
          rw [hs] at h2
          dsimp only at h2 ⊢
          rw [M.get_bind]
          split
          · exact h2
          · exact h2
    · exact h1

theorem Kp.lenient (e : Exc) (i : Instr) : Kp (lenient e i) := by
  unfold Daedalus.lenient
  split
  all_goals first
    | exact (Kp.push _).bind fun _ => Kp.pure _
    | exact Kp.pure _

/-- An external that raises leaves its frame on the call stack. -/
theorem execBe_leak {h : Host} {call : Nat → M Unit} {i : Instr} {cb : M Unit} {v : Vm} {f : Sym} {e : Exc} {u : Vm}
    (hi : i.op = .be) (he : h.external i.symbol.toNat = some cb) (hf : v.syms[i.symbol.toNat]? = some f)
    (hl : f.hasLocals = false) (hp : f.index.toNat + f.count.toNat + 1 ≤ v.syms.length)
    (hcb : cb { v with calls := ⟨i.symbol.toNat, v.pc, v.sp.setWidth 32 - f.count, v.instance_⟩ :: v.calls } =
      (.error (.throw e), u))
    (hk : u.calls = ⟨i.symbol.toNat, v.pc, v.sp.setWidth 32 - f.count, v.instance_⟩ :: v.calls) :
    (execOp h call i v).2.calls = ⟨i.symbol.toNat, v.pc, v.sp.setWidth 32 - f.count, v.instance_⟩ :: v.calls ∧
    ∀ a, (execOp h call i v).1 ≠ .ok a := by
  obtain ⟨op, a, y, m, x, sz⟩ := i
  simp only at hi
  subst hi
  simp only at *
  show (execBe h y v).2.calls = _ ∧ ∀ a, (execBe h y v).1 ≠ .ok a
  have hpc : pushCall y.toNat v =
      (.ok (), { v with calls := ⟨y.toNat, v.pc, v.sp.setWidth 32 - f.count, v.instance_⟩ :: v.calls }) := by
    unfold pushCall
    rw [M.bind_ok (symAt_some hf)]
    dsimp only
    rw [if_neg (by rw [hl]; simp)]
    have : params f v = (.ok (List.range' (f.index.toNat + 1) f.count.toNat), v) := by
      unfold params
      rw [M.get_bind, if_neg (by omega)]
      rfl
    rw [M.bind_ok this, M.get_bind, M.set_def]
    simp
  have hsb : symByIndex y v = (.ok (y.toNat, f), v) := by
    unfold symByIndex
    rw [M.get_bind, hf]
    rfl
  have hrun : (do pushCall y.toNat; cb; popCall : M Unit) v = (.error (.throw e), u) := by
    rw [M.bind_ok hpc, M.bind_err hcb]
  unfold execBe
  rw [M.bind_ok hsb]
  dsimp only
  rw [he]
  dsimp only
  have hg : ∃ r u', guarded f.rtype (do pushCall y.toNat; cb; popCall : M Unit) v = (.error r, u') ∧ u'.calls = u.calls := by
    unfold guarded
    rw [hrun]
    dsimp only
    have h2 := (Kp.fix f.rtype u).calls
    match hfx : fix f.rtype u with
    | (.ok _, w') => rw [hfx] at h2; exact ⟨_, _, rfl, h2⟩
    | (.error (.throw _), w') => rw [hfx] at h2; exact ⟨_, _, rfl, h2⟩
    | (.error .ub, w') => rw [hfx] at h2; exact ⟨_, _, rfl, h2⟩
    | (.error .terminate, w') => rw [hfx] at h2; exact ⟨_, _, rfl, h2⟩
    | (.error .hang, w') => rw [hfx] at h2; exact ⟨_, _, rfl, h2⟩
  obtain ⟨r, u', hg, hcalls⟩ := hg
  rw [M.bind_err hg]
  exact ⟨hcalls.trans hk, fun a h => by cases h⟩

end Verif.Daedalus
