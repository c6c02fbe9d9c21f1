import Verif.Lemmas.DaedalusKeep
import Verif.Lemmas.DaedalusExec

/-!
# Calls return
-/

namespace Verif.Daedalus

open Verif.Spec.Daedalus

/-- Operations that, when they end well, leave the code and the call stack alone. -/
def Ret {α} (p : M α) : Prop := ∀ v a w, p v = (.ok a, w) → Same v w ∧ w.calls = v.calls

theorem Kp.ret {α} {p : M α} (h : Kp p) : Ret p := by
  intro v a w hp
  have := h v
  unfold KpAt at this
  rw [hp] at this
  exact ⟨this.toSame, this.calls⟩

theorem Ret.bind {α β} {p : M α} {f : α → M β} (hp : Ret p) (hf : ∀ a, Ret (f a)) : Ret (p >>= f) := by
  intro v b w h
  obtain ⟨a, u, h1, h2⟩ := M.bind_inv h
  have k1 := hp v a u h1
  have k2 := hf a u b w h2
  exact ⟨k1.1.trans k2.1, k2.2.trans k1.2⟩

theorem Ret.guarded {α} {p : M α} (t : DType) (hp : Ret p) : Ret (guarded t p) := by
  intro v a w h
  unfold Daedalus.guarded at h
  split at h
  · split at h <;> cases h
  · exact hp v a w h

theorem Ret.jump (a : BitVec 32) : Ret (jump a) := by
  intro v b w h
  unfold Daedalus.jump at h
  rw [M.get_bind] at h
  split at h
  · cases h
  · cases h; exact ⟨⟨rfl, rfl, rfl, rfl, rfl, fun _ s h => ⟨s, h, rfl, fun _ => rfl⟩⟩, rfl⟩

theorem Ret.advance (i : Instr) : Ret (advance i) := by
  intro v b w h
  cases h
  exact ⟨⟨rfl, rfl, rfl, rfl, rfl, fun _ s h => ⟨s, h, rfl, fun _ => rfl⟩⟩, rfl⟩

theorem Ret.fetch : Ret fetch := by
  intro v b w h
  unfold Daedalus.fetch at h
  split at h
  · cases h; exact ⟨⟨rfl, rfl, rfl, rfl, rfl, fun _ s h => ⟨s, h, rfl, fun _ => rfl⟩⟩, rfl⟩
  · cases h

theorem Kp.symByIndex (x : BitVec 32) : Kp (symByIndex x) := Kp.get.bind fun v => by
  cases v.syms[x.toNat]? with
  | some s => exact Kp.pure _
  | none => exact Kp.throw _

/-! ## Entering and leaving a function -/

/-- `push_call`, when it ends well. -/
theorem pushCall_inv {y : Nat} {v w : Vm} (h : pushCall y v = (.ok (), w)) :
    ∃ f u, v.syms[y]? = some f ∧ Keeps v u ∧ (f.hasLocals = false → u = v) ∧
      w = { u with calls := ⟨y, v.pc, u.sp.setWidth 32 - f.count, v.instance_⟩ :: v.calls } := by
  unfold pushCall at h
  obtain ⟨f, u, h1, h⟩ := M.bind_inv h
  obtain ⟨hf, hu⟩ := symAt_inv h1
  subst u
  dsimp only at h
  have key : ∀ u, Keeps v u → (do
      let ps ← params f
      let v ← M.get
      M.set { v with calls := ⟨y, v.pc, v.sp.setWidth 32 - BitVec.ofNat 32 ps.length, v.instance_⟩ :: v.calls } : M Unit) u =
        (.ok (), w) → w = { u with calls := ⟨y, v.pc, u.sp.setWidth 32 - f.count, v.instance_⟩ :: v.calls } := by
    intro u hk h
    obtain ⟨ps, u', h2, h⟩ := M.bind_inv h
    unfold params at h2
    rw [M.get_bind] at h2
    split at h2
    · cases h2
    · cases h2
      rw [M.get_bind, M.set_def] at h
      simp only [Prod.mk.injEq, true_and] at h
      subst h
      rw [hk.pc, hk.instance_, hk.calls]
      simp
  by_cases hl : f.hasLocals = true
  · rw [if_pos hl] at h
    obtain ⟨_, u, h2, h3⟩ := M.bind_inv h
    have hk := Kp.pushLocals y v
    unfold KpAt at hk
    rw [h2] at hk
    exact ⟨f, u, hf, hk, by simp [hl], key u hk h3⟩
  · rw [if_neg hl] at h
    exact ⟨f, v, hf, Keeps.refl v, fun _ => rfl, key v (Keeps.refl v) h⟩

/-- `pop_call`, when it ends well. -/
theorem popCall_inv {v w : Vm} (h : popCall v = (.ok (), w)) :
    ∃ c rest f u u', v.calls = c :: rest ∧ v.syms[c.fn]? = some f ∧ fixStack c f v = (.ok (), u) ∧
      (if f.hasLocals then popLocals c.fn u else (.ok (), u)) = (.ok (), u') ∧ Keeps v u' ∧
      w = { u' with pc := c.pc, instance_ := c.ctx, calls := rest } := by
  unfold popCall at h
  rw [M.get_bind] at h
  match hc : v.calls, h with
  | [], h => cases h
  | c :: rest, h =>
    obtain ⟨f, u0, h0, h⟩ := M.bind_inv h
    obtain ⟨hf, hu⟩ := symAt_inv h0
    subst u0
    obtain ⟨_, u, h1, h⟩ := M.bind_inv h
    dsimp only at h
    have hk := Kp.fixStack c f v
    unfold KpAt at hk
    rw [h1] at hk
    have key : ∀ u', Keeps u u' → (do
        let v ← M.get
        M.set { v with pc := c.pc, instance_ := c.ctx, calls := v.calls.tail } : M Unit) u' = (.ok (), w) →
        w = { u' with pc := c.pc, instance_ := c.ctx, calls := rest } := by
      intro u' hk' h
      rw [M.get_bind, M.set_def] at h
      simp only [Prod.mk.injEq, true_and] at h
      subst h
      rw [hk'.calls, hk.calls, hc]
      rfl
    by_cases hl : f.hasLocals = true
    · rw [if_pos hl] at h
      obtain ⟨_, u', h2, h3⟩ := M.bind_inv h
      have hk' := Kp.popLocals c.fn u
      unfold KpAt at hk'
      rw [h2] at hk'
      exact ⟨c, rest, f, u, u', rfl, hf, h1, by rw [if_pos hl]; exact h2, hk.trans hk', key u' hk' h3⟩
    · rw [if_neg hl] at h
      exact ⟨c, rest, f, u, u, rfl, hf, h1, by rw [if_neg hl], hk, key u (Keeps.refl u) h⟩

/-- A call whose middle part leaves the call stack alone restores the frame of the caller. -/
theorem call_keeps {y : Nat} {mid : M Unit} (hm : Ret mid) {v w : Vm}
    (h : (do pushCall y; mid; popCall : M Unit) v = (.ok (), w)) : Keeps v w := by
  obtain ⟨_, u1, h1, h⟩ := M.bind_inv h
  obtain ⟨_, u2, h2, h3⟩ := M.bind_inv h
  obtain ⟨f, u, hf, hk, _, rfl⟩ := pushCall_inv h1
  have hm := hm _ _ _ h2
  obtain ⟨c, rest, f', u3, u4, hc, hf', _, _, hk', rfl⟩ := popCall_inv h3
  rw [hm.2] at hc
  simp only [List.cons.injEq] at hc
  obtain ⟨rfl, rfl⟩ := hc
  have hs : Same v u2 := hk.toSame.trans
    (Same.trans (b := { u with calls := ⟨y, v.pc, u.sp.setWidth 32 - f.count, v.instance_⟩ :: v.calls }) ⟨rfl, rfl, rfl, rfl, rfl, fun _ s h => ⟨s, h, rfl, fun _ => rfl⟩⟩ hm.1)
  have hs := hs.trans hk'.toSame
  exact ⟨⟨hs.text, hs.tmp, hs.nullOk, hs.ignoreConst, hs.len, hs.decl⟩, rfl, rfl, rfl⟩

theorem Ret.call {y : Nat} {mid : M Unit} (hm : Ret mid) : Ret (do pushCall y; mid; popCall : M Unit) := by
  intro v a w h
  have := call_keeps hm h
  exact ⟨this.toSame, this.calls⟩

theorem Ret.ofReturns {p : M Unit} (h : Returns p) : Ret p := fun v a w hp => h v w (by cases a; exact hp)

theorem Ret.pushVar {h : Host} (hb : Balanced h) (y : Nat) (s : Sym) : Ret (pushVar h y s) := by
  unfold Daedalus.pushVar
  match ht : h.trap with
  | some t =>
    dsimp only
    split
    · exact Ret.ofReturns (hb.trap t y ht)
    · exact (Kp.pushRef _ _).ret
  | none => exact (Kp.pushRef _ _).ret

theorem Ret.execBl {h : Host} (hb : Balanced h) {call : Nat → M Unit} (hc : ∀ y, Ret (call y)) (a : BitVec 32) :
    Ret (execBl h call a) := by
  refine Kp.get.ret.bind fun v => ?_
  match ho : h.override_ a with
  | some cb =>
    dsimp only
    cases findByAddress v.syms a with
    | none => exact Kp.ub.ret
    | some y =>
      exact (Kp.symAt y).ret.bind fun s => (Ret.guarded _ (Ret.ofReturns (hb.override_ a cb ho))).bind fun _ => (Kp.pure _).ret
  | none =>
    dsimp only
    cases findByAddress v.syms a with
    | none => exact (Kp.throw _).ret
    | some y => exact (hc y).bind fun _ => (Kp.pure _).ret

theorem Ret.execBe {h : Host} (hb : Balanced h) (x : BitVec 32) : Ret (execBe h x) := by
  refine (Kp.symByIndex x).ret.bind fun p => (Ret.guarded _ ?_).bind fun _ => (Kp.pure _).ret
  match he : h.external p.1 with
  | some cb => exact Ret.call (Ret.ofReturns (hb.external _ cb he))
  | none =>
    dsimp only
    match hd : h.default_ with
    | some d => exact Ret.ofReturns (hb.default_ d _ hd)
    | none => exact (Kp.throw _).ret

theorem Ret.execOp {h : Host} (hb : Balanced h) {call : Nat → M Unit} (hc : ∀ y, Ret (call y)) (i : Instr) :
    Ret (execOp h call i) := by
  obtain ⟨op, a, y, m, x, sz⟩ := i
  cases op
  case bl => exact Ret.execBl hb hc _
  case be => exact Ret.execBe hb _
  case b => exact (Ret.jump _).bind fun _ => (Kp.pure _).ret
  case bz =>
    refine Kp.popInt.ret.bind fun z => ?_
    split
    · exact (Ret.jump _).bind fun _ => (Kp.pure _).ret
    · exact (Kp.pure _).ret
  case gmovi =>
    refine (Kp.symByIndex _).ret.bind fun p => (Kp.ofReadOnly (ReadOnly.symGetInstance _)).ret.bind fun q => ?_
    intro v b w h
    rw [M.get_bind] at h
    cases h
    exact ⟨⟨rfl, rfl, rfl, rfl, rfl, fun _ s h => ⟨s, h, rfl, fun _ => rfl⟩⟩, rfl⟩
  case pushv => exact (Kp.symByIndex _).ret.bind fun p => (Ret.pushVar hb _ _).bind fun _ => (Kp.pure _).ret
  case pushvi => exact (Kp.symByIndex _).ret.bind fun p => (Ret.pushVar hb _ _).bind fun _ => (Kp.pure _).ret
  all_goals
    exact Kp.ret (Kp.execOp h call ⟨_, a, y, m, x, sz⟩ (by simp) (by simp))

theorem Ret.exec {h : Host} (hb : Balanced h) {call : Nat → M Unit} (hc : ∀ y, Ret (call y)) : Ret (exec h call) := by
  refine Ret.fetch.bind fun i => ?_
  intro v b w hx
  have ho := Ret.execOp hb hc i v
  unfold execInstr at hx
  match he : Daedalus.execOp h call i v, hx with
  | (.ok .next, u), hx =>
    have h1 := ho _ _ he
    have h2 := ((Ret.advance i).bind fun _ => (Kp.pure true).ret) u b w hx
    exact ⟨h1.1.trans h2.1, h2.2.trans h1.2⟩
  | (.ok .stay, u), hx => cases hx; exact ho _ _ he
  | (.ok .ret, u), hx => cases hx; exact ho _ _ he
  | (.error (.throw e), u), hx =>
    dsimp only at hx
    split at hx
    · unfold execCatch at hx
      rw [M.get_bind, hb.handler] at hx
      cases hx
    · cases hx
  | (.error .ub, u), hx => cases hx
  | (.error .terminate, u), hx => cases hx
  | (.error .hang, u), hx => cases hx

theorem Ret.loop {step : M Bool} (hs : Ret step) (n : Nat) : Ret (loop step n) := by
  induction n with
  | zero => exact (Kp.fail _).ret
  | succ n ih =>
    refine hs.bind fun b => ?_
    split
    · exact ih
    · exact (Kp.pure _).ret

/-- `unsafe_call` in three parts. -/
theorem unsafeCall_eq {h : Host} {n y : Nat} {v w : Vm} (hc : unsafeCall h (n + 1) y v = (.ok (), w)) :
    (do pushCall y; (do let f ← symAt y; jump f.address; loop (exec h (unsafeCall h n)) n : M Unit); popCall : M Unit) v =
      (.ok (), w) := by
  rw [← hc]
  show _ = (do pushCall y; let f ← symAt y; jump f.address; loop (exec h (unsafeCall h n)) n; popCall : M Unit) v
  rw [M.bind_def, M.bind_def]
  match pushCall y v with
  | (.error e, u) => rfl
  | (.ok _, u) =>
    simp only [M.bind_def]
    match symAt y u with
    | (.error e, u) => rfl
    | (.ok f, u) =>
      simp only
      match jump f.address u with
      | (.error e, u) => rfl
      | (.ok _, u) => rfl

/-- A call of a script function that returns restores the frame of the caller. -/
theorem unsafeCall_keeps {h : Host} (hb : Balanced h) (fuel : Nat) (y : Nat) {v w : Vm}
    (hc : unsafeCall h fuel y v = (.ok (), w)) : Keeps v w := by
  induction fuel generalizing y v w with
  | zero => cases hc
  | succ n ih =>
    have hr : ∀ z, Ret (unsafeCall h n z) := fun z v a w hz => by
      have := ih z (by cases a; exact hz)
      exact ⟨this.toSame, this.calls⟩
    exact call_keeps ((Kp.symAt y).ret.bind fun f => (Ret.jump _).bind fun _ => Ret.loop (Ret.exec hb hr) n)
      (unsafeCall_eq hc)

end Verif.Daedalus
