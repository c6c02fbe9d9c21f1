import Verif.Lemmas.DaedalusRoom

/-!
# Compiled code keeps to its frame
-/

namespace Verif.Daedalus

open Verif.Spec.Daedalus

/-- The locals that a function saves are symbols other than the temporary strings, also later. -/
theorem _root_.Verif.Spec.Daedalus.Compiled.localsSafe {h : Host} {v0 v : Vm} {H : BitVec 32 → Option Nat} (hc : Compiled h v0 H)
    (hs : Same v0 v) {y : Nat} {f f' : Sym} (hy : v0.syms[y]? = some f) (k2 : f'.shape = f.shape) (k3 : f'.count = f.count)
    (hl : f'.hasLocals = true) : ∀ l ∈ localsOf v f', l ≠ v.tmp ∧ ∃ s, v.syms[l]? = some s := by
  intro l hm
  refine ⟨fun he => ?_, _, List.getElem?_eq_getElem (localsOf_mem_lt hm)⟩
  rw [hs.localsOf k2 k3, he, hs.tmp] at hm
  exact hc.locals y f hy (by rw [← shape_hasLocals k2]; exact hl) hm

/-- Where execution continues and with how many values. -/
def Goes (H : BitVec 32 → Option Nat) (next : Option Nat) (v : Vm) (fs : List Frame) (st : Step) (u : Vm) : Prop :=
  ∃ rs, Stk u (fs ++ rs) ∧
    match st with
    | .next => u.pc = v.pc ∧ next = some rs.length
    | .stay => H u.pc = some rs.length
    | .ret => True

theorem goes_next {H : BitVec 32 → Option Nat} {next : Option Nat} {v u : Vm} {fs : List Frame} {st : Step} {m : Nat}
    {α} {p : M α} (hd : Does v p fs m) (hn : next = some m) (h : (do let _ ← p; return .next : M Step) v = (.ok st, u)) :
    Goes H next v fs st u := by
  obtain ⟨a, u', h1, h2⟩ := M.bind_inv h
  cases h2
  obtain ⟨hp, rs, hr, hs⟩ := hd a u h1
  exact ⟨rs, hs, hp, by rw [hn, hr]⟩

theorem goes_next' {H : BitVec 32 → Option Nat} {next : Option Nat} {v u : Vm} {fs : List Frame} {st : Step} {m : Nat}
    {p : M Step} (hd : Does v p fs m) (hn : next = some m) (hst : ∀ v st u, p v = (.ok st, u) → st = .next)
    (h : p v = (.ok st, u)) : Goes H next v fs st u := by
  cases hst v st u h
  obtain ⟨hp, rs, hr, hs⟩ := hd _ u h
  exact ⟨rs, hs, hp, by rw [hn, hr]⟩

/-- Operations that end with `break`. -/
def Nexts (p : M Step) : Prop := ∀ v st u, p v = (.ok st, u) → st = .next

theorem Nexts.bind {α} {p : M α} {f : α → M Step} (h : ∀ a, Nexts (f a)) : Nexts (p >>= f) := by
  intro v st u hx
  obtain ⟨a, w, _, h2⟩ := M.bind_inv hx
  exact h a w st u h2

theorem Nexts.pure : Nexts (Pure.pure .next : M Step) := by
  intro v st u h; cases h; rfl

theorem Does.bind {α β} {p : M α} {f : α → M β} {v : Vm} {fs : List Frame} {m : Nat}
    (h : ∀ a w, p v = (.ok a, w) → w.pc = v.pc ∧ Does w (f a) fs m) : Does v (p >>= f) fs m := by
  intro b w hx
  obtain ⟨a, u, h1, h2⟩ := M.bind_inv hx
  obtain ⟨hp, hd⟩ := h a u h1
  obtain ⟨hp', hr⟩ := hd b w h2
  exact ⟨hp'.trans hp, hr⟩

theorem symByIndex_inv {x : BitVec 32} {v w : Vm} {r : Nat × Sym} (h : symByIndex x v = (.ok r, w)) :
    w = v ∧ r.1 = x.toNat ∧ v.syms[x.toNat]? = some r.2 := by
  unfold symByIndex at h
  rw [M.get_bind] at h
  match hs : v.syms[x.toNat]?, h with
  | some s, h => cases h; exact ⟨rfl, rfl, rfl⟩
  | none, h => cases h

theorem Does.guarded {α} {v : Vm} {p : M α} {fs : List Frame} {m : Nat} (t : DType) (h : Does v p fs m) :
    Does v (guarded t p) fs m := by
  intro a w hx
  unfold Daedalus.guarded at hx
  split at hx
  · split at hx <;> cases hx
  · exact h a w hx

theorem Does.pushVar {h : Host} (ht : ∀ t y, h.trap = some t → Consumes (t y) 0 1) {v : Vm} {fs args : List Frame}
    (hs : Stk v (fs ++ args)) (y : Nat) (s : Sym) : Does v (pushVar h y s) fs (args.length + 1) := by
  have hp : Does v (pushRef y 0) fs (args.length + 1) := Does.of (Kp.pushRef _ _) (Eff.pushRef _ _ _) hs rfl
  unfold Daedalus.pushVar
  match htt : h.trap with
  | none => exact hp
  | some t =>
    dsimp only
    split
    · intro a w hx
      obtain ⟨hpc, rs, hr, hs'⟩ := ht t y htt v w (fs ++ args) [] (by cases a; exact hx) (by simpa using hs) rfl
      exact ⟨hpc, args ++ rs, by simp [hr], by rw [← List.append_assoc]; exact hs'⟩
    · exact hp

theorem Stk.split {v : Vm} {fs args : List Frame} (hs : Stk v (fs ++ args)) (k : Nat) :
    Stk v ((fs ++ args.take k) ++ args.drop k) := by
  rw [List.append_assoc, List.take_append_drop]; exact hs

theorem exec_goes {h : Host} {v0 : Vm} {H : BitVec 32 → Option Nat} {call : Nat → M Unit}
    (hc : Compiled h v0 H) (hcall : Calls v0 H call) (hb : Balanced h) {v u : Vm} (hsame : Same v0 v) {fs args : List Frame}
    (hs : Stk v (fs ++ args)) {i : Instr} (hf : Flow h v0 H v.pc args.length i) {st : Step}
    (hx : execOp h call i v = (.ok st, u)) : Goes H (H (v.pc + BitVec.ofNat 32 i.size)) v fs st u := by
  obtain ⟨op, a, y, m, x, sz⟩ := i
  simp only [Flow] at hf
  cases op
  case add | sub | mul | div | mod | or | andb | lt | gt | lsl | lsr | lte | eq | neq | gte | orr | and =>
    refine goes_next' (m := args.length - 1) (p := execBin _) ?_ hf.2 ?_ hx
    · have h2 : args.length - 1 = (args.length - 2) + 1 := by have := hf.1; omega
      rw [h2]
      exact Does.of (Kp.execBin _) (Eff.execBin _ (args.length - 2)) hs (by have := hf.1; omega)
    · exact Nexts.bind fun _ => Nexts.bind fun _ => Nexts.bind fun _ => Nexts.bind fun _ => Nexts.pure
  case plus | negate | not | cmpl =>
    refine goes_next' (m := args.length) (p := execUn _) ?_ hf.2 ?_ hx
    · have h2 : args.length = (args.length - 1) + 1 := by have := hf.1; omega
      rw [h2]
      exact Does.of (Kp.execUn _) (Eff.execUn _ (args.length - 1)) hs (by have := hf.1; omega)
    · exact Nexts.bind fun _ => Nexts.bind fun _ => Nexts.bind fun _ => Nexts.pure
  case nop => cases hx; exact ⟨args, hs, rfl, hf⟩
  case unknown b => cases hx; exact ⟨args, hs, rfl, hf⟩
  case rsr => cases hx; exact ⟨args, hs, trivial⟩
  case movss => cases hx
  case pushi => exact goes_next (Does.of (Kp.push _) (Eff.push _ args.length) hs rfl) hf hx
  case pushvv =>
    refine goes_next' (m := args.length + 1) (p := do let (y, _) ← symByIndex _; pushRef y _; return .next) ?_ hf ?_ hx
    · exact Does.of ((Kp.symByIndex _).bind fun _ => (Kp.pushRef _ _).bind fun _ => Kp.pure _)
        ((Quiet.eff (Quiet.ofReadOnly (fun v => by
          unfold symByIndex; simp only [M.get_bind]; cases v.syms[y.toNat]? <;> rfl)) _).bind fun _ =>
          (Eff.pushRef _ _ args.length).bind fun _ => (Quiet.pure _).eff _) hs rfl
    · exact Nexts.bind fun _ => Nexts.bind fun _ => Nexts.pure
  case pushv | pushvi =>
    obtain ⟨r, v', h1, h2⟩ := M.bind_inv hx
    obtain ⟨hv, _, _⟩ := symByIndex_inv h1
    subst v'
    exact goes_next (Does.pushVar hf.2 hs _ _) hf.1 h2
  case gmovi =>
    obtain ⟨r, v', h1, h2⟩ := M.bind_inv hx
    obtain ⟨hv, _, _⟩ := symByIndex_inv h1
    subst v'
    obtain ⟨q, v', h3, h4⟩ := M.bind_inv h2
    have hq := ReadOnly.symGetInstance r.1 v
    rw [h3] at hq
    cases hq
    rw [M.get_bind] at h4
    cases h4
    exact ⟨args, hs.congr rfl rfl, rfl, hf⟩
  case b =>
    obtain ⟨_, v', h1, h2⟩ := M.bind_inv hx
    cases h2
    unfold jump at h1
    rw [M.get_bind] at h1
    split at h1
    · cases h1
    · cases h1; exact ⟨args, hs.congr rfl rfl, hf⟩
  case bz =>
    obtain ⟨z, v', h1, h2⟩ := M.bind_inv hx
    have hd := Does.of Kp.popInt (Eff.popInt (args.length - 1)) hs (by have := hf.1; omega)
    obtain ⟨hpc, rs, hr, hs'⟩ := hd _ _ h1
    split at h2
    · obtain ⟨_, v'', h3, h4⟩ := M.bind_inv h2
      cases h4
      unfold jump at h3
      rw [M.get_bind] at h3
      split at h3
      · cases h3
      · cases h3; exact ⟨rs, hs'.congr rfl rfl, by show H a = _; rw [hf.2.2, hr]⟩
    · cases h2
      exact ⟨rs, hs', hpc, by rw [hf.2.1, hr]⟩
  case movi | movvf =>
    refine goes_next' (m := args.length - 2) (p := do
      let (y, k, p) ← popRef
      let x ← popInt
      vmSetInt y x k p
      return .next) ?_ hf.2 ?_ hx
    · exact Does.of (Kp.popRef.bind fun _ => Kp.popInt.bind fun _ => (Kp.vmSetInt _ _ _ _).bind fun _ => Kp.pure _)
        ((Eff.popRef (args.length - 2 + 1)).bind fun _ => (Eff.popInt (args.length - 2)).bind fun _ =>
          ((Quiet.vmSetInt _ _ _ _).eff _).bind fun _ => (Quiet.pure _).eff _) hs (by have := hf.1; omega)
    · exact Nexts.bind fun _ => Nexts.bind fun _ => Nexts.bind fun _ => Nexts.pure
  case movf =>
    refine goes_next' (m := args.length - 2) (p := do
      let (y, k, p) ← popRef
      let x ← popFloat
      vmSetFloat y x k p
      return .next) ?_ hf.2 ?_ hx
    · exact Does.of (Kp.popRef.bind fun _ => Kp.popFloat.bind fun _ => (Kp.vmSetFloat _ _ _ _).bind fun _ => Kp.pure _)
        ((Eff.popRef (args.length - 2 + 1)).bind fun _ => (Eff.popFloat (args.length - 2)).bind fun _ =>
          ((Quiet.vmSetFloat _ _ _ _).eff _).bind fun _ => (Quiet.pure _).eff _) hs (by have := hf.1; omega)
    · exact Nexts.bind fun _ => Nexts.bind fun _ => Nexts.bind fun _ => Nexts.pure
  case movs =>
    refine goes_next' (m := args.length - 2) (p := do
      let (y, k, p) ← popRef
      let x ← popString
      vmSetString y x k p
      return .next) ?_ hf.2 ?_ hx
    · exact Does.of (Kp.popRef.bind fun _ => Kp.popString.bind fun _ => (Kp.vmSetString _ _ _ _).bind fun _ => Kp.pure _)
        ((Eff.popRef (args.length - 2 + 1)).bind fun _ => (Eff.popString (args.length - 2)).bind fun _ =>
          ((Quiet.vmSetString _ _ _ _).eff _).bind fun _ => (Quiet.pure _).eff _) hs (by have := hf.1; omega)
    · exact Nexts.bind fun _ => Nexts.bind fun _ => Nexts.bind fun _ => Nexts.pure
  case movvi =>
    refine goes_next' (m := args.length - 2) (p := do
      let (y, _, _) ← popRef
      let q ← popInst
      symSetInstance y q
      return .next) ?_ hf.2 ?_ hx
    · exact Does.of (Kp.popRef.bind fun _ => Kp.popInst.bind fun _ => (Kp.symSetInstance _ _).bind fun _ => Kp.pure _)
        ((Eff.popRef (args.length - 2 + 1)).bind fun _ => (Eff.popInst (args.length - 2)).bind fun _ =>
          ((Quiet.symSetInstance _ _).eff _).bind fun _ => (Quiet.pure _).eff _) hs (by have := hf.1; omega)
    · exact Nexts.bind fun _ => Nexts.bind fun _ => Nexts.bind fun _ => Nexts.pure
  case addmovi | submovi | mulmovi | divmovi =>
    exact goes_next (Does.of (Kp.assignOp _) (Eff.assignOp _ (args.length - 2)) hs (by have := hf.1; omega)) hf.2 hx
  case bl =>
    obtain ⟨z, f, h1, h2, h3, h4, h5⟩ := hf
    have hzt : z ≠ v0.tmp := by
      intro he
      obtain ⟨s, k1, k2⟩ := lastIndex_some h1
      rw [he] at k1
      have := hc.tmp s k1
      simp [hasCode, this] at k2
    have hx : execBl h call a v = (.ok st, u) := hx
    unfold execBl at hx
    rw [M.get_bind, hsame.findByAddress, h1] at hx
    have hsp := hs.split (args.length - f.count.toNat)
    have hdl : (args.drop (args.length - f.count.toNat)).length = f.count.toNat := by rw [List.length_drop]; omega
    have join : ∀ {w}, (w.pc = v.pc ∧ ∃ rs, rs.length = results f ∧
        Stk w (fs ++ args.take (args.length - f.count.toNat) ++ rs)) →
        w.pc = v.pc ∧ ∃ rs, rs.length = args.length - f.count.toNat + results f ∧ Stk w (fs ++ rs) := by
      rintro w ⟨k1, rs, k2, k3⟩
      refine ⟨k1, args.take (args.length - f.count.toNat) ++ rs, ?_, by rw [← List.append_assoc]; exact k3⟩
      rw [List.length_append, List.length_take, k2]
      omega
    match ho : h.override_ a with
    | some cb =>
      rw [ho] at h5 hx
      dsimp only at h5 hx
      obtain ⟨s, v', e1, e2⟩ := M.bind_inv hx
      obtain ⟨_, hv⟩ := symAt_inv e1
      subst v'
      refine goes_next (p := guarded s.rtype cb) (Does.guarded _ ?_) h4 e2
      intro b w hw
      exact join (h5 v w _ _ (by cases b; exact hw) hsp hdl)
    | none =>
      rw [ho] at h5 hx
      dsimp only at h5 hx
      refine goes_next (p := call z) ?_ h4 hx
      intro b w hw
      have := hcall z f v w h2 hzt h5 hsame (by cases b; exact hw)
      exact join ⟨this.1.pc, this.2 _ _ hsp hdl⟩
  case be =>
    obtain ⟨f, h2, h3, h4, hty, hv, h5⟩ := hf
    have hzt : y.toNat ≠ v0.tmp := by
      intro he
      rw [he] at h2
      have := hc.tmp f h2
      rw [hty] at this
      cases this
    have hx : execBe h y v = (.ok st, u) := hx
    obtain ⟨r, v', e1, e2⟩ := M.bind_inv hx
    obtain ⟨hv', hr1, hr2⟩ := symByIndex_inv e1
    subst v'
    obtain ⟨z, s⟩ := r
    simp only at hr1 hr2 e2
    subst z
    obtain ⟨f', k1, k2, k3⟩ := hsame.decl _ f h2
    have k3 := extent_count (k3 hzt)
    have hfl := shape_flags k2
    have hrt := shape_rtype k2
    have hres : results f' = results f := by unfold results Sym.hasReturn; rw [hfl]
    have hsp := hs.split (args.length - f.count.toNat)
    have hdl : (args.drop (args.length - f.count.toNat)).length = f.count.toNat := by rw [List.length_drop]; omega
    have join : ∀ {w}, (w.pc = v.pc ∧ ∃ rs, rs.length = results f ∧
        Stk w (fs ++ args.take (args.length - f.count.toNat) ++ rs)) →
        w.pc = v.pc ∧ ∃ rs, rs.length = args.length - f.count.toNat + results f ∧ Stk w (fs ++ rs) := by
      rintro w ⟨k1, rs, k2, k3⟩
      refine ⟨k1, args.take (args.length - f.count.toNat) ++ rs, ?_, by rw [← List.append_assoc]; exact k3⟩
      rw [List.length_append, List.length_take, k2]
      omega
    refine goes_next (Does.guarded _ ?_) h4 e2
    match he : h.external y.toNat with
    | some cb =>
      rw [he] at h5
      dsimp only at h5
      intro b w hw
      have hret := Ret.ofReturns (hb.external _ cb he)
      have hk := call_keeps (y := y.toNat) hret (by cases b; exact hw)
      refine join ⟨hk.pc, ?_⟩
      have hef := call_effect_locals (y := y.toNat) (mid := cb) k1 (by rw [hsame.tmp]; exact hzt)
        (hc.localsSafe hsame h2 k2 k3)
        (by unfold Sym.hasReturn at *; rw [hfl, hrt]; exact hv) hret
        (fun u u' fs args h1 _ _ h2 h3 => h5 u u' fs args h1 h2 (by rw [h3, k3])) (by cases b; exact hw) hsp
        (by rw [hdl, k3])
      rw [hres] at hef
      exact hef
    | none =>
      rw [he] at h5
      dsimp only at h5 ⊢
      match hd : h.default_ with
      | some d =>
        dsimp only
        intro b w hw
        exact join (h5 d hd v w _ _ (by cases b; exact hw) hsp hdl)
      | none =>
        intro b w hw
        cases hw

theorem exec_flow {h : Host} {v0 : Vm} {H : BitVec 32 → Option Nat} {call : Nat → M Unit}
    (hc : Compiled h v0 H) (hcall : Calls v0 H call) (hret : ∀ y, Ret (call y)) (hb : Balanced h) {v w : Vm} (hsame : Same v0 v)
    {fs args : List Frame} (hs : Stk v (fs ++ args)) (hH : H v.pc = some args.length) {b : Bool}
    (hx : exec h call v = (.ok b, w)) :
    Same v0 w ∧ ∃ rs, Stk w (fs ++ rs) ∧ (b = true → H w.pc = some rs.length) := by
  refine ⟨hsame.trans (Ret.exec hb hret v b w hx).1, ?_⟩
  obtain ⟨hlt, hflow⟩ := hc.code _ _ hH
  have hde : ∃ i t, decode ⟨v0.text, v.pc.toNat⟩ = .ok (i, t) := by
    obtain ⟨i, hd, _, _⟩ := decode_at v0.text v.pc.toNat hlt
    exact ⟨i, _, hd⟩
  obtain ⟨i, t, hd⟩ := hde
  have hfl := hflow i _ hd
  have hfetch : ∃ pos, fetch v = (.ok i, { v with textPos := pos }) := by
    rw [← hsame.text] at hlt hd
    refine ⟨t.pos, ?_⟩
    unfold fetch instructionAt
    rw [Rd.bind_ok (Rd.seek_beg (Nat.le_of_lt hlt)), hd]
  obtain ⟨pos, hfetch⟩ := hfetch
  unfold exec at hx
  rw [M.bind_ok hfetch] at hx
  have hsame' : Same v0 { v with textPos := pos } :=
    ⟨hsame.text, hsame.tmp, hsame.nullOk, hsame.ignoreConst, hsame.len, hsame.decl⟩
  have goes := fun st u => exec_goes (st := st) (u := u) hc hcall hb hsame' (hs.textPos pos) (i := i) hfl
  unfold execInstr at hx
  match he : Daedalus.execOp h call i { v with textPos := pos }, hx with
  | (.ok .next, u), hx =>
    obtain ⟨rs, k1, k2, k3⟩ := goes _ _ he
    cases hx
    refine ⟨rs, k1.congr rfl rfl, fun _ => ?_⟩
    show H (u.pc + BitVec.ofNat 32 i.size) = _
    rw [k2]
    exact k3
  | (.ok .stay, u), hx =>
    obtain ⟨rs, k1, k2⟩ := goes _ _ he
    cases hx
    exact ⟨rs, k1, fun _ => k2⟩
  | (.ok .ret, u), hx =>
    obtain ⟨rs, k1, _⟩ := goes _ _ he
    cases hx
    exact ⟨rs, k1, fun h => by cases h⟩
  | (.error (.throw e), u), hx =>
    dsimp only at hx
    split at hx
    · unfold execCatch at hx
      rw [M.get_bind, hb.handler] at hx
      cases hx
    · cases hx
  | (.error .ub, u), hx => cases hx
  | (.error .terminate, u), hx => cases hx
  | (.error .hang, u), hx => cases hx

theorem loop_flow {h : Host} {v0 : Vm} {H : BitVec 32 → Option Nat} {call : Nat → M Unit}
    (hc : Compiled h v0 H) (hcall : Calls v0 H call) (hret : ∀ y, Ret (call y)) (hb : Balanced h) (n : Nat) {v w : Vm}
    (hsame : Same v0 v) {fs args : List Frame} (hs : Stk v (fs ++ args)) (hH : H v.pc = some args.length)
    (hx : loop (exec h call) n v = (.ok (), w)) : ∃ rs, Stk w (fs ++ rs) := by
  induction n generalizing v args with
  | zero => cases hx
  | succ n ih =>
    obtain ⟨b, u, h1, h2⟩ := M.bind_inv hx
    obtain ⟨hs1, rs, hs2, hb2⟩ := exec_flow hc hcall hret hb hsame hs hH h1
    cases b with
    | true => exact ih hs1 hs2 (hb2 rfl) h2
    | false => cases h2; exact ⟨rs, hs2⟩

/-- A call of a function of compiled code that returns leaves exactly its results in the place of its arguments. -/
theorem unsafeCall_flow {h : Host} {v0 : Vm} {H : BitVec 32 → Option Nat} (hc : Compiled h v0 H) (hb : Balanced h)
    (fuel : Nat) : Calls v0 H (unsafeCall h fuel) := by
  induction fuel with
  | zero => intro y f v w _ _ _ _ hx; cases hx
  | succ n ih =>
    intro y f v w hy hyt hcl hsame hx
    refine ⟨unsafeCall_keeps hb _ _ hx, ?_⟩
    intro fs args hs ha
    have hret : ∀ z, Ret (unsafeCall h n z) := fun z v a w hz => by
      have := unsafeCall_keeps hb n z (by cases a; exact hz)
      exact ⟨this.toSame, this.calls⟩
    obtain ⟨f', k1, k2, k3⟩ := hsame.decl y f hy
    have k3 := extent_count (k3 hyt)
    have hfl := shape_flags k2
    have hres : results f' = results f := by unfold results Sym.hasReturn; rw [hfl]
    have hmid : Ret (do let f ← symAt y; jump f.address; loop (exec h (unsafeCall h n)) n) :=
      (Kp.symAt y).ret.bind fun f => (Ret.jump _).bind fun _ => Ret.loop (Ret.exec hb hret) n
    rw [← hres]
    refine call_effect_locals (y := y) (mid := do let f ← symAt y; jump f.address; loop (exec h (unsafeCall h n)) n) k1
      (by rw [hsame.tmp]; exact hyt) (hc.localsSafe hsame hy k2 k3)
      (by have := hcl.value; unfold Sym.hasReturn at *; rw [hfl, shape_rtype k2]; exact this) hmid ?_ (unsafeCall_eq hx) hs
      (by rw [ha, k3])
    intro u u' gs as hm hu _ hs' ha'
    obtain ⟨g, u1, e1, e2⟩ := M.bind_inv hm
    obtain ⟨e0, hu1⟩ := symAt_inv e1
    subst u1
    obtain ⟨_, u2, e3, e4⟩ := M.bind_inv e2
    have hsu := hsame.trans hu
    obtain ⟨g', m1, m2, _⟩ := hsu.decl y f hy
    rw [e0] at m1
    obtain rfl := Option.some.inj m1
    unfold jump at e3
    rw [M.get_bind] at e3
    split at e3
    · cases e3
    · cases e3
      refine loop_flow hc ih hret hb n (v := { u with pc := g.address })
        ⟨hsu.text, hsu.tmp, hsu.nullOk, hsu.ignoreConst, hsu.len, hsu.decl⟩ (hs'.congr rfl rfl) ?_ e4
      show H g.address = _
      rw [shape_address m2, hcl.entry, ha', k3]

end Verif.Daedalus
