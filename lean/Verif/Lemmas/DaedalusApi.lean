import Verif.Lemmas.DaedalusFlow
import Verif.Lemmas.DaedalusString
import Verif.Spec.DaedalusApi

/-!
# Lemmas for the interface of the machine
-/

namespace Verif.Daedalus

open Verif.Spec.Daedalus

/-! ## Functions and classes -/

theorem getInt_var {s : Sym} {x : BitVec 32} {rest : List (Option (BitVec 32))} (ht : s.type = .function)
    (hm : s.isMember = false) (hc : s.count ≠ 0) (hv : s.value = .ints (some (some x :: rest))) : s.getInt 0 none = .ok x := by
  unfold Sym.getInt
  have : ¬ s.count.toNat ≤ 0 := by
    intro h
    exact hc (BitVec.eq_of_toNat_eq (by simpa using h))
  rw [if_neg (by rw [ht]; simp), if_neg this, if_neg (by rw [hm]; simp), hv]
  rfl

theorem resolve_var {v : Vm} {id x : BitVec 32} {s : Sym} (n : Nat) (hs : v.syms[id.toNat]? = some s) (ht : s.type = .function)
    (hc : s.isConst = false) (hg : s.getInt 0 none = .ok x) : resolve (n + 1) id v = resolve n x v := by
  show (M.get >>= _) v = _
  rw [M.get_bind]
  rw [hs]
  dsimp only
  rw [if_pos ⟨ht, by rw [hc]; simp⟩]
  have : symGetInt id.toNat 0 none v = (.ok x, v) := by
    unfold symGetInt
    rw [M.bind_ok (symAt_some hs), M.get_bind]
    show M.lift (s.getInt 0 none) v = _
    rw [hg]
    rfl
  rw [M.bind_ok this]

theorem resolve_ok {v : Vm} (hf : FunctionsSet v.syms) {id : BitVec 32} {r : Option Nat} (h : Denotes v.syms id r) :
    ∃ N, ∀ fuel, N ≤ fuel → resolve fuel id v = (.ok r, v) := by
  induction h with
  | @missing id h =>
    refine ⟨1, fun fuel hl => ?_⟩
    obtain ⟨n, rfl⟩ : ∃ n, fuel = n + 1 := ⟨fuel - 1, by omega⟩
    show (M.get >>= _) v = _
    rw [M.get_bind]
    rw [h]
    rfl
  | @other id s h ht =>
    refine ⟨1, fun fuel hl => ?_⟩
    obtain ⟨n, rfl⟩ : ∃ n, fuel = n + 1 := ⟨fuel - 1, by omega⟩
    show (M.get >>= _) v = _
    rw [M.get_bind]
    rw [h]
    dsimp only
    rw [if_neg (fun h => ht h.1), if_pos ht]
    rfl
  | @const id s h ht hc =>
    refine ⟨1, fun fuel hl => ?_⟩
    obtain ⟨n, rfl⟩ : ∃ n, fuel = n + 1 := ⟨fuel - 1, by omega⟩
    show (M.get >>= _) v = _
    rw [M.get_bind]
    rw [h]
    dsimp only
    rw [if_neg (fun h => h.2 hc), if_neg (by rw [ht]; simp)]
    rfl
  | @var id s x rest r h ht hc hv _ ih =>
    obtain ⟨N, ih⟩ := ih
    refine ⟨N + 1, fun fuel hl => ?_⟩
    obtain ⟨n, rfl⟩ : ∃ n, fuel = n + 1 := ⟨fuel - 1, by omega⟩
    obtain ⟨hm, hn, -⟩ := hf s (List.mem_of_getElem? h) ht hc
    rw [resolve_var n h ht hc (getInt_var ht hm hn hv)]
    exact ih n (by omega)

theorem resolve_hang {v : Vm} (hf : FunctionsSet v.syms) (fuel : Nat) : ∀ id : BitVec 32, (∀ r, ¬ Denotes v.syms id r) →
    resolve fuel id v = (.error .hang, v) := by
  induction fuel with
  | zero => intro id _; rfl
  | succ n ih =>
    intro id h
    cases hs : v.syms[id.toNat]? with
    | none => exact absurd (.missing hs) (h none)
    | some s =>
      by_cases ht : s.type = .function
      · cases hc : s.isConst with
        | true => exact absurd (.const hs ht hc) (h _)
        | false =>
          obtain ⟨hm, hn, x, rest, hv⟩ := hf s (List.mem_of_getElem? hs) ht hc
          rw [resolve_var n hs ht hc (getInt_var ht hm hn hv)]
          exact ih x fun r hr => h r (.var hs ht hc hv hr)
      · exact absurd (.other hs ht) (h none)

theorem classLoop_ok {syms : List Sym} {i c : Nat} (h : ClassOf syms i c) :
    ∃ N k, syms[c]? = some k ∧ k.type = .class_ ∧ ∀ fuel, N ≤ fuel → classLoop syms fuel syms[i]? = .ok k := by
  induction h with
  | @here i s h ht =>
    refine ⟨1, s, h, ht, fun fuel hl => ?_⟩
    obtain ⟨n, rfl⟩ : ∃ n, fuel = n + 1 := ⟨fuel - 1, by omega⟩
    rw [h, classLoop, if_pos ht]
  | @up i s c h ht _ ih =>
    obtain ⟨N, k, h1, h2, h3⟩ := ih
    refine ⟨N + 1, k, h1, h2, fun fuel hl => ?_⟩
    obtain ⟨n, rfl⟩ : ∃ n, fuel = n + 1 := ⟨fuel - 1, by omega⟩
    rw [h, classLoop, if_neg ht]
    exact h3 n (by omega)

theorem opaqueLoop_ok {syms : List Sym} {i c : Nat} (h : ClassOf syms i c) :
    ∃ N k, syms[c]? = some k ∧ ∀ fuel, N ≤ fuel → opaqueLoop syms fuel syms[i]? = .ok (some k) := by
  induction h with
  | @here i s h ht =>
    refine ⟨1, s, h, fun fuel hl => ?_⟩
    obtain ⟨n, rfl⟩ : ∃ n, fuel = n + 1 := ⟨fuel - 1, by omega⟩
    rw [h, opaqueLoop, if_pos ht]
  | @up i s c h ht _ ih =>
    obtain ⟨N, k, h1, h3⟩ := ih
    refine ⟨N + 1, k, h1, fun fuel hl => ?_⟩
    obtain ⟨n, rfl⟩ : ∃ n, fuel = n + 1 := ⟨fuel - 1, by omega⟩
    rw [h, opaqueLoop, if_neg ht]
    exact h3 n (by omega)

theorem classLoop_orphan {syms : List Sym} {i : Nat} (h : Orphan syms i) :
    ∃ N, ∀ fuel, N ≤ fuel → classLoop syms fuel syms[i]? = .error .ub := by
  induction h with
  | @gone i h =>
    refine ⟨1, fun fuel hl => ?_⟩
    obtain ⟨n, rfl⟩ : ∃ n, fuel = n + 1 := ⟨fuel - 1, by omega⟩
    rw [h, classLoop]
  | @up i s h ht _ ih =>
    obtain ⟨N, ih⟩ := ih
    refine ⟨N + 1, fun fuel hl => ?_⟩
    obtain ⟨n, rfl⟩ : ∃ n, fuel = n + 1 := ⟨fuel - 1, by omega⟩
    rw [h, classLoop, if_neg ht]
    exact ih n (by omega)

theorem opaqueLoop_orphan {syms : List Sym} {i : Nat} (h : Orphan syms i) :
    ∃ N, ∀ fuel, N ≤ fuel → opaqueLoop syms fuel syms[i]? = .ok none := by
  induction h with
  | @gone i h =>
    refine ⟨1, fun fuel hl => ?_⟩
    obtain ⟨n, rfl⟩ : ∃ n, fuel = n + 1 := ⟨fuel - 1, by omega⟩
    rw [h, opaqueLoop]
  | @up i s h ht _ ih =>
    obtain ⟨N, ih⟩ := ih
    refine ⟨N + 1, fun fuel hl => ?_⟩
    obtain ⟨n, rfl⟩ : ∃ n, fuel = n + 1 := ⟨fuel - 1, by omega⟩
    rw [h, opaqueLoop, if_neg ht]
    exact ih n (by omega)

theorem classLoop_hang {syms : List Sym} (fuel : Nat) : ∀ i : Nat, (∀ c, ¬ ClassOf syms i c) → ¬ Orphan syms i →
    classLoop syms fuel syms[i]? = .error .hang ∧ opaqueLoop syms fuel syms[i]? = .error .hang := by
  induction fuel with
  | zero => intro i _ _; exact ⟨rfl, rfl⟩
  | succ n ih =>
    intro i hc ho
    cases hs : syms[i]? with
    | none => exact absurd (.gone hs) ho
    | some s =>
      by_cases ht : s.type = .class_
      · exact absurd (.here hs ht) (hc i)
      · rw [classLoop, opaqueLoop, if_neg ht, if_neg ht]
        exact ih _ (fun c h => hc c (.up hs ht h)) (fun h => ho (.up hs ht h))

/-! ## Arguments -/

theorem Kp.pushArg (a : Arg) : Kp (pushArg a) := by
  cases a with
  | int x => exact Kp.push _
  | bool x => exact Kp.push _
  | float x => exact Kp.push _
  | str s => exact Kp.pushString s
  | inst p => exact Kp.push _

theorem Kp.pushArgs (ps : List Nat) : ∀ as : List Arg, Kp (pushArgs ps as) := by
  induction ps with
  | nil => intro as; exact Kp.pure _
  | cons p ps ih =>
    intro as
    cases as with
    | nil => exact Kp.pure _
    | cons a as =>
      exact (Kp.symAt p).bind fun s => Kp.ite ((Kp.pushArg a).bind fun _ => ih as) (Kp.throw _)

theorem Eff.pushArg (a : Arg) (k : Nat) : Eff (pushArg a) k (k + 1) := by
  cases a with
  | int x => exact Eff.push _ k
  | bool x => exact Eff.push _ k
  | float x => exact Eff.push _ k
  | str s => exact Eff.pushString s k
  | inst p => exact Eff.push _ k

theorem Eff.throw {α} (e : Exc) (n m : Nat) : Eff (M.throw e : M α) n m := by
  intro v fs args a w h
  cases h

theorem Eff.pushArgs (ps : List Nat) : ∀ (as : List Arg) (k : Nat), ps.length = as.length → Eff (pushArgs ps as) k (k + as.length) := by
  induction ps with
  | nil =>
    intro as k h
    cases as with
    | nil => exact (Quiet.pure ()).eff k
    | cons a as => cases h
  | cons p ps ih =>
    intro as k h
    cases as with
    | nil => cases h
    | cons a as =>
      have h := Nat.succ.inj h
      refine ((Quiet.symAt p).eff k).bind fun s => ?_
      split
      · refine (Eff.pushArg a k).bind fun _ => ?_
        have := ih as (k + 1) h
        rw [List.length_cons, show k + (as.length + 1) = k + 1 + as.length by omega]
        exact this
      · exact Eff.throw _ _ _

/-! ## Results -/

theorem ReadOnly.checkClass (t : Nat) (p : Option Nat) : ReadOnly (checkClass t p) := by
  unfold Daedalus.checkClass
  cases p with
  | none => exact ReadOnly.pure _
  | some a =>
    refine ReadOnly.get.bind fun v => ?_
    split
    · exact ReadOnly.fail _
    · split
      · exact ReadOnly.fail _
      · split
        · exact ReadOnly.pure _
        · exact ReadOnly.fail _

theorem Kp.popRet (f : Sym) (r : RType) : Kp (popRet f r) := by
  cases r with
  | ignore =>
    unfold Daedalus.popRet
    exact Kp.ite (Kp.get.bind fun _ => (Kp.setSp _).bind fun _ => Kp.pure _) (Kp.pure _)
  | void => exact Kp.pure _
  | int => exact Kp.popInt.bind fun _ => Kp.pure _
  | float => exact Kp.popFloat.bind fun _ => Kp.pure _
  | str => exact Kp.popString.bind fun _ => Kp.pure _
  | inst t => exact Kp.popInst.bind fun _ => (Kp.ofReadOnly (ReadOnly.checkClass _ _)).bind fun _ => Kp.pure _
  | func => exact Kp.ub

theorem Eff.drop : Eff (do let v ← M.get; setSp (v.sp - 1) : M Unit) 1 0 := by
  intro v fs args a w h hs hl
  obtain ⟨f, rfl⟩ := List.length_eq_one_iff.mp hl
  rw [M.get_bind, setSp_def] at h
  cases h
  refine ⟨[], rfl, ?_⟩
  rw [List.append_nil]
  refine hs.lower (sp_sub_one ?_)
  rw [hs.1]
  simp

theorem Eff.popRet {f : Sym} {r : RType} (hd : Declared f) (hr : r.fits f.rtype = true) : Eff (popRet f r) (results f) 0 := by
  have hone : f.rtype ≠ .void → results f = 1 := by
    intro h
    unfold results
    rw [if_pos (hd.mpr h)]
  cases r with
  | ignore =>
    show Eff (if f.hasReturn = true then _ else _) _ _
    unfold results
    cases hf : f.hasReturn with
    | false => exact (Quiet.pure _).eff 0
    | true =>
      rw [if_pos rfl, if_pos rfl]
      have : Eff (do let v ← M.get; setSp (v.sp - 1); return RVal.none : M RVal) 1 0 := by
        intro v fs args a w h hs hl
        rw [M.get_bind, M.bind_def, setSp_def] at h
        have h1 := Eff.drop v fs args () _ (by rw [M.get_bind, setSp_def]) hs hl
        cases h
        exact h1
      exact this
  | void =>
    have : f.rtype = .void := by simpa [RType.fits] using hr
    have h0 : results f = 0 := by
      unfold results
      rw [if_neg]
      intro h
      exact hd.mp h this
    rw [h0]
    exact (Quiet.pure _).eff 0
  | int =>
    rw [hone (by intro h; rw [h] at hr; cases hr)]
    exact (Eff.popInt 0).bind fun _ => (Quiet.pure _).eff 0
  | float =>
    rw [hone (by intro h; rw [h] at hr; cases hr)]
    exact (Eff.popFloat 0).bind fun _ => (Quiet.pure _).eff 0
  | str =>
    rw [hone (by intro h; rw [h] at hr; cases hr)]
    exact (Eff.popString 0).bind fun _ => (Quiet.pure _).eff 0
  | inst t =>
    rw [hone (by intro h; rw [h] at hr; cases hr)]
    exact (Eff.popInst 0).bind fun _ => ((Quiet.ofReadOnly (ReadOnly.checkClass _ _)).eff 0).bind fun _ => (Quiet.pure _).eff 0
  | func =>
    intro v fs args a w h
    cases h

/-! ## Popping -/

/-- The machine changed at most the stack and the list of free temporary strings. -/
def PopsOnly (v w : Vm) : Prop := w = { v with stack := w.stack, sp := w.sp, free := w.free }

theorem PopsOnly.trans {a b c : Vm} (h : PopsOnly a b) (h' : PopsOnly b c) : PopsOnly a c := by
  unfold PopsOnly at *
  rw [h', h]

theorem StackOnly.pops {v w : Vm} (h : StackOnly v w) : PopsOnly v w := by
  unfold PopsOnly
  rw [h]

theorem PopsOnly.vars {v w : Vm} (h : PopsOnly v w) : SameVars v w := by
  rw [h]
  exact ⟨rfl, rfl, rfl⟩

theorem vmGetInt_same {v w : Vm} (h : SameVars v w) {y : Nat} {i : Byte} {p : Option Nat} {x : BitVec 32}
    (hx : vmGetInt y i p v = (.ok x, v)) : vmGetInt y i p w = (.ok x, w) := by
  rw [ReadOnly.vmGetInt y i p w, h.vmGetInt, hx]

theorem vmGetFloat_same {v w : Vm} (h : SameVars v w) {y : Nat} {i : Byte} {p : Option Nat} {x : BitVec 32}
    (hx : vmGetFloat y i p v = (.ok x, v)) : vmGetFloat y i p w = (.ok x, w) := by
  rw [ReadOnly.vmGetFloat y i p w, h.vmGetFloat, hx]

theorem symGetInstance_same {v w : Vm} (h : SameVars v w) {y : Nat} {x : Option Nat}
    (hx : symGetInstance y v = (.ok x, v)) : symGetInstance y w = (.ok x, w) := by
  rw [ReadOnly.symGetInstance y w, h.symGetInstance, hx]

theorem symGetString_same {v w : Vm} (h : SameVars v w) {y i : Nat} {p : Option Nat} {x : Bytes}
    (hx : symGetString y i p v = (.ok x, v)) : symGetString y i p w = (.ok x, w) := by
  rw [ReadOnly.symGetString y i p w]
  have : (symGetString y i p w).1 = (symGetString y i p v).1 := by
    unfold symGetString
    simp only [M.bind_def, symAt_eq, h.syms]
    cases v.syms[y]? with
    | none => rfl
    | some s =>
      simp only [M.get_def]
      unfold instAt
      rw [h.heap]
      rfl
  rw [this, hx]

theorem IntIn.same {v w : Vm} (h : SameVars v w) {f : Frame} {x : BitVec 32} (hx : IntIn v f x) : IntIn w f x := by
  rcases hx with hx | ⟨y, i, p, hf, hx⟩
  · exact .inl hx
  · exact .inr ⟨y, i, p, hf, vmGetInt_same h hx⟩

theorem FloatIn.same {v w : Vm} (h : SameVars v w) {f : Frame} {x : BitVec 32} (hx : FloatIn v f x) : FloatIn w f x := by
  rcases hx with hx | hx | ⟨y, i, p, hf, hx⟩
  · exact .inl hx
  · exact .inr (.inl hx)
  · exact .inr (.inr ⟨y, i, p, hf, vmGetFloat_same h hx⟩)

theorem InstIn.same {v w : Vm} (h : SameVars v w) {f : Frame} {x : Option Nat} (hx : InstIn v f x) : InstIn w f x := by
  rcases hx with hx | ⟨y, i, p, hf, hx⟩
  · exact .inl hx
  · exact .inr ⟨y, i, p, hf, symGetInstance_same h hx⟩

theorem TextIn.same {v w : Vm} (h : SameVars v w) {f : Frame} {s : Bytes} (hx : TextIn v f s) : TextIn w f s := by
  obtain ⟨y, i, p, hf, hx⟩ := hx
  exact ⟨y, i, p, hf, symGetString_same h hx⟩

theorem HasClass.same {v w : Vm} (h : SameVars v w) {t : Nat} {q : Option Nat} (hx : HasClass v t q) : HasClass w t q := by
  rcases hx with hx | ⟨a, i, h1, h2, h3⟩
  · exact .inl hx
  · exact .inr ⟨a, i, h1, by rw [h.heap]; exact h2, h3⟩

theorem Taken.same {v w : Vm} (h : SameVars v w) {f : Frame} {t : PType} {x : PVal} (hx : Taken v f t x) : Taken w f t x := by
  unfold Taken at *
  split at hx
  · exact IntIn.same h hx
  · obtain ⟨x, h1, h2⟩ := hx
    exact ⟨x, IntIn.same h h1, h2⟩
  · exact FloatIn.same h hx
  · obtain ⟨h1, s, h2⟩ := hx
    exact ⟨h1, s, TextIn.same h h2⟩
  · exact InstIn.same h hx
  · exact ⟨InstIn.same h hx.1, HasClass.same h hx.2⟩
  · rw [h.syms]; exact hx
  · rw [h.syms]
    obtain ⟨x, h1, h2⟩ := hx
    exact ⟨x, IntIn.same h h1, h2⟩
  · exact hx.elim

theorem popInt_in {v : Vm} {fs : List Frame} {f : Frame} {x : BitVec 32} (h : Stk v (fs ++ [f])) (hx : IntIn v f x) :
    ∃ w, popInt v = (.ok x, w) ∧ Stk w fs ∧ PopsOnly v w := by
  obtain ⟨w, h1, h2, h3⟩ := popInt_ok h
  refine ⟨w, ?_, h2, h3.pops⟩
  rw [h1]
  rcases hx with rfl | ⟨y, i, p, rfl, hx⟩
  · rfl
  · show ((vmGetInt y i p v).1, w) = _
    rw [hx]

theorem popFloat_in {v : Vm} {fs : List Frame} {f : Frame} {x : BitVec 32} (h : Stk v (fs ++ [f])) (hx : FloatIn v f x) :
    ∃ w, popFloat v = (.ok x, w) ∧ Stk w fs ∧ PopsOnly v w := by
  have ht := take_ok h
  refine ⟨_, ?_, ht.2, rfl⟩
  unfold popFloat
  rw [M.get_bind, if_neg (sp_ne_zero h), M.bind_ok ht.1]
  rcases hx with rfl | rfl | ⟨y, i, p, rfl, hx⟩
  · rfl
  · rfl
  · show vmGetFloat y i p _ = _
    refine vmGetFloat_same (v := v) ?_ hx
    exact ⟨rfl, rfl, rfl⟩

theorem popInst_in {v : Vm} {fs : List Frame} {f : Frame} {x : Option Nat} (h : Stk v (fs ++ [f])) (hx : InstIn v f x) :
    ∃ w, popInst v = (.ok x, w) ∧ Stk w fs ∧ PopsOnly v w := by
  have ht := take_ok h
  refine ⟨_, ?_, ht.2, rfl⟩
  unfold popInst
  rw [M.get_bind, if_neg (sp_ne_zero h), M.bind_ok ht.1]
  rcases hx with rfl | ⟨y, i, p, rfl, hx⟩
  · rfl
  · show symGetInstance y _ = _
    refine symGetInstance_same (v := v) ?_ hx
    exact ⟨rfl, rfl, rfl⟩

theorem popRef_in {v : Vm} {fs : List Frame} {y : Nat} {i : Byte} {p : Option Nat} (h : Stk v (fs ++ [.ref y i p]))
    (hy : y < v.syms.length) (ht : v.tmp < v.syms.length) :
    ∃ w, popRef v = (.ok (y, i, p), w) ∧ Stk w fs ∧ PopsOnly v w := by
  have hk := take_ok h
  unfold popRef
  rw [M.get_bind, if_neg (sp_ne_zero h), M.bind_ok hk.1]
  dsimp only
  have e : ∀ (j : Nat) (hj : j < v.syms.length) (st : List (Option Frame)) (n : BitVec 16),
      symAt j { v with stack := st, sp := n } = (.ok v.syms[j], { v with stack := st, sp := n }) :=
    fun j hj st n => symAt_some (v := { v with stack := st, sp := n }) (List.getElem?_eq_getElem hj)
  rw [M.bind_ok (e y hy _ _), M.bind_ok (e v.tmp ht _ _)]
  by_cases he : (v.syms[y]).index = (v.syms[v.tmp]).index
  · rw [if_pos he]
    exact ⟨_, rfl, hk.2, rfl⟩
  · rw [if_neg he]
    exact ⟨_, rfl, hk.2, rfl⟩

theorem getString_member {s : Sym} {i : Nat} {x : Bytes} (h : s.getString i none = .ok x) : s.isMember = false := by
  unfold Sym.getString at h
  split at h
  · cases h
  · split at h
    · cases h
    · cases hm : s.isMember with
      | false => rfl
      | true =>
        rw [if_pos hm] at h
        cases h

theorem symGetString_inv {y i : Nat} {p : Option Nat} {x : Bytes} {v : Vm} (h : symGetString y i p v = (.ok x, v)) :
    ∃ s, v.syms[y]? = some s ∧ s.getString i (instAt v p) = .ok x := by
  unfold symGetString at h
  rw [M.bind_def, symAt_eq] at h
  cases hs : v.syms[y]? with
  | none => rw [hs] at h; cases h
  | some s =>
    rw [hs] at h
    dsimp only at h
    rw [M.get_bind] at h
    refine ⟨s, rfl, ?_⟩
    have : (s.getString i (instAt v p), v) = (.ok x, v) := h
    exact congrArg Prod.fst this

theorem popView_in {v : Vm} {fs : List Frame} {y : Nat} {i : Byte} {p : Option Nat} {s : Bytes} (h : Stk v (fs ++ [.ref y i p]))
    (ht : v.tmp < v.syms.length) (hx : symGetString y i.toNat p v = (.ok s, v)) :
    ∃ w, popView v = (.ok (.view y i p), w) ∧ popString v = (.ok s, w) ∧ Stk w fs ∧ PopsOnly v w := by
  obtain ⟨z, hz, hg⟩ := symGetString_inv hx
  obtain ⟨w, h1, h2, h3⟩ := popRef_in h (List.getElem?_eq_some_iff.mp hz).1 ht
  have hw := symGetString_same h3.vars hx
  have hz' : w.syms[y]? = some z := by rw [h3.vars.syms]; exact hz
  have hm : ¬ ((z.isMember && p.isNone) = true) := by
    intro hm
    rw [Bool.and_eq_true] at hm
    cases p with
    | some q => exact absurd hm.2 (by simp)
    | none =>
      have := getString_member hg
      rw [this] at hm
      exact absurd hm.1 (by simp)
  refine ⟨w, ?_, ?_, h2, h3⟩
  · unfold popView
    rw [M.bind_ok h1]
    dsimp only
    rw [M.bind_ok (symAt_some hz'), M.get_bind, if_neg hm, M.bind_ok hw]
    rfl
  · unfold popString
    rw [M.bind_ok h1]
    dsimp only
    rw [M.bind_ok (symAt_some hz'), M.get_bind, if_neg hm]
    exact hw

theorem checkClass_ok {v : Vm} {t : Nat} {q : Option Nat} (h : HasClass v t q) : checkClass t q v = (.ok q, v) := by
  unfold checkClass
  rcases h with rfl | ⟨a, i, rfl, h2, h3⟩
  · rfl
  · dsimp only
    rw [M.get_bind, h2]
    dsimp only
    rw [h3]
    dsimp only
    rw [if_pos rfl]
    rfl

theorem popValue_in {v : Vm} (hf : FunctionsSet v.syms) (ht : v.tmp < v.syms.length) {f : Frame} {t : PType} {x : PVal}
    (hx : Taken v f t x) {fs : List Frame} (h : Stk v (fs ++ [f])) :
    ∃ N w, (∀ fuel, N ≤ fuel → popValue fuel t v = (.ok x, w)) ∧ Stk w fs ∧ PopsOnly v w := by
  unfold Taken at hx
  split at hx
  · obtain ⟨w, h1, h2, h3⟩ := popInt_in h hx
    refine ⟨0, w, fun _ _ => ?_, h2, h3⟩
    unfold popValue
    dsimp only
    rw [M.bind_ok h1]
    rfl
  · obtain ⟨n, hn, rfl⟩ := hx
    obtain ⟨w, h1, h2, h3⟩ := popInt_in h hn
    refine ⟨0, w, fun _ _ => ?_, h2, h3⟩
    unfold popValue
    dsimp only
    rw [M.bind_ok h1]
    have : (n != 0) = decide (n ≠ 0) := by
      by_cases h0 : n = 0
      · rw [h0]; rfl
      · rw [decide_eq_true h0]; simpa using h0
    rw [this]
    rfl
  · obtain ⟨w, h1, h2, h3⟩ := popFloat_in h hx
    refine ⟨0, w, fun _ _ => ?_, h2, h3⟩
    unfold popValue
    dsimp only
    rw [M.bind_ok h1]
    rfl
  · obtain ⟨rfl, s, y, i, p, he, hs⟩ := hx
    cases he
    obtain ⟨w, h1, -, h2, h3⟩ := popView_in h ht hs
    exact ⟨0, w, fun _ _ => h1, h2, h3⟩
  · obtain ⟨w, h1, h2, h3⟩ := popInst_in h hx
    refine ⟨0, w, fun _ _ => ?_, h2, h3⟩
    unfold popValue
    dsimp only
    rw [M.bind_ok h1]
    rfl
  · obtain ⟨w, h1, h2, h3⟩ := popInst_in h hx.1
    refine ⟨0, w, fun _ _ => ?_, h2, h3⟩
    unfold popValue
    dsimp only
    rw [M.bind_ok h1, M.bind_ok (checkClass_ok (HasClass.same h3.vars hx.2))]
    rfl
  · obtain ⟨i, p, rfl, hy⟩ := hx
    obtain ⟨w, h1, h2, h3⟩ := popRef_in h hy ht
    refine ⟨0, w, fun _ _ => ?_, h2, h3⟩
    unfold popValue
    dsimp only
    rw [M.bind_ok h1]
    rfl
  · obtain ⟨n, hn, hd⟩ := hx
    obtain ⟨w, h1, h2, h3⟩ := popInt_in h hn
    rw [← h3.vars.syms] at hd hf
    obtain ⟨N, hN⟩ := resolve_ok hf hd
    refine ⟨N, w, fun fuel hl => ?_, h2, h3⟩
    unfold popValue
    dsimp only
    rw [M.bind_ok h1, M.bind_ok (hN fuel hl)]
    rfl
  · exact hx.elim

theorem TakenAll.same {v w : Vm} (h : SameVars v w) {gs : List Frame} {ts : List PType} {xs : List PVal}
    (hx : TakenAll v gs ts xs) : TakenAll w gs ts xs := by
  induction gs generalizing ts xs with
  | nil => cases ts <;> cases xs <;> first | exact hx | exact hx.elim
  | cons g gs ih =>
    cases ts with
    | nil => exact hx.elim
    | cons t ts =>
      cases xs with
      | nil => exact hx.elim
      | cons x xs => exact ⟨Taken.same h hx.1, ih hx.2⟩

theorem popValues_in {v : Vm} (hf : FunctionsSet v.syms) (ht : v.tmp < v.syms.length) {gs : List Frame} {ts : List PType}
    {xs : List PVal} (hx : TakenAll v gs ts xs) {fs : List Frame} (h : Stk v (fs ++ gs)) :
    ∃ N w, (∀ fuel, N ≤ fuel → popValues fuel ts v = (.ok xs, w)) ∧ Stk w fs ∧ PopsOnly v w := by
  induction gs generalizing ts xs fs with
  | nil =>
    cases ts with
    | cons t ts => exact hx.elim
    | nil =>
      cases xs with
      | cons x xs => exact hx.elim
      | nil => exact ⟨0, v, fun _ _ => rfl, by simpa using h, rfl⟩
  | cons g gs ih =>
    cases ts with
    | nil => exact hx.elim
    | cons t ts =>
      cases xs with
      | nil => exact hx.elim
      | cons x xs =>
        obtain ⟨N, w, h1, h2, h3⟩ := ih hx.2 (fs := fs ++ [g]) (by rw [List.append_assoc]; exact h)
        have hs := h3.vars
        have htmp : w.tmp = v.tmp := by rw [h3]
        obtain ⟨N', w', k1, k2, k3⟩ := popValue_in (v := w) (by rw [hs.syms]; exact hf) (by rw [htmp, hs.syms]; exact ht)
          (Taken.same hs hx.1) h2
        refine ⟨max N N', w', fun fuel hl => ?_, k2, h3.trans k3⟩
        unfold popValues
        rw [M.bind_ok (h1 fuel (by omega)), M.bind_ok (k1 fuel (by omega))]
        rfl

end Verif.Daedalus
