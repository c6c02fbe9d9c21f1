import Verif.Lemmas.DaedalusConst
import Verif.Props.DaedalusApi

/-!
# Functions of the host that scripts call (C77)
-/

namespace Verif.Props

open Verif.Daedalus Verif.Spec.Daedalus

/-- The result type a script declares is the one of the callback. -/
def resultIs (f : Sym) : XRet → Prop
  | .void => True
  | .int => f.rtype = .int
  | .float => f.rtype = .float
  | .str => f.rtype = .string
  | .inst => f.rtype = .instance
  | .func => False

/-- The type a script declares for a parameter is the one of the callback. -/
def paramIs (p : Sym) : PType → Prop
  | .int | .bool | .func => p.type = .int ∨ p.type = .function
  | .float => p.type = .float
  | .str => p.type = .string
  | .inst _ | .sym => p.type = .instance

theorem check_ok {f : Sym} {r : XRet} (h : r.check f = .ok ()) : (f.hasReturn = true ↔ r ≠ .void) ∧ resultIs f r := by
  unfold XRet.check at h
  cases r <;> cases hh : f.hasReturn <;> simp [hh] at h <;> simp [resultIs, h]

theorem fits_ok {p : Sym} {t : PType} (h : t.fits p.type = true) : paramIs p t := by
  cases t <;> simpa [PType.fits, paramIs] using h

theorem symsAt_range (syms : List Sym) (n i : Nat) (h : i + n ≤ syms.length) :
    symsAt syms (List.range' i n) = (syms.drop i).take n := by
  induction n generalizing i with
  | zero => simp [symsAt]
  | succ n ih =>
    have hi' : i < syms.length := by omega
    have := ih (i + 1) (by omega)
    unfold symsAt at this ⊢
    rw [List.range'_succ, List.filterMap_cons, List.getElem?_eq_getElem hi']
    dsimp only
    rw [this, List.drop_eq_getElem_cons hi', List.take_succ_cons]

/-- **C77**: a registered external has the types the script declares: one parameter type per parameter and a result exactly if
the script declares one of that type. For every script. -/
theorem c77_registered {v w : Vm} {name : Bytes} {r : XRet} {ts : List PType} {y : Nat}
    (hr : registerExternal name r ts v = (.ok (some y), w)) :
    w = v ∧ ∃ f, v.syms[y]? = some f ∧ findByName v.syms name = some y ∧ f.isExternal = true ∧
      (f.hasReturn = true ↔ r ≠ .void) ∧ resultIs f r ∧ ts.length = f.count.toNat ∧
      ∀ (k : Nat) (t : PType), ts[k]? = some t → ∃ p, v.syms[f.index.toNat + 1 + k]? = some p ∧ paramIs p t := by
  unfold registerExternal at hr
  rw [M.get_bind] at hr
  cases hn : findByName v.syms name with
  | none => rw [hn] at hr; cases hr
  | some z =>
    rw [hn] at hr
    dsimp only at hr
    obtain ⟨f, u, hf, hr1⟩ := M.bind_inv hr
    have e := ReadOnly.inv (ReadOnly.symAt z) hf
    subst e
    have hz : u.syms[z]? = some f := by
      rw [symAt_eq] at hf
      cases hs : u.syms[z]? with
      | none => simp only [hs] at hf; cases hf
      | some z' => simp only [hs] at hf; cases hf; rfl
    by_cases hx : f.isExternal = true
    · rw [if_neg (by simp [hx])] at hr1
      obtain ⟨_, u1, hc, hr2⟩ := M.bind_inv hr1
      have hc' : r.check f = .ok () ∧ u1 = u := by
        cases h0 : r.check f with
        | error e => rw [h0] at hc; cases hc
        | ok x => rw [h0] at hc; cases hc; exact ⟨rfl, rfl⟩
      obtain ⟨hc', rfl⟩ := hc'
      obtain ⟨ps, u2, hp, hr3⟩ := M.bind_inv hr2
      have hps : ps = List.range' (f.index.toNat + 1) f.count.toNat ∧ u2 = u1 ∧ f.index.toNat + f.count.toNat + 1 ≤ u1.syms.length := by
        unfold params at hp
        rw [M.get_bind] at hp
        split at hp
        · cases hp
        · rename_i hle
          cases hp
          exact ⟨rfl, rfl, by omega⟩
      obtain ⟨rfl, rfl, hin⟩ := hps
      split at hr3
      · cases hr3
      · rename_i hlen
        rw [Decidable.not_not, List.length_range'] at hlen
        split at hr3
        · rename_i hall
          cases hr3
          refine ⟨rfl, f, hz, rfl, hx, (check_ok hc').1, (check_ok hc').2, hlen.symm, ?_⟩
          · intro k t hk
            have hkl : k < ts.length := (List.getElem?_eq_some_iff.mp hk).1
            have hlt : f.index.toNat + 1 + k < w.syms.length := by omega
            refine ⟨w.syms[f.index.toNat + 1 + k], List.getElem?_eq_getElem hlt, ?_⟩
            rw [symsAt_range _ _ _ (by omega), List.all_eq_true] at hall
            have hm : (w.syms[f.index.toNat + 1 + k].type, t) ∈
                ((((w.syms.drop (f.index.toNat + 1)).take f.count.toNat).map Sym.type).zip ts) := by
              apply List.mem_iff_getElem?.mpr
              refine ⟨k, ?_⟩
              rw [List.getElem?_zip_eq_some]
              refine ⟨?_, hk⟩
              rw [List.getElem?_map, List.getElem?_take_of_lt (by omega), List.getElem?_drop, List.getElem?_eq_getElem hlt]
              rfl
            exact fits_ok (hall _ hm)
        · cases hr3
    · rw [if_pos (by simp [hx])] at hr1
      cases hr1

/-- A script with two externals: one takes a number and a text and returns a text, the other takes a function. -/
def hosted : Vm where
  syms := [
    { name := b!"E", type := .function, flags := 11, index := 0, count := 2, rtype := .string },
    { name := b!"E.A", type := .int, index := 1, count := 1, value := .ints (some [some 0]) },
    { name := b!"E.B", type := .string, index := 2, count := 1, value := .strs [[]] },
    { name := b!"F", type := .function, flags := 11, index := 3, count := 0, rtype := .function },
    { type := .string, count := 255, value := .strs (List.replicate 255 []), index := 4 }]
  tmp := 4
  text := assemble { op := .be, symbol := 0, size := 5 } ++ assemble { op := .rsr }
  free := (List.range 255).map (BitVec.ofNat 32)

example : (registerExternal b!"E" .str [.int, .str] hosted).1 = .ok (some 0) := by decide +kernel
example : (registerExternal b!"E" .str [.str, .int] hosted).1 = .error (.throw .daedalusExternal) := by decide +kernel

/-- **C77** (negation): an external that returns a function cannot be registered, neither as a function nor as its index. For
every one. -/
theorem c77_function_violation {v : Vm} {name : Bytes} {y : Nat} {f : Sym} {ts : List PType} (hn : findByName v.syms name = some y)
    (hy : v.syms[y]? = some f) (hx : f.isExternal = true) (hr : f.hasReturn = true) (ht : f.rtype = .function) (r : XRet) :
    ∃ e, registerExternal name r ts v = (.error (.throw e), v) := by
  have : ∃ e, r.check f = .error (.throw e) := by
    unfold XRet.check
    cases r <;> simp [hr, ht]
  obtain ⟨e, he⟩ := this
  refine ⟨e, ?_⟩
  unfold registerExternal
  rw [M.get_bind, hn]
  dsimp only
  rw [M.bind_ok (symAt_some hy), if_neg (by simp [hx]), he]
  rfl

example : findByName hosted.syms b!"F" = some 3 ∧ (hosted.syms[3]).isExternal = true ∧ (hosted.syms[3]).hasReturn = true ∧
    (hosted.syms[3]).rtype = .function := by decide +kernel

/-- **C77** (partial): a callback gets one value per parameter, in the order of the parameters, each what its place on the stack
holds, and nothing else is taken from the stack. Missing: see C66 for functions; an instance without a class. -/
theorem c77_args_partial {v : Vm} (hf : FunctionsSet v.syms) (ht : v.tmp < v.syms.length) {gs : List Frame} {ts : List PType}
    {xs : List PVal} (hx : TakenAll v gs ts xs) {below : List Frame} (hs : Stk v (below ++ gs)) :
    ∃ N u, Stk u below ∧ PopsOnly v u ∧ ∀ fuel, N ≤ fuel → ∀ cb, external fuel ts cb v = (cb xs >>= pushValue) u := by
  obtain ⟨N, w, h1, h2, h3⟩ := popValues_in hf ht hx hs
  refine ⟨N, w, h2, h3, fun fuel hl cb => ?_⟩
  unfold external
  rw [M.bind_ok (h1 fuel hl)]

/-- **C77** (partial): a script calls an external with values on the stack: the callback gets them in order, its result is in
their place afterwards, and the script goes on behind the call with the context it had. Whatever the callback does meanwhile as
long as it leaves the stacks as it found them. Missing: what `c77_args_partial` misses, and more than 243 texts at a time. -/
theorem c77_call_partial {v : Vm} {index : BitVec 32} {f t : Sym} (hy : v.syms[index.toNat]? = some f) (hl : f.hasLocals = false)
    (hin : f.index.toNat + f.count.toNat + 1 ≤ v.syms.length) (hty : f.type = .function) (htm : v.syms[v.tmp]? = some t)
    (htt : t.type = .string) (hfs : FunctionsSet v.syms) {below gs : List Frame} (hs : Stk v (below ++ gs))
    (hg : gs.length = f.count.toNat) {ts : List PType} {xs : List PVal} (hx : TakenAll v gs ts xs)
    (hroom : below.length < stackSize) :
    ∃ N u, Stk u below ∧ SameVars v u ∧ u.instance_ = v.instance_ ∧
      ∀ fuel, N ≤ fuel → ∀ (h : Host) (cb : List PVal → M XVal) (r : XVal) (u' : Vm) (t' : Sym) (a : List Bytes)
        (live : List (Nat × Bytes)), h.external index.toNat = some (external fuel ts cb) →
        cb xs u = (.ok r, u') → Same u u' → u'.calls = u.calls → Stk u' below → TmpOk u' t' a live → live.length < 243 →
        (r = .void ↔ f.hasReturn = false) → (∀ y, r ≠ .func y) →
        ∃ w rs, execBe h index v = (.ok .next, w) ∧ w.pc = v.pc ∧ w.instance_ = v.instance_ ∧ w.calls = v.calls ∧
          Stk w (below ++ rs) ∧ Pushed w r rs := by
  generalize hc : (⟨index.toNat, v.pc, v.sp.setWidth 32 - BitVec.ofNat 32 f.count.toNat, v.instance_⟩ : Call) = c
  have hv1 : pushCall index.toNat v = (.ok (), { v with calls := c :: v.calls }) := by
    unfold pushCall
    rw [M.bind_ok (symAt_some hy), hl]
    have hps : params f v = (.ok (List.range' (f.index.toNat + 1) f.count.toNat), v) := by
      unfold params
      rw [M.get_bind, if_neg (by omega)]
      rfl
    show (params f >>= _) v = _
    rw [M.bind_ok hps, M.get_bind, List.length_range', hc]
    rfl
  generalize hv1d : ({ v with calls := c :: v.calls } : Vm) = v1 at hv1
  have same1 : SameVars v v1 := by subst hv1d; exact ⟨rfl, rfl, rfl⟩
  have htl : v.tmp < v.syms.length := (List.getElem?_eq_some_iff.mp htm).1
  have e1 : v1.syms = v.syms := same1.syms
  have e2 : v1.tmp = v.tmp := by subst hv1d; rfl
  have hs1 : Stk v1 (below ++ gs) := by subst hv1d; exact hs.congr rfl rfl
  obtain ⟨N, u, k1, k2, k3⟩ := c77_args_partial (v := v1) (by rw [e1]; exact hfs) (by rw [e1, e2]; exact htl)
    (TakenAll.same same1 hx) hs1
  have ucalls : u.calls = c :: v.calls := by rw [k2]; subst hv1d; rfl
  have uinst : u.instance_ = v.instance_ := by rw [k2]; subst hv1d; rfl
  have usyms : u.syms = v.syms := by rw [k2.vars.syms, e1]
  have utmp : u.tmp = v.tmp := by rw [k2]; exact e2
  refine ⟨N, u, k1, ⟨usyms, by rw [k2.vars.heap, same1.heap], by rw [k2.vars.nullOk, same1.nullOk]⟩, uinst, ?_⟩
  intro fuel hfl h cb r u' t' a live hext hcb hsame hcalls hstk htok hlive hvoid hfn
  obtain ⟨w, rs, p1, p2, p3, p4⟩ := pushValue_ok htok hlive hstk hroom hfn
  have hmid : external fuel ts cb v1 = (.ok (), w) := by
    rw [k3 fuel hfl cb, M.bind_ok hcb, p1]
  obtain ⟨z, hz⟩ := p2
  have wcalls : w.calls = c :: v.calls := by rw [hz]; show u'.calls = _; rw [hcalls, ucalls]
  obtain ⟨f', q1, q2, -⟩ := hsame.decl index.toNat f (by rw [usyms]; exact hy)
  have hyt : v.tmp ≠ index.toNat := by
    intro he
    rw [he, hy] at htm
    cases htm
    rw [hty] at htt
    cases htt
  have hyw : w.syms[index.toNat]? = some f' := by
    rw [hz]
    show (u'.syms.set u'.tmp z)[index.toNat]? = _
    rw [hsame.tmp, utmp, List.getElem?_set_ne hyt]
    exact q1
  have hret : f'.hasReturn = f.hasReturn := by unfold Sym.hasReturn; rw [shape_flags q2]
  have hloc : f'.hasLocals = false := by rw [shape_hasLocals q2]; exact hl
  have hrl : rs.length = results f' := by
    rw [Pushed.length p4 hfn]
    unfold results
    rw [hret]
    by_cases hr : r = .void
    · rw [if_pos hr, hvoid.mp hr]; rfl
    · rw [if_neg hr]
      cases hh : f.hasReturn with
      | true => rfl
      | false => exact absurd (hvoid.mpr hh) hr
  have hcsp : c.sp.toNat = below.length := by
    have h1 := hs.1
    have h2 := hs.2.1
    have hsz : stackSize = 2048 := rfl
    simp only [List.length_append] at h1 h2
    rw [← hc]
    show (v.sp.setWidth 32 - BitVec.ofNat 32 f.count.toNat).toNat = _
    rw [BitVec.toNat_sub, BitVec.toNat_setWidth, BitVec.toNat_ofNat, h1]
    omega
  have hfix := fixStack_exact p3 hcsp hrl
  have hpop : popCall w = (.ok (), { w with pc := c.pc, instance_ := c.ctx, calls := v.calls }) := by
    unfold popCall
    rw [M.get_bind, wcalls]
    dsimp only
    have : c.fn = index.toNat := by rw [← hc]
    rw [this, M.bind_ok (symAt_some hyw), M.bind_ok hfix, hloc]
    show ({ w with pc := c.pc, instance_ := c.ctx, calls := w.calls.tail } : Vm) |> fun x => (Except.ok (), x) = _
    rw [wcalls]
    rfl
  refine ⟨{ w with pc := c.pc, instance_ := c.ctx, calls := v.calls }, rs, ?_, by rw [← hc], by rw [← hc], rfl, p3.congr rfl rfl, ?_⟩
  · unfold execBe
    have hsi : symByIndex index v = (.ok (index.toNat, f), v) := by
      unfold symByIndex
      rw [M.get_bind, hy]
      rfl
    rw [M.bind_ok hsi]
    dsimp only
    rw [hext]
    dsimp only
    have hall : (do pushCall index.toNat; external fuel ts cb; popCall : M Unit) v =
        (.ok (), { w with pc := c.pc, instance_ := c.ctx, calls := v.calls }) := by
      rw [M.bind_ok hv1, M.bind_ok hmid, hpop]
    have hgd : guarded f.rtype (do pushCall index.toNat; external fuel ts cb; popCall : M Unit) v =
        (.ok (), { w with pc := c.pc, instance_ := c.ctx, calls := v.calls }) := by
      unfold guarded
      rw [hall]
    rw [M.bind_ok hgd]
    rfl
  · cases r with
    | func y => exact absurd rfl (hfn y)
    | str s =>
      obtain ⟨g, rfl, y, i, p, rfl, hg⟩ := p4
      refine ⟨_, rfl, y, i, p, rfl, ?_⟩
      exact symGetString_same (v := w) (w := { w with pc := c.pc, instance_ := c.ctx, calls := v.calls }) ⟨rfl, rfl, rfl⟩ hg
    | void => exact p4
    | int x => exact p4
    | float x => exact p4
    | inst x => exact p4

/-- Whatever the callback, an external takes its arguments before and pushes its result after: it is a function of the host as
C33 and C69 ask for if the callback leaves the stacks as it found them. -/
theorem c77_host (fuel : Nat) (ts : List PType) (cb : List PVal → M XVal)
    (hk : ∀ xs v r w, cb xs v = (.ok r, w) → Same v w ∧ w.calls = v.calls)
    (hs : ∀ xs v r w fs, cb xs v = (.ok r, w) → Stk v fs → Stk w fs) :
    Returns (external fuel ts cb) ∧ Respects (external fuel ts cb) ts.length := by
  constructor
  · intro v w h
    unfold external at h
    obtain ⟨xs, u, h1, h2⟩ := M.bind_inv h
    obtain ⟨r, u', h3, h4⟩ := M.bind_inv h2
    have k1 : Keeps v u := by
      have := Kp.popValues fuel ts v
      unfold KpAt at this
      rw [h1] at this
      exact this
    have k2 := hk xs u r u' h3
    have k3 : Keeps u' w := by
      have := Kp.pushValue r u'
      unfold KpAt at this
      rw [h4] at this
      exact this
    exact ⟨(k1.toSame.trans k2.1).trans k3.toSame, by rw [k3.calls, k2.2, k1.calls]⟩
  · intro v w fs args h hst hlen
    unfold external at h
    obtain ⟨xs, u, h1, h2⟩ := M.bind_inv h
    obtain ⟨r, u', h3, h4⟩ := M.bind_inv h2
    obtain ⟨rs, e1, e2⟩ := Eff.popValues fuel ts 0 v fs args xs u h1 hst (by omega)
    rw [List.length_eq_zero_iff.mp e1, List.append_nil] at e2
    have e3 := hs xs u r u' fs h3 e2
    have e4 : Stk u' (fs ++ []) := by simpa using e3
    obtain ⟨rs', -, e5⟩ : ∃ rs', True ∧ Stk w (fs ++ rs') := by
      cases r with
      | void => cases h4; exact ⟨[], trivial, e4⟩
      | int x => obtain ⟨rs', -, h⟩ := Eff.push (.int x) 0 u' fs [] () w h4 e4 rfl; exact ⟨rs', trivial, h⟩
      | float x => obtain ⟨rs', -, h⟩ := Eff.push (.float x) 0 u' fs [] () w h4 e4 rfl; exact ⟨rs', trivial, h⟩
      | str x => obtain ⟨rs', -, h⟩ := Eff.pushString x 0 u' fs [] () w h4 e4 rfl; exact ⟨rs', trivial, h⟩
      | inst x => obtain ⟨rs', -, h⟩ := Eff.push (.inst x) 0 u' fs [] () w h4 e4 rfl; exact ⟨rs', trivial, h⟩
      | func y =>
        cases y with
        | none => cases h4
        | some y =>
          obtain ⟨s, u2, h5, h6⟩ := M.bind_inv h4
          have := ReadOnly.inv (ReadOnly.symAt y) h5
          subst this
          obtain ⟨rs', -, h⟩ := Eff.push (.int s.index) 0 u2 fs [] () w h6 e4 rfl
          exact ⟨rs', trivial, h⟩
    exact ⟨rs', e5⟩

/-- The hypotheses hold for a callback that returns its number. -/
example : ∀ v r w, (Pure.pure (.int 3) : M XVal) v = (.ok r, w) → Same v w ∧ w.calls = v.calls := by
  intro v r w h
  cases h
  exact ⟨(Keeps.refl v).toSame, rfl⟩

/-- An external that gets a number and a text and returns the text twice. -/
def twice : List PVal → M XVal
  | [.int _, s] => do let x ← readView s; return .str (x ++ x)
  | _ => M.ub

example :
    let v := (do pushInt 7; pushString b!"ab" : M Unit) hosted
    (execBe { external := fun _ => some (external 5 [.int, .str] twice) } 0 v.2).1 = .ok .next ∧
    ((do let _ ← execBe { external := fun _ => some (external 5 [.int, .str] twice) } 0; popString : M Bytes) v.2).1 = .ok b!"abab" := by
  decide +kernel

/-- **C77** (negation): the text a callback gets is gone as soon as it pushes another: it then reads that one. For every text. -/
theorem c77_view_violation {v : Vm} {t : Sym} {a : List Bytes} {live : List (Nat × Bytes)} (h : TmpOk v t a live) {i : Byte}
    {s s' : Bytes} (hi : (i.toNat, s) ∈ live) {below : List Frame} {p : Option Nat} (hs : Stk v (below ++ [.ref v.tmp i p]))
    (hne : s' ≠ s) :
    ∃ x w w', popValue 0 .str v = (.ok x, w) ∧ readView x w = (.ok s, w) ∧ pushString s' w = (.ok (), w') ∧
      (readView x w').1 ≠ .ok s := by
  obtain ⟨w, w', h1, h2, h3, h4⟩ := view_lost h hi hs s'
  refine ⟨_, w, w', h1, h2, h3, ?_⟩
  rw [h4]
  intro he
  cases he
  exact hne rfl

/-- Two texts of which the second takes the place of the first. -/
example :
    let v := (pushString b!"ab" hosted).2
    ((do let x ← popValue 0 .str; pushString b!"c"; readView x : M Bytes) v).1 = .ok b!"c" := by decide +kernel

/-- **C77** (negation): an instance that was not created by the machine has no class; passing it for a parameter of a class
dereferences null. -/
theorem c77_class_violation {v : Vm} {t a : Nat} {i : Inst} (hi : v.heap[a]? = some i) (hn : i.type = none) {below : List Frame}
    (hs : Stk v (below ++ [.inst (some a)])) (fuel : Nat) : (popValue fuel (.inst (some t)) v).1 = .error .ub := by
  obtain ⟨w, h1, -, h3⟩ := popInst_in hs (.inl rfl)
  unfold popValue
  dsimp only
  have : checkClass t (some a) w = (.error .ub, w) := by
    unfold checkClass
    dsimp only
    rw [M.get_bind, h3.vars.heap, hi]
    dsimp only
    rw [hn]
    rfl
  rw [M.bind_ok h1, M.bind_err this]

end Verif.Props
