import Verif.Lemmas.DaedalusLocals
import Verif.Lemmas.DaedalusArgs

/-!
# Recursive calls (C35, C65)
-/

namespace Verif.Props

open Verif.Daedalus Verif.Spec.Daedalus

/-- **C35** (partial): when a function that is already on the call stack is called again and the call returns, every local of
the interrupted activation has the value it had at the call, whatever the inner activation did to it. `Inner` says what the
body must respect. Missing: the parameters, for which the claim is false, and more than 243 strings in use. -/
theorem c35_locals_partial {y : Nat} {v v1 v2 v3 : Vm} {f t : Sym} {a : List Bytes} {live : List (Nat × Bytes)}
    {fs args : List Frame} (hf : v.syms[y]? = some f) (hy : y ≠ v.tmp) (hlocals : f.hasLocals = true) (hrec : activations v y ≠ 0)
    (hs : Stk v (fs ++ args)) (ha : args.length = f.count.toNat)
    (ht : TmpOk v t a live) (hb : live.length + stringLocals v (localsOf v f) ≤ 243)
    (hl : ∀ l ∈ localsOf v f, l ≠ v.tmp ∧ ∃ s, v.syms[l]? = some s)
    (h1 : pushCall y v = (.ok (), v1)) (h2 : Inner v1 v2 f.hasReturn) (h3 : popCall v2 = (.ok (), v3)) :
    ∀ l ∈ localsOf v f, (∀ k i p, (readVar k l i p v3).1 = (readVar k l i p v).1) ∧
      (symGetInstance l v3).1 = (symGetInstance l v).1 := by
  rw [← stringSlots_eq] at hb
  obtain ⟨u, hp, hk, hv1⟩ := pushCall_locals hf hlocals h1
  obtain ⟨frs, t', a', live', w0, hsaved, hstk, htmp, hu, hsame⟩ := pushLocals_inv hf hrec hs ha ht hb hl hp
  have hss : stackSize = 2048 := rfl
  have hle := hstk.2.1
  have hle0 := hs.2.1
  have hsp0 := hstk.1
  simp only [List.length_append] at hle hle0 hsp0
  have htmp0 : w0.tmp = v.tmp := hsame.tmp
  -- the call frame
  obtain ⟨c, rest, f', u3, u4, hc, hf', hfix, hpop, hk', hv3⟩ := popCall_inv h3
  rw [h2.calls, hv1] at hc
  simp only [List.cons.injEq] at hc
  obtain ⟨hc, hrest⟩ := hc
  have hcsp : c.sp.toNat = (fs ++ frs).length := by
    rw [← hc, hu]
    show (BitVec.setWidth 32 (w0.sp + f.count.setWidth 16) - f.count).toNat = _
    have hcount : f.count.toNat < 65536 := by omega
    rw [BitVec.toNat_sub, BitVec.toNat_setWidth, BitVec.toNat_add, BitVec.toNat_setWidth, hsp0, List.length_append,
      Nat.mod_eq_of_lt (show f.count.toNat < 2 ^ 16 by omega),
      Nat.mod_eq_of_lt (show fs.length + frs.length + f.count.toNat < 2 ^ 16 by omega),
      Nat.mod_eq_of_lt (show fs.length + frs.length + f.count.toNat < 2 ^ 32 by omega)]
    omega
  have hv1stack : v1.stack = w0.stack := by rw [hv1, hu]
  have hv1syms : v1.syms = w0.syms := by rw [hv1, hu]
  have hv1tmp : v1.tmp = w0.tmp := by rw [hv1, hu]
  have hv1same : Same w0 v1 := by
    rw [hv1, hu]
    exact ⟨rfl, rfl, rfl, rfl, rfl, fun _ s h => ⟨s, h, rfl, fun _ => rfl⟩⟩
  have hv1calls : v1.calls = c :: v.calls := by rw [hv1, ← hc]
  obtain ⟨⟨rs, hrs, hne⟩, hread⟩ := h2.below c v.calls hv1calls (fs ++ frs)
    (by rw [hv1stack, hcsp]; exact hstk.2.2) hcsp.symm
  have hs02 : Same w0 v2 := hv1same.trans h2.same
  have hsv2 : Same v v2 := hsame.trans hs02
  -- the function
  have hcfn : c.fn = y := by rw [← hc]
  rw [hcfn] at hf' hpop
  obtain ⟨f'', hf'', hsh, hext⟩ := hsv2.decl y f hf
  have hff : f'' = f' := by rw [hf'] at hf''; exact (Option.some.inj hf'').symm
  subst hff
  have hret : f''.hasReturn = f.hasReturn := by unfold Sym.hasReturn; rw [shape_flags hsh]
  have hloc' : f''.hasLocals = true := by rw [shape_hasLocals hsh]; exact hlocals
  have hcnt : f''.count = f.count := extent_count (hext hy)
  obtain ⟨e1, e2, e3, e4⟩ := fixStack_inv hrs hcsp.symm (by rw [hret]; exact hne) hfix
  rw [if_pos hloc'] at hpop
  have hact : 2 ≤ activations u3 y := by
    unfold activations
    rw [e3, h2.calls, hv1calls, List.filter_cons, if_pos (by simp [hcfn]), List.length_cons]
    have : 0 < (v.calls.filter fun c => c.fn == y).length := Nat.pos_of_ne_zero hrec
    omega
  obtain ⟨x1, x2, g1, g2, g3, g4, g5⟩ := popLocals_inv (bs := fs ++ frs) (by rw [e1]; exact hf') hact e4 hpop
  have hlocs : localsOf u3 f'' = localsOf v f := by
    have : localsOf u3 f'' = localsOf v2 f'' := by unfold localsOf; rw [e1]
    rw [this, hsv2.localsOf hsh hcnt]
  rw [hlocs] at g4
  have hx1 : ∀ l, l ≠ v.tmp → itemsOf x1 l = itemsOf v l := fun l hl' => by
    have : itemsOf x1 l = itemsOf v2 l := by unfold itemsOf; rw [g2, e1]
    rw [this, itemsOf_same hsv2 hl']
  have hx1tmp : x1.tmp = v.tmp := by rw [g3, e2, hsv2.tmp]
  have hmem : ∀ l ∈ (localsOf v f).reverse, l ∈ localsOf v f := fun l h => by simpa using h
  rw [restoreAll_eq _ _ (fun l hl' => by
    obtain ⟨q1, s, q2⟩ := hl l (hmem l hl')
    obtain ⟨s', q3, -⟩ := hsv2.decl l s q2
    exact ⟨by rw [hx1tmp]; exact q1, s', by rw [g2, e1]; exact q3⟩)] at g4
  have hflat : ((localsOf v f).reverse.flatMap fun l => (itemsOf x1 l).reverse) =
      ((localsOf v f).flatMap (itemsOf v)).reverse := by
    rw [← flatMap_reverse_items, List.flatMap_def, List.flatMap_def]
    congr 1
    refine List.map_congr_left fun l hl' => ?_
    rw [hx1 l (hl l (hmem l hl')).1]
  rw [hflat] at g4
  have hitems : ((localsOf v f).flatMap (itemsOf v)).length ≤ 65536 := by
    rw [← hsaved.length]
    omega
  have hnodup : (localsOf v f).Nodup := List.nodup_range'
  have hsaved' : Saved (fun it fr => ∃ x, (it.read v).1 = .ok x ∧ it.fits x ∧ frameGives x1 fr x)
      ((localsOf v f).flatMap (itemsOf v)) frs := by
    refine hsaved.imp fun it hit fr hfr => fun ⟨x, q1, q2⟩ => ⟨x, q1, read_kind q1, ?_⟩
    rw [← htmp0] at q2
    have hg := frameGives_of_has (v2 := v2) htmp hs02 q2 (fun i p he => by
      have := hread i p (by rw [hv1tmp, ← he]; exact List.mem_append_right _ hfr)
      rw [hv1tmp] at this
      rw [this]
      have hrd : ∀ (a b : Vm), a.syms = b.syms → (symGetString w0.tmp i.toNat none a).1 = (symGetString w0.tmp i.toNat none b).1 := by
        intro a b hab
        unfold symGetString
        rw [M.bind_def, M.bind_def, symAt_eq, symAt_eq, hab]
        cases b.syms[w0.tmp]? with
        | none => rfl
        | some r =>
          dsimp only
          rw [M.get_bind, M.get_bind]
          have : instAt a none = instAt b none := rfl
          rw [this]
          unfold M.lift
          cases r.getString i.toNat (instAt b none) <;> rfl
      exact hrd v1 w0 hv1syms)
    exact hg.congr (by rw [g3, e2]) (by rw [g2, e1])
  obtain ⟨-, hres, -⟩ := restore_items (P := fun it x => (it.read v).1 = .ok x) _ g4
    (by rw [List.reverse_reverse]; exact g1) hsaved'.reverse
    (pairwise_reverse_indep (items_indep _ hnodup hitems)) (by
      intro it hit
      obtain ⟨l, hl', hit'⟩ := List.mem_flatMap.mp (List.mem_reverse.mp hit)
      rw [itemsOf_sym hit', hx1tmp]
      exact (hl l hl').1)
  have hsv3 : Same v v3 := by
    rw [hv3]
    have := hsv2.trans hk'.toSame
    exact ⟨this.text, this.tmp, this.nullOk, this.ignoreConst, this.len, this.decl⟩
  have hsyms3 : v3.syms = x2.syms := by rw [hv3]; exact g5
  intro l hl'
  obtain ⟨q1, s, q2⟩ := hl l hl'
  refine reads_of_items q2 hsv3 q1 ?_ ?_
  · refine Nat.le_trans ?_ hitems
    exact length_le_flatMap _ hl'
  · intro it hit
    obtain ⟨x, r1, r2⟩ := hres it (List.mem_reverse.mpr (List.mem_flatMap.mpr ⟨l, hl', hit⟩))
    exact ⟨x, r1, by rw [← r2]; exact read_congr it (by rw [hsyms3])⟩

/-! ## A function that calls itself -/

namespace Recursion

/-- `func void F(var int A) { var int X; … F(…); … }` -/
def fSym (n : BitVec 32) : Sym := { name := b!"F", type := .function, count := n, index := 0, flags := 128 }
def iSym (s : Bytes) (x : BitVec 32) : Sym := { name := s, type := .int, count := 1, value := .ints (some [x]) }
def tSym : Sym := { name := b!"$T", type := .string, count := 1, value := .strs [[]], index := 4 }

/-- About to call itself with the argument 7 while `A` is 5 and `X` is 42. -/
def v : Vm where
  syms := [fSym 1, iSym b!"F.A" 5, iSym b!"F.X" 42, tSym]
  tmp := 3
  stack := [some (.int 7)]
  sp := 1
  calls := [⟨0, 0, 0, none⟩]

/-- In the inner activation. -/
def v1 : Vm :=
  { v with
    stack := [some (.int 42), some (.int 7)]
    sp := 2
    calls := [⟨0, 0, 1, none⟩, ⟨0, 0, 0, none⟩] }

/-- It moved its argument to `A` and set `X` to 1. -/
def v2 : Vm :=
  { v1 with
    syms := [fSym 1, iSym b!"F.A" 7, iSym b!"F.X" 1, tSym]
    sp := 1 }

def v3 : Vm :=
  { v2 with
    syms := [fSym 1, iSym b!"F.A" 7, iSym b!"F.X" 42, tSym]
    sp := 0
    calls := [⟨0, 0, 0, none⟩] }

theorem ok_of {p : M Unit} {a b : Vm} (h1 : (p a).1.toOption = some ()) (h2 : (p a).2 = b) : p a = (.ok (), b) := by
  match h : p a with
  | (.ok (), w) => rw [h] at h2; exact congrArg _ h2
  | (.error e, w) => rw [h] at h1; cases h1

theorem enter : pushCall 0 v = (.ok (), v1) := ok_of (by decide +kernel) (by decide +kernel)
theorem leave : popCall v2 = (.ok (), v3) := ok_of (by decide +kernel) (by decide +kernel)

theorem inner : Inner v1 v2 (fSym 1).hasReturn := by
  refine ⟨⟨rfl, rfl, rfl, rfl, rfl, ?_⟩, rfl, ?_⟩
  · intro y s h
    match y, h with
    | 0, h => cases h; exact ⟨_, rfl, rfl, fun _ => rfl⟩
    | 1, h => cases h; exact ⟨_, rfl, rfl, fun _ => rfl⟩
    | 2, h => cases h; exact ⟨_, rfl, rfl, fun _ => rfl⟩
    | 3, h => cases h; exact ⟨_, rfl, rfl, fun _ => rfl⟩
    | n + 4, h => cases h
  · intro c rest hc bs hbs hlen
    cases hc
    have hbs : [some (Frame.int 42)] = bs.map some := hbs
    match bs, hbs, hlen with
    | [b], hbs, _ =>
      simp only [List.map_cons, List.map_nil, List.cons.injEq, Option.some.injEq, and_true] at hbs
      subst hbs
      refine ⟨⟨[], ⟨rfl, by decide, rfl⟩, fun h => absurd h (by decide)⟩, ?_⟩
      intro i p h
      simp at h

theorem tmpOk : TmpOk v tSym [[]] [] :=
  ⟨rfl, rfl, rfl, rfl, rfl, by decide, List.Perm.refl _, by simp⟩

theorem locals : localsOf v (fSym 1) = [2] := by decide +kernel

/-- The hypotheses of `c35_locals_partial` can be met by an activation that changes the local. -/
example : (readVar .int 2 0 none v2).1 ≠ (readVar .int 2 0 none v).1 ∧
    (readVar .int 2 0 none v3).1 = (readVar .int 2 0 none v).1 := by
  refine ⟨fun h => ?_, ?_⟩
  · have : (Except.ok (Cell.int 1) : Except Fail Cell) = .ok (.int 42) := h
    cases this
  · refine (c35_locals_partial (y := 0) (fs := []) (args := [.int 7]) (f := fSym 1) rfl (by decide) rfl (by decide)
      ⟨rfl, by decide, rfl⟩ rfl tmpOk ?_ ?_ enter inner leave 2 ?_).1 _ _ _
    · rw [locals]; decide
    · rw [locals]
      intro l hl
      rw [List.mem_singleton] at hl
      subst hl
      exact ⟨by decide, _, rfl⟩
    · rw [locals]; simp

end Recursion

/-- **C35** (negation): parameters are not saved. A function calls itself with another argument; the call returns, and the
parameter of the interrupted activation has the value of the inner one. -/
theorem c35_parameters_violation : ∃ (v v1 v2 v3 : Vm) (f t : Sym),
    v.syms[0]? = some f ∧ f.hasLocals = true ∧ f.count = 1 ∧ activations v 0 ≠ 0 ∧ Stk v [.int 7] ∧ TmpOk v t [[]] [] ∧
    pushCall 0 v = (.ok (), v1) ∧ Inner v1 v2 f.hasReturn ∧ popCall v2 = (.ok (), v3) ∧
    (readVar .int 1 0 none v).1 = .ok (.int 5) ∧ (readVar .int 1 0 none v3).1 = .ok (.int 7) :=
  ⟨Recursion.v, Recursion.v1, Recursion.v2, Recursion.v3, Recursion.fSym 1, Recursion.tSym, rfl, rfl, rfl, by decide,
    ⟨rfl, by decide, rfl⟩, Recursion.tmpOk, Recursion.enter, Recursion.inner, Recursion.leave, rfl, rfl⟩

/-- **C65** (partial): a function that calls itself finds on the stack the arguments that were pushed for it, right above the
place where its call frame begins. Missing: functions with fewer local slots than parameters, for which the claim is false. -/
theorem c65_arguments_partial {y : Nat} {v v1 : Vm} {f t : Sym} {a : List Bytes} {live : List (Nat × Bytes)}
    {fs args : List Frame} (hf : v.syms[y]? = some f) (hlocals : f.hasLocals = true) (hrec : activations v y ≠ 0)
    (hs : Stk v (fs ++ args)) (ha : args.length = f.count.toNat)
    (ht : TmpOk v t a live) (hb : live.length + stringLocals v (localsOf v f) ≤ 243)
    (hl : ∀ l ∈ localsOf v f, l ≠ v.tmp ∧ ∃ s, v.syms[l]? = some s)
    (hsz : slotsOf v (localsOf v f) = 0 ∨ args.length ≤ slotsOf v (localsOf v f))
    (h1 : pushCall y v = (.ok (), v1)) :
    ∃ (c : Call) (bs : List Frame), v1.calls = c :: v.calls ∧ c.sp.toNat = bs.length ∧ Stk v1 (bs ++ args) ∧ fs <+: bs ∧
      bs.length = fs.length + slotsOf v (localsOf v f) := by
  rw [← stringSlots_eq] at hb
  have hslots : slotsOf v (localsOf v f) = ((localsOf v f).flatMap (itemsOf v)).length := by
    rw [items_length]
    rfl
  rw [hslots] at hsz ⊢
  obtain ⟨u, hp, hk, hv1⟩ := pushCall_locals hf hlocals h1
  obtain ⟨frs, hlen, hstk⟩ := pushLocals_args hf hrec hs ha ht hb hl hsz hp
  refine ⟨⟨y, v.pc, u.sp.setWidth 32 - f.count, v.instance_⟩, fs ++ frs, by rw [hv1], ?_, ?_, List.prefix_append _ _, ?_⟩
  · have hle := hstk.2.1
    have hsp := hstk.1
    have hss : stackSize = 2048 := rfl
    simp only [List.length_append] at hle hsp
    rw [BitVec.toNat_sub, BitVec.toNat_setWidth, hsp, List.length_append,
      Nat.mod_eq_of_lt (show fs.length + frs.length + args.length < 2 ^ 32 by omega)]
    omega
  · rw [hv1]
    exact hstk.congr rfl rfl
  · rw [List.length_append, hlen]

/-- The function above: one parameter, one local. -/
example : ∃ (c : Call) (bs : List Frame), Recursion.v1.calls = c :: Recursion.v.calls ∧ c.sp.toNat = bs.length ∧
    Stk Recursion.v1 (bs ++ [.int 7]) := by
  obtain ⟨c, bs, h1, h2, h3, -⟩ := c65_arguments_partial (y := 0) (fs := []) (args := [.int 7]) (f := Recursion.fSym 1) rfl rfl
    (by decide) ⟨rfl, by decide, rfl⟩ rfl Recursion.tmpOk (by rw [Recursion.locals]; decide) (by
      rw [Recursion.locals]
      intro l hl
      rw [List.mem_singleton] at hl
      subst hl
      exact ⟨by decide, _, rfl⟩) (.inr (by rw [Recursion.locals]; decide)) Recursion.enter
  exact ⟨c, bs, h1, h2, h3⟩

/-- Two parameters and one local; about to call itself with 7 and 8. -/
def Recursion.w : Vm where
  syms := [fSym 2, iSym b!"F.A" 5, iSym b!"F.B" 6, iSym b!"F.X" 42, { tSym with index := 5 }]
  tmp := 4
  stack := [some (.int 7), some (.int 8)]
  sp := 2
  calls := [⟨0, 0, 0, none⟩]

/-- **C65** (negation): a function with two parameters and one local that calls itself with the arguments 7 and 8 finds the
arguments 7 and 7. -/
theorem c65_arguments_violation : ∃ (v v1 : Vm) (f t : Sym) (c : Call),
    v.syms[0]? = some f ∧ f.hasLocals = true ∧ f.count = 2 ∧ activations v 0 ≠ 0 ∧ Stk v [.int 7, .int 8] ∧
    TmpOk v t [[]] [] ∧ slotsOf v (localsOf v f) = 1 ∧ pushCall 0 v = (.ok (), v1) ∧
    v1.calls = c :: v.calls ∧ c.sp.toNat = 1 ∧ Stk v1 [.int 42, .int 7, .int 7] :=
  ⟨Recursion.w, (pushCall 0 Recursion.w).2, Recursion.fSym 2, _, ⟨0, 0, 1, none⟩, rfl, rfl, rfl, by decide,
    ⟨rfl, by decide, rfl⟩, ⟨rfl, rfl, rfl, rfl, rfl, by decide, List.Perm.refl _, by simp⟩, by decide +kernel,
    Recursion.ok_of (by decide +kernel) rfl, by decide +kernel, rfl, by
      refine ⟨by decide +kernel, by decide, by decide +kernel⟩⟩

end Verif.Props
