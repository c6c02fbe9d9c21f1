import Verif.Lemmas.DaedalusDefault
import Verif.Props.DaedalusExternal

/-!
# Externals that nobody implemented (C106)
-/

namespace Verif.Props

open Verif.Daedalus Verif.Spec.Daedalus

/-- What `register_default_external` stores: the machine drops the parameters and pushes a result, then it tells the host, which gets nothing but the symbol. -/
structure Registered (h : Host) (y : Nat) where
  tell : Nat → M Unit
  own : h.external y = none
  stored : h.default_ = some fun y => do defaultExternal y; tell y
  quiet : ∀ w, tell y w = (.ok (), w)

/-- **C106**, without parameters that are functions and without arguments that are instances returned by other externals: calling an external without implementation
takes exactly its arguments off the stack and leaves zero, the empty text or no instance there if the function returns something, and nothing if not; nothing else of the
machine changes but temporary texts. The script goes on behind the call. -/
theorem c106_call_partial {v : Vm} {index : BitVec 32} {f t : Sym} {a : List Bytes} {live live' : List (Nat × Bytes)} {h : Host} (hr : Registered h index.toNat)
    (hy : v.syms[index.toNat]? = some f) (hin : f.index.toNat + f.count.toNat + 1 ≤ v.syms.length) {ts : List DType}
    (hts : (List.range' (f.index.toNat + 1) f.count.toNat).map (fun y => (v.syms[y]?).map Sym.type) = ts.map some)
    {below gs : List Frame} (hs : Stk v (below ++ gs)) (hd : Drops v t gs.reverse ts.reverse live live') (htm : TmpOk v t a live) (hn : live'.length < 243)
    (hroom : below.length < stackSize) :
    ∃ w rs, execBe h index v = (.ok .next, w) ∧ Stk w (below ++ rs) ∧ Pushed w (neutral f) rs ∧
      w.pc = v.pc ∧ w.calls = v.calls ∧ w.instance_ = v.instance_ ∧ w.heap = v.heap ∧ ∀ j, j ≠ v.tmp → w.syms[j]? = v.syms[j]? := by
  obtain ⟨w, rs, h1, ⟨u, h2, ⟨z, h3⟩⟩, h4, h5⟩ := defaultExternal_ok hy hin hts hd htm hn hs hroom
  refine ⟨w, rs, ?_, h4, h5, by rw [h3, h2], by rw [h3, h2], by rw [h3, h2], by rw [h3, h2], fun j hj => ?_⟩
  · unfold execBe
    have hsi : symByIndex index v = (.ok (index.toNat, f), v) := by
      unfold symByIndex
      rw [M.get_bind, hy]
      rfl
    rw [M.bind_ok hsi]
    dsimp only
    rw [hr.own, hr.stored]
    dsimp only
    have hall : (do defaultExternal index.toNat; hr.tell index.toNat : M Unit) v = (.ok (), w) := by
      rw [M.bind_ok h1, hr.quiet]
    have hgd : guarded f.rtype (do defaultExternal index.toNat; hr.tell index.toNat : M Unit) v = (.ok (), w) := by
      unfold guarded
      rw [hall]
    rw [M.bind_ok hgd]
    rfl
  · rw [h3, h2]
    exact List.getElem?_set_ne (Ne.symm hj)

theorem forM_pure {α} {g : α → M Unit} {v : Vm} : ∀ {ps : List α}, (∀ y ∈ ps, g y v = (.ok (), v)) → forM_ g ps v = (.ok (), v)
  | [], _ => rfl
  | y :: ps, h => by
    unfold forM_
    rw [M.bind_ok (h y (by simp)), forM_pure fun z hz => h z (by simp [hz])]

/-- **C106** (negation): arguments that are functions stay on the stack. For every external without result all of whose parameters are functions. -/
theorem c106_function_violation {v : Vm} {index : BitVec 32} {f : Sym} {h : Host} (hr : Registered h index.toNat)
    (hy : v.syms[index.toNat]? = some f) (hin : f.index.toNat + f.count.toNat + 1 ≤ v.syms.length)
    (hts : ∀ j ∈ List.range' (f.index.toNat + 1) f.count.toNat, (v.syms[j]?).map Sym.type = some .function) (hret : f.hasReturn = false) :
    execBe h index v = (.ok .next, v) := by
  unfold execBe
  have hsi : symByIndex index v = (.ok (index.toNat, f), v) := by
    unfold symByIndex
    rw [M.get_bind, hy]
    rfl
  rw [M.bind_ok hsi]
  dsimp only
  rw [hr.own, hr.stored]
  dsimp only
  have hps : params f v = (.ok (List.range' (f.index.toNat + 1) f.count.toNat), v) := by
    unfold params
    rw [M.get_bind, if_neg (by omega)]
    rfl
  have hpop : forM_ defaultPop (List.range' (f.index.toNat + 1) f.count.toNat).reverse v = (.ok (), v) := by
    refine forM_pure fun y hy => ?_
    obtain ⟨s, e1, e2⟩ := Option.map_eq_some_iff.mp (hts y (List.mem_reverse.mp hy))
    unfold defaultPop
    rw [M.bind_ok (symAt_some e1), e2]
    rfl
  have hdef : defaultExternal index.toNat v = (.ok (), v) := by
    unfold defaultExternal
    rw [M.bind_ok (symAt_some hy), M.bind_ok hps, M.bind_ok hpop, hret]
    rfl
  have hall : (do defaultExternal index.toNat; hr.tell index.toNat : M Unit) v = (.ok (), v) := by
    rw [M.bind_ok hdef, hr.quiet]
  have hgd : guarded f.rtype (do defaultExternal index.toNat; hr.tell index.toNat : M Unit) v = (.ok (), v) := by
    unfold guarded
    rw [hall]
  rw [M.bind_ok hgd]
  rfl

/-- **C106** (negation): an argument that is an instance another external returned makes the call fail. For every external whose last parameter is an instance. -/
theorem c106_instance_violation {v : Vm} {index : BitVec 32} {f q : Sym} {n : Nat} {h : Host} (hr : Registered h index.toNat)
    (hy : v.syms[index.toNat]? = some f) (hin : f.index.toNat + f.count.toNat + 1 ≤ v.syms.length) (hc : f.count.toNat = n + 1)
    (hq : v.syms[f.index.toNat + 1 + n]? = some q) (ht : q.type = .instance) {below : List Frame} {x : Option Nat} (hs : Stk v (below ++ [.inst x])) :
    (execBe h index v).1 ≠ .ok .next := by
  unfold execBe
  have hsi : symByIndex index v = (.ok (index.toNat, f), v) := by
    unfold symByIndex
    rw [M.get_bind, hy]
    rfl
  rw [M.bind_ok hsi]
  dsimp only
  rw [hr.own, hr.stored]
  dsimp only
  have hps : params f v = (.ok (List.range' (f.index.toNat + 1) f.count.toNat), v) := by
    unfold params
    rw [M.get_bind, if_neg (by omega)]
    rfl
  have hpop : ∃ w, popRef v = (.error (.throw .daedalusVm), w) := by
    have hk := take_ok hs
    refine ⟨(popRef v).2, Prod.ext ?_ rfl⟩
    unfold popRef
    rw [M.get_bind, if_neg (sp_ne_zero hs), M.bind_ok hk.1]
    rfl
  obtain ⟨w, hw⟩ := hpop
  have hdef : defaultExternal index.toNat v = (.error (.throw .daedalusVm), w) := by
    unfold defaultExternal
    rw [M.bind_ok (symAt_some hy), M.bind_ok hps, hc, List.range'_1_concat, List.reverse_append]
    show (forM_ defaultPop (_ :: _) >>= _) v = _
    refine M.bind_err ?_
    unfold forM_
    refine M.bind_err ?_
    unfold defaultPop
    rw [M.bind_ok (symAt_some hq), ht]
    exact M.bind_err hw
  have hall : (do defaultExternal index.toNat; hr.tell index.toNat : M Unit) v = (.error (.throw .daedalusVm), w) := M.bind_err hdef
  have hgd : ∃ e w', guarded f.rtype (do defaultExternal index.toNat; hr.tell index.toNat : M Unit) v = (.error e, w') := by
    unfold guarded
    rw [hall]
    dsimp only
    split <;> exact ⟨_, _, rfl⟩
  obtain ⟨e, w', hgd⟩ := hgd
  rw [M.bind_err hgd]
  exact fun h => by cases h

/-- A host that implements nothing. -/
def nobody : Host := { default_ := some fun y => do defaultExternal y; return () }

def nobody_registered (y : Nat) : Registered nobody y := ⟨fun _ => return (), rfl, rfl, fun _ => rfl⟩

namespace Idle

def eSym : Sym := { name := b!"E", type := .function, flags := 11, index := 0, count := 3, rtype := .int }
def tSym : Sym := { type := .string, count := 1, value := .strs [b!"ab"], index := 5 }

/-- `3 + E(7, S, "ab")` where the arguments of `E` have been pushed. `G` gets a function, `H` an instance. -/
def v : Vm where
  syms := [
    eSym,
    { name := b!"E.A", type := .int, index := 1, count := 1, value := .ints (some [some 0]) },
    { name := b!"E.B", type := .string, index := 2, count := 1, value := .strs [[]] },
    { name := b!"E.C", type := .string, index := 3, count := 1, value := .strs [[]] },
    { name := b!"S", type := .string, index := 4, count := 1, value := .strs [b!"x"] },
    tSym,
    { name := b!"G", type := .function, flags := 9, index := 6, count := 1 },
    { name := b!"G.F", type := .function, index := 7, count := 1, value := .ints (some [some 0]) },
    { name := b!"H", type := .function, flags := 9, index := 8, count := 1 },
    { name := b!"H.I", type := .instance, index := 9, count := 1 }]
  tmp := 5
  stack := [some (.int 3), some (.int 7), some (.ref 4 0 none), some (.ref 5 0 none)]
  sp := 4
  free := []

/-- The hypotheses of `c106_call_partial` can be met. -/
example : ∃ w, execBe nobody 0 v = (.ok .next, w) ∧ Stk w [.int 3, .int 0] := by
  obtain ⟨w, rs, h1, h2, h3, -⟩ := c106_call_partial (v := v) (index := 0) (f := eSym) (t := tSym) (a := [b!"ab"]) (live := [(0, b!"ab")]) (live' := [])
    (nobody_registered 0) rfl (by decide) (ts := [.int, .string, .string]) (by decide +kernel) (below := [.int 3])
    (gs := [.int 7, .ref 4 0 none, .ref 5 0 none]) ⟨rfl, by decide, rfl⟩
    (.text (l1 := []) (l2 := []) (by decide) (.var (by decide) rfl (by decide) (.int (.inl rfl) .none)))
    ⟨rfl, rfl, rfl, rfl, rfl, by decide, List.Perm.refl _, by simp⟩ (by decide) (by decide)
  have : rs = [.int 0] := h3
  subst this
  exact ⟨w, h1, h2⟩

/-- `G(F)`: what was pushed for `F` stays. -/
example : execBe nobody 6 { v with stack := [some (.int 3), some (.int 6)], sp := 2 } =
    (.ok .next, { v with stack := [some (.int 3), some (.int 6)], sp := 2 }) :=
  c106_function_violation (nobody_registered 6) rfl (by decide) (by decide +kernel) rfl

/-- `H(Hlp_GetNpc(..))`. -/
example : (execBe nobody 8 { v with stack := [some (.inst none)], sp := 1 }).1 ≠ .ok .next :=
  c106_instance_violation (n := 0) (nobody_registered 8) rfl (by decide) rfl rfl rfl (below := []) ⟨rfl, by decide, rfl⟩

end Idle

end Verif.Props
