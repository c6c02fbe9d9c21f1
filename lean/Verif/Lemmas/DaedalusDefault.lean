import Verif.Spec.DaedalusDefault
import Verif.Lemmas.DaedalusApiCall

/-!
# Lemmas about the default external
-/

namespace Verif.Daedalus

open Spec.Daedalus

theorem drops_same {v w : Vm} (h : SameVars v w) (ht : w.tmp = v.tmp) {t : Sym} {fs : List Frame} {ts : List DType} {l l' : List (Nat × Bytes)}
    (hd : Drops v t fs ts l l') : Drops w t fs ts l l' := by
  induction hd with
  | none => exact .none
  | int hx _ ih => exact .int (IntIn.same h hx) ih
  | float hx _ ih => exact .float (FloatIn.same h hx) ih
  | var hk hs hi _ ih => exact .var hk (by rw [h.syms]; exact hs) hi ih
  | text hk _ ih => rw [← ht]; exact .text hk ih

theorem popRef_tmp {v : Vm} {t : Sym} {a : List Bytes} {l1 l2 : List (Nat × Bytes)} {i : Byte} {s : Bytes}
    (h : TmpOk v t a (l1 ++ (i.toNat, s) :: l2)) {fs : List Frame} {p : Option Nat} (hs : Stk v (fs ++ [.ref v.tmp i p])) :
    ∃ w, popRef v = (.ok (v.tmp, i, p), w) ∧ Stk w fs ∧ PopsOnly v w ∧ TmpOk w t a (l1 ++ l2) := by
  have hlt : v.tmp < v.syms.length := (List.getElem?_eq_some_iff.mp h.sym).1
  obtain ⟨w, h1, h2, h3⟩ := popRef_in hs hlt hlt
  obtain ⟨w', k1, -, -, -, k5⟩ := popString_tmp h hs
  have : w' = w := by
    unfold popString at k1
    rw [M.bind_ok h1] at k1
    dsimp only at k1
    refine ReadOnly.inv ?_ k1
    refine ReadOnly.bind (ReadOnly.symAt _) fun s => ReadOnly.bind ReadOnly.get fun v' => ?_
    split
    · split
      · exact ReadOnly.pure _
      · exact ReadOnly.fail _
    · exact ReadOnly.symGetString _ _ _
  exact ⟨w, h1, h2, h3, this ▸ k5⟩

theorem popRef_var {v : Vm} {t s : Sym} {y : Nat} (ht : v.syms[v.tmp]? = some t) (hy : v.syms[y]? = some s) (hi : s.index ≠ t.index) {fs : List Frame} {i : Byte}
    {p : Option Nat} (hs : Stk v (fs ++ [.ref y i p])) :
    ∃ w, popRef v = (.ok (y, i, p), w) ∧ Stk w fs ∧ StackOnly v w := by
  have hk := take_ok hs
  refine ⟨_, ?_, hk.2, rfl⟩
  unfold popRef
  rw [M.get_bind, if_neg (sp_ne_zero hs), M.bind_ok hk.1]
  dsimp only
  have e : ∀ (j : Nat) (x : Sym) (hj : v.syms[j]? = some x) (st : List (Option Frame)) (n : BitVec 16),
      symAt j { v with stack := st, sp := n } = (.ok x, { v with stack := st, sp := n }) :=
    fun j x hj st n => symAt_some (v := { v with stack := st, sp := n }) hj
  rw [M.bind_ok (e y s hy _ _), M.bind_ok (e v.tmp t ht _ _), if_neg hi]
  rfl

theorem popFloat_only {v : Vm} {fs : List Frame} {f : Frame} {x : BitVec 32} (h : Stk v (fs ++ [f])) (hx : FloatIn v f x) :
    ∃ w, popFloat v = (.ok x, w) ∧ Stk w fs ∧ StackOnly v w := by
  have ht := take_ok h
  refine ⟨_, ?_, ht.2, rfl⟩
  unfold popFloat
  rw [M.get_bind, if_neg (sp_ne_zero h), M.bind_ok ht.1]
  rcases hx with rfl | rfl | ⟨y, i, p, rfl, hx⟩
  · rfl
  · rfl
  · show vmGetFloat y i p _ = _
    refine vmGetFloat_same (v := v) ?_ hx
    exact ⟨rfl, rfl, rfl⟩

theorem StackOnly.free {v w : Vm} (h : StackOnly v w) : w.free = v.free := by rw [h]
theorem PopsOnly.tmp_eq {v w : Vm} (h : PopsOnly v w) : w.tmp = v.tmp := by rw [h]

/-- One parameter. -/
theorem defaultPop_ok {v : Vm} {t : Sym} {a : List Bytes} {f : Frame} {k : DType} {l l'' : List (Nat × Bytes)} {fs' : List Frame} {ts' : List DType}
    (hd : Drops v t (f :: fs') (k :: ts') l l'') (ht : TmpOk v t a l) {y : Nat} {s : Sym} (hy : v.syms[y]? = some s) (hk : s.type = k) {fs : List Frame}
    (hs : Stk v (fs ++ [f])) :
    ∃ w l', defaultPop y v = (.ok (), w) ∧ Stk w fs ∧ PopsOnly v w ∧ TmpOk w t a l' ∧ Drops w t fs' ts' l' l'' := by
  unfold defaultPop
  rw [M.bind_ok (symAt_some hy), hk]
  cases hd with
  | int hx hd =>
    obtain ⟨w, h1, h2, h3⟩ := popInt_ok hs
    obtain ⟨w', k1, k2, k3⟩ := popInt_in hs hx
    have hw : w' = w := by rw [h1] at k1; exact (congrArg Prod.snd k1).symm
    subst hw
    refine ⟨w', l, ?_, h2, k3, ht.congr k3.vars.syms k3.tmp_eq h3.free, drops_same k3.vars k3.tmp_eq hd⟩
    dsimp only
    rw [M.bind_ok k1]
    rfl
  | float hx hd =>
    obtain ⟨w, h1, h2, h3⟩ := popFloat_only hs hx
    have k3 := h3.pops
    refine ⟨w, l, ?_, h2, k3, ht.congr k3.vars.syms k3.tmp_eq h3.free, drops_same k3.vars k3.tmp_eq hd⟩
    dsimp only
    rw [M.bind_ok h1]
    rfl
  | var hk' hz hi hd =>
    obtain ⟨w, h1, h2, h3⟩ := popRef_var ht.sym hz hi hs
    have k3 := h3.pops
    refine ⟨w, l, ?_, h2, k3, ht.congr k3.vars.syms k3.tmp_eq h3.free, drops_same k3.vars k3.tmp_eq hd⟩
    simp only [List.mem_cons, List.not_mem_nil, or_false] at hk'
    rcases hk' with rfl | rfl <;> dsimp only <;> rw [M.bind_ok h1] <;> rfl
  | text hk' hd =>
    obtain ⟨w, h1, h2, k3, h4⟩ := popRef_tmp ht hs
    refine ⟨w, _, ?_, h2, k3, h4, drops_same k3.vars k3.tmp_eq hd⟩
    simp only [List.mem_cons, List.not_mem_nil, or_false] at hk'
    rcases hk' with rfl | rfl <;> dsimp only <;> rw [M.bind_ok h1] <;> rfl

/-- All parameters, from the last to the first. -/
theorem defaultPops_ok {v : Vm} {t : Sym} {a : List Bytes} {gs : List Frame} {ts : List DType} {l l' : List (Nat × Bytes)} (hd : Drops v t gs ts l l')
    (ht : TmpOk v t a l) {ps : List Nat} (hp : ps.map (fun y => (v.syms[y]?).map Sym.type) = ts.map some) {below : List Frame}
    (hs : Stk v (below ++ gs.reverse)) :
    ∃ w, forM_ defaultPop ps v = (.ok (), w) ∧ Stk w below ∧ PopsOnly v w ∧ TmpOk w t a l' := by
  induction ps generalizing v gs ts l with
  | nil =>
    cases ts with
    | cons k ts => simp at hp
    | nil => cases hd; exact ⟨v, rfl, by simpa using hs, rfl, ht⟩
  | cons y ps ih =>
    cases ts with
    | nil => simp at hp
    | cons k ts =>
      simp only [List.map_cons, List.cons.injEq, Option.map_eq_some_iff] at hp
      obtain ⟨⟨s, hy, hk⟩, hp⟩ := hp
      cases gs with
      | nil => cases hd
      | cons f gs =>
        rw [List.reverse_cons, ← List.append_assoc] at hs
        obtain ⟨u, l1, h1, h2, h3, h4, h5⟩ := defaultPop_ok hd ht hy hk hs
        obtain ⟨w, k1, k2, k3, k4⟩ := ih h5 h4 (by rw [h3.vars.syms]; exact hp) h2
        refine ⟨w, ?_, k2, h3.trans k3, k4⟩
        unfold forM_
        rw [M.bind_ok h1, k1]

theorem neutral_func (f : Sym) (y : Option Nat) : neutral f ≠ .func y := by
  unfold neutral
  split
  · split <;> exact fun h => by cases h
  · exact fun h => by cases h

theorem defaultExternal_ok {v : Vm} {y : Nat} {f t : Sym} {a : List Bytes} (hy : v.syms[y]? = some f) (hin : f.index.toNat + f.count.toNat + 1 ≤ v.syms.length)
    {below gs : List Frame} {ts : List DType} {l l' : List (Nat × Bytes)}
    (hp : (List.range' (f.index.toNat + 1) f.count.toNat).map (fun y => (v.syms[y]?).map Sym.type) = ts.map some)
    (hd : Drops v t gs.reverse ts.reverse l l') (ht : TmpOk v t a l) (hn : l'.length < 243)
    (hs : Stk v (below ++ gs)) (hl : below.length < stackSize) :
    ∃ w rs, defaultExternal y v = (.ok (), w) ∧ (∃ u, PopsOnly v u ∧ OnlyTmp u w) ∧ Stk w (below ++ rs) ∧ Pushed w (neutral f) rs := by
  obtain ⟨u, h1, h2, h3, h4⟩ := defaultPops_ok (ps := (List.range' (f.index.toNat + 1) f.count.toNat).reverse) hd ht
    (by rw [List.map_reverse, hp, List.map_reverse]) (below := below) (by rw [List.reverse_reverse]; exact hs)
  obtain ⟨w, rs, k1, k2, k3, k4⟩ := pushValue_ok h4 hn h2 hl (neutral_func f)
  refine ⟨w, rs, ?_, ⟨u, h3, k2⟩, k3, k4⟩
  unfold defaultExternal
  have hps : params f v = (.ok (List.range' (f.index.toNat + 1) f.count.toNat), v) := by
    unfold params
    rw [M.get_bind, if_neg (by omega)]
    rfl
  rw [M.bind_ok (symAt_some hy), M.bind_ok hps, M.bind_ok h1, ← k1]
  unfold neutral
  cases hr : f.hasReturn with
  | false => rfl
  | true =>
    simp only [if_true]
    cases f.rtype <;> rfl

end Verif.Daedalus
