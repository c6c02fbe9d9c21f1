import Verif.Lemmas.DaedalusApi

/-!
# Lemmas for calls from the host
-/

namespace Verif.Daedalus

open Verif.Spec.Daedalus

/-! ## Arguments -/

theorem tmp_read {v : Vm} {t : Sym} {a : List Bytes} {live : List (Nat × Bytes)} (h : TmpOk v t a live) {i : Byte} {s : Bytes}
    (hi : (i.toNat, s) ∈ live) (p : Option Nat) : symGetString v.tmp i.toNat p v = (.ok s, v) := by
  have hin : i.toNat < t.count.toNat := h.lt hi
  have hget : ∀ c, t.getString i.toNat c = .ok s := by
    intro c
    unfold Sym.getString
    rw [if_neg (by simp [h.type]), if_neg (by omega), if_neg (by simp [h.member])]
    have := h.content _ hi
    simp only [h.value, this]
  unfold symGetString
  rw [M.bind_ok (symAt_some h.sym), M.get_bind, hget]
  rfl

/-- The argument is on the stack; texts are in a slot in use. -/
def Placed (tmp : Nat) (live : List (Nat × Bytes)) : Frame → Arg → Prop
  | f, .int x => f = .int x
  | f, .bool b => f = .int (if b then 1 else 0)
  | f, .float x => f = .float x
  | f, .inst p => f = .inst p
  | .ref y i _, .str s => y = tmp ∧ (i.toNat, s) ∈ live
  | _, .str _ => False

def PlacedAll (tmp : Nat) (live : List (Nat × Bytes)) : List Frame → List Arg → Prop
  | [], [] => True
  | f :: fs, a :: as => Placed tmp live f a ∧ PlacedAll tmp live fs as
  | _, _ => False

theorem Placed.passed {v : Vm} {t : Sym} {a : List Bytes} {live : List (Nat × Bytes)} (h : TmpOk v t a live) {f : Frame} {x : Arg}
    (hp : Placed v.tmp live f x) : Passed v f x := by
  cases x with
  | str s =>
    cases f with
    | ref y i p =>
      obtain ⟨rfl, hi⟩ := hp
      exact ⟨rfl, tmp_read h hi p⟩
    | _ => exact hp.elim
  | _ => cases f <;> exact hp

theorem PlacedAll.passed {v : Vm} {t : Sym} {a : List Bytes} {live : List (Nat × Bytes)} (h : TmpOk v t a live) {fs : List Frame} :
    ∀ {xs : List Arg}, PlacedAll v.tmp live fs xs → PassedAll v fs xs := by
  induction fs with
  | nil => intro xs hp; cases xs with
    | nil => trivial
    | cons x xs => exact hp.elim
  | cons f fs ih => intro xs hp; cases xs with
    | nil => exact hp.elim
    | cons x xs => exact ⟨Placed.passed h hp.1, ih hp.2⟩

theorem Placed.mono {tmp : Nat} {live live' : List (Nat × Bytes)} (h : ∀ p ∈ live, p ∈ live') {f : Frame} {x : Arg}
    (hp : Placed tmp live f x) : Placed tmp live' f x := by
  cases x with
  | str s =>
    cases f with
    | ref y i p => exact ⟨hp.1, h _ hp.2⟩
    | _ => exact hp.elim
  | _ => cases f <;> exact hp

theorem pushArg_ok {v : Vm} {t : Sym} {a : List Bytes} {live : List (Nat × Bytes)} (h : TmpOk v t a live) (x : Arg)
    (hn : live.length + texts [x] ≤ 243) {fs : List Frame} (hs : Stk v fs) (hl : fs.length < stackSize) :
    ∃ w f t' a' new, pushArg x v = (.ok (), w) ∧ OnlyTmp v w ∧ Stk w (fs ++ [f]) ∧ t'.shape = t.shape ∧
      TmpOk w t' a' (new ++ live) ∧ new.length = texts [x] ∧ Placed v.tmp (new ++ live) f x := by
  have plain : ∀ f : Frame, ∃ w, push f v = (.ok (), w) ∧ OnlyTmp v w ∧ Stk w (fs ++ [f]) ∧ TmpOk w t a live := by
    intro f
    obtain ⟨h1, h2⟩ := push_ok f hs hl
    refine ⟨_, h1, ⟨t, ?_⟩, h2, h.congr rfl rfl rfl⟩
    show _ = ({ v with stack := _, sp := _, free := _, syms := v.syms.set v.tmp t } : Vm)
    rw [set_self h.sym]
  cases x with
  | int x =>
    obtain ⟨w, h1, h2, h3, h4⟩ := plain (.int x)
    exact ⟨w, _, t, a, [], h1, h2, h3, rfl, h4, rfl, rfl⟩
  | bool b =>
    obtain ⟨w, h1, h2, h3, h4⟩ := plain (.int (bool32 b))
    exact ⟨w, _, t, a, [], h1, h2, h3, rfl, h4, rfl, rfl⟩
  | float x =>
    obtain ⟨w, h1, h2, h3, h4⟩ := plain (.float x)
    exact ⟨w, _, t, a, [], h1, h2, h3, rfl, h4, rfl, rfl⟩
  | inst x =>
    obtain ⟨w, h1, h2, h3, h4⟩ := plain (.inst x)
    exact ⟨w, _, t, a, [], h1, h2, h3, rfl, h4, rfl, rfl⟩
  | str s =>
    have hn : live.length + 1 ≤ 243 := hn
    obtain ⟨i, w, t', a', h1, h2, h3, h4, h5⟩ := pushString_ok h (by omega) hs hl s
    exact ⟨w, _, t', a', [(i.toNat, s)], h1, h2, h3, h4, h5, rfl, rfl, by simp⟩

theorem OnlyTmp.trans {u v w : Vm} (h : OnlyTmp u v) (h' : OnlyTmp v w) : OnlyTmp u w := by
  obtain ⟨t, h⟩ := h
  obtain ⟨t', h'⟩ := h'
  refine ⟨t', ?_⟩
  have e1 : v.syms = u.syms.set u.tmp t := by rw [h]
  have e2 : v.tmp = u.tmp := by rw [h]
  rw [h', e1, e2, List.set_set]
  rw [h]

theorem OnlyTmp.tmp {v w : Vm} (h : OnlyTmp v w) : w.tmp = v.tmp := by
  obtain ⟨t, h⟩ := h
  rw [h]

theorem fit_step {v w : Vm} {t t' : Sym} {a a' : List Bytes} {live live' : List (Nat × Bytes)} (h : TmpOk v t a live)
    (ho : OnlyTmp v w) (h' : TmpOk w t' a' live') {ps : List Nat} : ∀ {as : List Arg}, Fit v.syms ps as → Fit w.syms ps as := by
  have hone : ∀ (p : Nat) (s : Sym), v.syms[p]? = some s → ∃ s', w.syms[p]? = some s' ∧ s'.type = s.type := by
    intro p s hp
    by_cases he : p = v.tmp
    · subst he
      have := h'.sym
      rw [ho.tmp] at this
      rw [h.sym] at hp
      cases hp
      exact ⟨t', this, by rw [h'.type, h.type]⟩
    · obtain ⟨z, hz⟩ := ho
      have e1 : w.syms = v.syms.set v.tmp z := by rw [hz]
      exact ⟨s, by rw [e1, List.getElem?_set_ne (by omega)]; exact hp, rfl⟩
  induction ps with
  | nil => intro as hf; cases as with
    | nil => trivial
    | cons a as => exact hf.elim
  | cons p ps ih => intro as hf; cases as with
    | nil => exact hf.elim
    | cons a as =>
      obtain ⟨⟨s, h1, h2⟩, h3⟩ := hf
      obtain ⟨s', h4, h5⟩ := hone p s h1
      exact ⟨⟨s', h4, by rw [h5]; exact h2⟩, ih h3⟩

theorem Fit.length {syms : List Sym} {ps : List Nat} : ∀ {as : List Arg}, Fit syms ps as → ps.length = as.length := by
  induction ps with
  | nil => intro as hf; cases as with
    | nil => rfl
    | cons a as => exact hf.elim
  | cons p ps ih => intro as hf; cases as with
    | nil => exact hf.elim
    | cons a as => rw [List.length_cons, List.length_cons, ih hf.2]

theorem Arg.fits_iff (a : Arg) (t : DType) : a.fits t = true ↔ t ∈ Accepted a := by
  cases a <;> simp [Arg.fits, Accepted]

theorem RType.fits_iff (r : RType) (t : DType) : r.fits t = true ↔ ∀ l, Expected r = some l → t ∈ l := by
  cases r <;> simp [RType.fits, Expected]

/-- What was pushed fits. -/
theorem pushArgs_fit (ps : List Nat) : ∀ {as : List Arg} {v w : Vm}, ps.length = as.length → pushArgs ps as v = (.ok (), w) →
    Fit v.syms ps as := by
  induction ps with
  | nil => intro as v w hl _; cases as with
    | nil => trivial
    | cons a as => cases hl
  | cons p ps ih => intro as v w hl h; cases as with
    | nil => cases hl
    | cons a as =>
      change (symAt p >>= _) v = _ at h
      cases hs : v.syms[p]? with
      | none =>
        have e : symAt p v = (.error .ub, v) := by
          unfold symAt
          rw [M.get_bind, hs]
          rfl
        rw [M.bind_err e] at h
        cases h
      | some s =>
        rw [M.bind_ok (symAt_some hs)] at h
        by_cases hf : a.fits s.type = true
        · rw [if_pos hf] at h
          refine ⟨⟨s, hs, (Arg.fits_iff a _).mp hf⟩, ?_⟩
          cases h1 : pushArg a v with
          | mk r u =>
            cases r with
            | error e => rw [M.bind_err h1] at h; cases h
            | ok x =>
              rw [M.bind_ok h1] at h
              have hfit := ih (by simpa using hl) h
              have hk : Keeps v u := by
                have := Kp.pushArg a v
                unfold KpAt at this
                rw [h1] at this
                exact this
              -- the types are the same in front of it
              have back : ∀ (p' : Nat) (s' : Sym), u.syms[p']? = some s' → ∃ s0, v.syms[p']? = some s0 ∧ s0.type = s'.type := by
                intro p' s' hp'
                cases hv : v.syms[p']? with
                | none =>
                  have := List.getElem?_eq_none_iff.mp hv
                  rw [List.getElem?_eq_none (by rw [hk.len]; exact this)] at hp'
                  cases hp'
                | some s0 =>
                  obtain ⟨s1, h2, h3, -⟩ := hk.decl p' s0 hv
                  rw [hp'] at h2
                  cases h2
                  exact ⟨s0, rfl, (congrArg (·.type) h3).symm⟩
              clear ih hl h
              induction ps generalizing as with
              | nil => cases as with
                | nil => trivial
                | cons a as => exact hfit.elim
              | cons q qs ihq => cases as with
                | nil => exact hfit.elim
                | cons b bs =>
                  obtain ⟨⟨s', k1, k2⟩, k3⟩ := hfit
                  obtain ⟨s0, k4, k5⟩ := back q s' k1
                  exact ⟨⟨s0, k4, by rw [k5]; exact k2⟩, ihq _ k3⟩
        · rw [if_neg hf] at h
          cases h

theorem texts_cons (x : Arg) (as : List Arg) : texts (x :: as) = texts [x] + texts as := by
  cases x <;> simp [texts, Nat.add_comm]

/-- Pushing arguments that fit, with whatever follows. -/
theorem pushArgs_ok (as : List Arg) : ∀ {ps : List Nat} {v : Vm} {t : Sym} {a : List Bytes} {live : List (Nat × Bytes)}
    {fs : List Frame}, TmpOk v t a live → live.length + texts as ≤ 243 → Stk v fs → fs.length + as.length ≤ stackSize →
    Fit v.syms ps as → ∃ w gs t' a' new, (∀ ps' as', pushArgs (ps ++ ps') (as ++ as') v = pushArgs ps' as' w) ∧ OnlyTmp v w ∧
      Stk w (fs ++ gs) ∧ gs.length = as.length ∧ TmpOk w t' a' (new ++ live) ∧ PlacedAll v.tmp (new ++ live) gs as := by
  induction as with
  | nil =>
    intro ps v t a live fs h _ hs _ hf
    cases ps with
    | cons p ps => exact hf.elim
    | nil =>
      refine ⟨v, [], t, a, [], fun _ _ => rfl, ⟨t, ?_⟩, by simpa using hs, rfl, h, trivial⟩
      rw [set_self h.sym]
  | cons x as ih =>
    intro ps v t a live fs h hn hs hl hf
    cases ps with
    | nil => exact hf.elim
    | cons p ps =>
      obtain ⟨⟨s, hsym, hfit⟩, hf⟩ := hf
      rw [texts_cons] at hn
      rw [List.length_cons] at hl
      obtain ⟨w, f, t', a', new, h1, h2, h3, -, h4, h5, h6⟩ := pushArg_ok h x (by omega) hs (by omega)
      obtain ⟨w', gs, t2, a2, new', k1, k2, k3, k4, k5, k6⟩ := ih (v := w) h4 (by rw [List.length_append]; omega) h3
        (by rw [List.length_append, List.length_singleton]; omega) (fit_step h h2 h4 hf)
      refine ⟨w', f :: gs, t2, a2, new' ++ new, fun ps' as' => ?_, h2.trans k2, by simpa using k3, by simp [k4],
        by rw [List.append_assoc]; exact k5, Placed.mono ?_ h6, ?_⟩
      · show (symAt p >>= _) v = _
        rw [M.bind_ok (symAt_some hsym), if_pos ((Arg.fits_iff x _).mpr hfit), M.bind_ok h1]
        exact k1 ps' as'
      · intro q hq
        rw [List.append_assoc]
        exact List.mem_append_right _ hq
      · rw [List.append_assoc, ← h2.tmp]
        exact k6

/-! ## Results -/

theorem ReadOnly.inv {α} {p : M α} (h : ReadOnly p) {v w : Vm} {a : α} (hp : p v = (.ok a, w)) : w = v := by
  rw [h v] at hp
  exact (congrArg Prod.snd hp).symm

theorem SameVars.symm {v w : Vm} (h : SameVars v w) : SameVars w v := ⟨h.syms.symm, h.heap.symm, h.nullOk.symm⟩

theorem popInt_inv {v w : Vm} {fs : List Frame} {f : Frame} {x : BitVec 32} (h : Stk v (fs ++ [f])) (hp : popInt v = (.ok x, w)) :
    IntIn v f x := by
  obtain ⟨u, h1, -, -⟩ := popInt_ok h
  rw [h1] at hp
  have hp : frameInt v f = .ok x := congrArg Prod.fst hp
  cases f with
  | int y =>
    cases hp
    exact .inl rfl
  | ref y i p =>
    refine .inr ⟨y, i, p, rfl, ?_⟩
    rw [ReadOnly.vmGetInt y i p v]
    have : (vmGetInt y i p v).1 = .ok x := hp
    rw [this]
  | float y => cases hp
  | inst y => cases hp

theorem popFloat_inv {v w : Vm} {fs : List Frame} {f : Frame} {x : BitVec 32} (h : Stk v (fs ++ [f]))
    (hp : popFloat v = (.ok x, w)) : FloatIn v f x := by
  have ht := take_ok h
  unfold popFloat at hp
  rw [M.get_bind, if_neg (sp_ne_zero h), M.bind_ok ht.1] at hp
  cases f with
  | int y =>
    cases hp
    exact .inr (.inl rfl)
  | float y =>
    cases hp
    exact .inl rfl
  | ref y i p =>
    refine .inr (.inr ⟨y, i, p, rfl, ?_⟩)
    have hp : vmGetFloat y i p _ = (.ok x, w) := hp
    have hw := ReadOnly.inv (ReadOnly.vmGetFloat y i p) hp
    rw [← hw] at hp
    exact vmGetFloat_same (SameVars.symm (v := v) (by rw [hw]; exact ⟨rfl, rfl, rfl⟩)) hp
  | inst y => cases hp

theorem popInst_inv {v w : Vm} {fs : List Frame} {f : Frame} {x : Option Nat} (h : Stk v (fs ++ [f]))
    (hp : popInst v = (.ok x, w)) : InstIn v f x ∧ SameVars v w := by
  have ht := take_ok h
  unfold popInst at hp
  rw [M.get_bind, if_neg (sp_ne_zero h), M.bind_ok ht.1] at hp
  cases f with
  | int y => cases hp
  | float y => cases hp
  | ref y i p =>
    have hp : symGetInstance y _ = (.ok x, w) := hp
    have hw := ReadOnly.inv (ReadOnly.symGetInstance y) hp
    rw [← hw] at hp
    have hsame : SameVars v w := by rw [hw]; exact ⟨rfl, rfl, rfl⟩
    exact ⟨.inr ⟨y, i, p, rfl, symGetInstance_same hsame.symm hp⟩, hsame⟩
  | inst y =>
    cases hp
    exact ⟨.inl rfl, rfl, rfl, rfl⟩

theorem checkClass_inv {v w : Vm} {t : Nat} {q r : Option Nat} (h : checkClass t q v = (.ok r, w)) : r = q ∧ HasClass v t q := by
  unfold checkClass at h
  cases q with
  | none =>
    cases h
    exact ⟨rfl, .inl rfl⟩
  | some a =>
    dsimp only at h
    rw [M.get_bind] at h
    cases hi : v.heap[a]? with
    | none => rw [hi] at h; cases h
    | some i =>
      rw [hi] at h
      dsimp only at h
      cases hc : i.type with
      | none => rw [hc] at h; cases h
      | some c =>
        rw [hc] at h
        dsimp only at h
        by_cases he : c = t
        · rw [if_pos he] at h
          cases h
          exact ⟨rfl, .inr ⟨a, i, rfl, hi, by rw [hc, he]⟩⟩
        · rw [if_neg he] at h
          cases h

theorem popRef_inv {v w : Vm} {fs : List Frame} {f : Frame} {y : Nat} {i : Byte} {p : Option Nat} (h : Stk v (fs ++ [f]))
    (hp : popRef v = (.ok (y, i, p), w)) : f = .ref y i p ∧ SameVars v w := by
  have ht := take_ok h
  unfold popRef at hp
  rw [M.get_bind, if_neg (sp_ne_zero h), M.bind_ok ht.1] at hp
  cases f with
  | int y => cases hp
  | float y => cases hp
  | inst y => cases hp
  | ref y' i' p' =>
    dsimp only at hp
    obtain ⟨s, u, h1, hq⟩ := M.bind_inv hp
    have e1 := ReadOnly.inv (ReadOnly.symAt y') h1
    obtain ⟨t, u2, h2, hr⟩ := M.bind_inv hq
    have e2 := ReadOnly.inv (ReadOnly.symAt v.tmp) h2
    subst e2
    subst e1
    split at hr
    · cases hr
      exact ⟨rfl, rfl, rfl, rfl⟩
    · cases hr
      exact ⟨rfl, rfl, rfl, rfl⟩

theorem popString_inv {v w : Vm} {fs : List Frame} {f : Frame} {s : Bytes} (h : Stk v (fs ++ [f]))
    (hp : popString v = (.ok s, w)) : TextIn v f s ∨ (v.nullOk = true ∧ s = [] ∧ ∃ y i, f = .ref y i none) := by
  unfold popString at hp
  obtain ⟨⟨y, i, p⟩, u, h1, hq⟩ := M.bind_inv hp
  obtain ⟨rfl, hsame⟩ := popRef_inv h h1
  dsimp only at hq
  obtain ⟨z, u2, h2, hr⟩ := M.bind_inv hq
  have e2 := ReadOnly.inv (ReadOnly.symAt y) h2
  subst e2
  rw [M.get_bind] at hr
  by_cases hm : (z.isMember && p.isNone) = true
  · rw [if_pos hm] at hr
    have hp0 : p = none := by
      rw [Bool.and_eq_true] at hm
      cases p with
      | none => rfl
      | some q => exact absurd hm.2 (by simp)
    by_cases hn : u2.nullOk = true
    · rw [if_pos hn] at hr
      cases hr
      exact .inr ⟨by rw [← hsame.nullOk]; exact hn, rfl, y, i, by rw [hp0]⟩
    · rw [if_neg hn] at hr
      cases hr
  · rw [if_neg hm] at hr
    have hw := ReadOnly.inv (ReadOnly.symGetString y i.toNat p) hr
    subst hw
    exact .inl ⟨y, i, p, rfl, symGetString_same hsame.symm hr⟩

theorem popRet_inv {v w : Vm} {f : Sym} {r : RType} {x : RVal} {fs : List Frame} {g : Frame} (hr : r.fits f.rtype = true)
    (hv : f.rtype ≠ .void) (h : Stk v (fs ++ [g])) (hp : popRet f r v = (.ok x, w)) : Returned v g r x := by
  cases r with
  | ignore =>
    have : x = .none := by
      unfold popRet at hp
      by_cases hh : f.hasReturn = true
      · rw [if_pos hh] at hp
        dsimp only at hp
        rw [M.get_bind] at hp
        cases hp
        rfl
      · rw [if_neg hh] at hp
        cases hp
        rfl
    subst this
    trivial
  | void => exact absurd (by simpa [RType.fits] using hr) hv
  | int =>
    obtain ⟨y, u, h1, hp⟩ := M.bind_inv hp
    cases hp
    exact popInt_inv h h1
  | float =>
    obtain ⟨y, u, h1, hp⟩ := M.bind_inv hp
    cases hp
    exact popFloat_inv h h1
  | str =>
    obtain ⟨y, u, h1, hp⟩ := M.bind_inv hp
    cases hp
    exact popString_inv h h1
  | inst t =>
    obtain ⟨y, u, h1, hp⟩ := M.bind_inv hp
    obtain ⟨z, u2, h2, hp⟩ := M.bind_inv hp
    cases hp
    obtain ⟨h3, h4⟩ := popInst_inv h h1
    obtain ⟨rfl, h5⟩ := checkClass_inv h2
    exact ⟨h3, HasClass.same h4.symm h5⟩
  | func => cases hp

/-! ## The call -/

/-- What there is when `call_function` returns. -/
theorem callFunction_inv {h : Host} {fuel : Nat} {y : Option Nat} {args : List Arg} {r : RType} {v w : Vm} {x : RVal}
    (hc : callFunction h fuel y args r v = (.ok x, w)) :
    ∃ z f u1 u2, y = some z ∧ v.syms[z]? = some f ∧ f.type = .function ∧ f.count.toNat = args.length ∧ r.fits f.rtype = true ∧
      pushArgs (List.range' (f.index.toNat + 1) f.count.toNat) args v = (.ok (), u1) ∧ unsafeCall h fuel z u1 = (.ok (), u2) ∧
      popRet f r u2 = (.ok x, w) := by
  unfold callFunction at hc
  cases y with
  | none => cases hc
  | some z =>
    dsimp only at hc
    obtain ⟨f, u, h1, hd⟩ := M.bind_inv hc
    have e := ReadOnly.inv (ReadOnly.symAt z) h1
    subst e
    have hf : u.syms[z]? = some f := by
      rw [symAt_eq] at h1
      cases hs : u.syms[z]? with
      | none => rw [hs] at h1; cases h1
      | some s => rw [hs] at h1; cases h1; rfl
    by_cases ht : f.type ≠ .function
    · rw [if_pos ht] at hd
      cases hd
    · rw [if_neg ht] at hd
      obtain ⟨ps, u', h2, he⟩ := M.bind_inv hd
      have hps : ps = List.range' (f.index.toNat + 1) f.count.toNat ∧ u' = u := by
        unfold params at h2
        rw [M.get_bind] at h2
        split at h2
        · cases h2
        · cases h2
          exact ⟨rfl, rfl⟩
      obtain ⟨rfl, rfl⟩ := hps
      split at he
      · cases he
      · rename_i hlen
        split at he
        · cases he
        · rename_i hfit
          obtain ⟨_, u1, h3, hg⟩ := M.bind_inv he
          obtain ⟨_, u2, h4, hi⟩ := M.bind_inv hg
          refine ⟨z, f, u1, u2, rfl, hf, Decidable.of_not_not ht, ?_, by simpa using hfit, h3, h4, hi⟩
          simpa using hlen

/-! ## Externals -/

theorem ReadOnly.resolve (fuel : Nat) : ∀ id, ReadOnly (resolve fuel id) := by
  induction fuel with
  | zero => intro id; exact ReadOnly.fail _
  | succ n ih =>
    intro id
    unfold Daedalus.resolve
    refine ReadOnly.get.bind fun v => ?_
    split
    · exact ReadOnly.pure _
    · split
      · exact (ReadOnly.symGetInt _ _ _).bind fun x => ih x
      · split
        · exact ReadOnly.pure _
        · exact ReadOnly.pure _

theorem Kp.popView : Kp popView := by
  unfold Daedalus.popView
  refine Kp.popRef.bind fun ⟨y, i, p⟩ => (Kp.symAt y).bind fun s => Kp.get.bind fun v => ?_
  exact Kp.ite (Kp.ite (Kp.pure _) (Kp.throw _)) ((Kp.ofReadOnly (ReadOnly.symGetString _ _ _)).bind fun _ => Kp.pure _)

theorem Kp.popValue (fuel : Nat) (t : PType) : Kp (popValue fuel t) := by
  cases t with
  | int => exact Kp.popInt.bind fun _ => Kp.pure _
  | bool => exact Kp.popInt.bind fun _ => Kp.pure _
  | float => exact Kp.popFloat.bind fun _ => Kp.pure _
  | str => exact Kp.popView
  | inst t =>
    cases t with
    | none => exact Kp.popInst.bind fun _ => Kp.pure _
    | some t => exact Kp.popInst.bind fun _ => (Kp.ofReadOnly (ReadOnly.checkClass _ _)).bind fun _ => Kp.pure _
  | sym => exact Kp.popRef.bind fun _ => Kp.pure _
  | func => exact Kp.popInt.bind fun _ => (Kp.ofReadOnly (ReadOnly.resolve _ _)).bind fun _ => Kp.pure _

theorem Kp.popValues (fuel : Nat) (ts : List PType) : Kp (popValues fuel ts) := by
  induction ts with
  | nil => exact Kp.pure _
  | cons t ts ih => exact ih.bind fun _ => (Kp.popValue fuel t).bind fun _ => Kp.pure _

theorem Kp.pushValue (r : XVal) : Kp (pushValue r) := by
  cases r with
  | void => exact Kp.pure _
  | int x => exact Kp.push _
  | float x => exact Kp.push _
  | str s => exact Kp.pushString s
  | inst p => exact Kp.push _
  | func y =>
    cases y with
    | none => exact Kp.ub
    | some y => exact (Kp.symAt y).bind fun _ => Kp.push _

theorem Eff.popView (k : Nat) : Eff popView (k + 1) k := by
  unfold Daedalus.popView
  refine (Eff.popRef k).bind fun ⟨y, i, p⟩ => ((Quiet.symAt y).eff k).bind fun s => (Quiet.get.eff k).bind fun v => ?_
  split
  · split
    · exact (Quiet.pure _).eff k
    · exact Eff.throw _ _ _
  · exact ((Quiet.ofReadOnly (ReadOnly.symGetString _ _ _)).eff k).bind fun _ => (Quiet.pure _).eff k

theorem Eff.popValue (fuel : Nat) (t : PType) (k : Nat) : Eff (popValue fuel t) (k + 1) k := by
  cases t with
  | int => exact (Eff.popInt k).bind fun _ => (Quiet.pure _).eff k
  | bool => exact (Eff.popInt k).bind fun _ => (Quiet.pure _).eff k
  | float => exact (Eff.popFloat k).bind fun _ => (Quiet.pure _).eff k
  | str => exact Eff.popView k
  | inst t =>
    cases t with
    | none => exact (Eff.popInst k).bind fun _ => (Quiet.pure _).eff k
    | some t =>
      exact (Eff.popInst k).bind fun _ => ((Quiet.ofReadOnly (ReadOnly.checkClass _ _)).eff k).bind fun _ => (Quiet.pure _).eff k
  | sym => exact (Eff.popRef k).bind fun _ => (Quiet.pure _).eff k
  | func => exact (Eff.popInt k).bind fun _ => ((Quiet.ofReadOnly (ReadOnly.resolve _ _)).eff k).bind fun _ => (Quiet.pure _).eff k

theorem Eff.popValues (fuel : Nat) (ts : List PType) : ∀ k, Eff (popValues fuel ts) (k + ts.length) k := by
  induction ts with
  | nil => intro k; exact (Quiet.pure _).eff k
  | cons t ts ih =>
    intro k
    have h := (ih (k + 1)).bind fun xs => (Eff.popValue fuel t k).bind fun x => (Quiet.pure (x :: xs)).eff k
    rw [List.length_cons, show k + (ts.length + 1) = k + 1 + ts.length by omega]
    exact h

theorem symSetString_slot {v : Vm} {t : Sym} {a : List Bytes} (h1 : v.syms[v.tmp]? = some t) (h2 : t.type = .string)
    (h3 : t.isMember = false) (h4 : t.value = .strs a) (h5 : a.length = t.count.toNat) {i : Nat} (hi : i < a.length) (s : Bytes) :
    symSetString v.tmp s i none v = (.ok (), { v with syms := v.syms.set v.tmp { t with value := .strs (a.set i s) } }) := by
  have hset : t.setString s i none = .ok ({ t with value := .strs (a.set i s) }, none) := by
    unfold Sym.setString
    rw [if_neg (by simp [h2]), if_neg (by omega), if_neg (by simp [h3])]
    simp only [h4]
    rw [if_pos hi]
  unfold symSetString
  rw [M.bind_ok (symAt_some h1), M.get_bind]
  show (M.lift (t.setString s i none) >>= _) v = _
  rw [hset]
  rfl

/-- A text that was popped is overwritten by the next one that is pushed. -/
theorem view_lost {v : Vm} {t : Sym} {a : List Bytes} {live : List (Nat × Bytes)} (h : TmpOk v t a live) {i : Byte} {s : Bytes}
    (hi : (i.toNat, s) ∈ live) {fs : List Frame} {p : Option Nat} (hs : Stk v (fs ++ [.ref v.tmp i p])) (s' : Bytes) :
    ∃ w w', popView v = (.ok (.view v.tmp i p), w) ∧ readView (.view v.tmp i p) w = (.ok s, w) ∧ pushString s' w = (.ok (), w') ∧
      readView (.view v.tmp i p) w' = (.ok s', w') := by
  have hvt : v.tmp < v.syms.length := (List.getElem?_eq_some_iff.mp h.sym).1
  have hr := tmp_read h hi p
  obtain ⟨w, h1, -, h2, h3⟩ := popView_in hs hvt hr
  have hwr := symGetString_same h3.vars hr
  have htmp : w.tmp = v.tmp := by rw [h3]
  -- the slot is the first free one
  have hfree : ∃ rest, w.free = BitVec.ofNat 32 i.toNat :: rest := by
    have ht := take_ok hs
    unfold popView at h1
    obtain ⟨⟨y, j, q⟩, u, hp, hq⟩ := M.bind_inv h1
    unfold popRef at hp
    rw [M.get_bind, if_neg (sp_ne_zero hs), M.bind_ok ht.1] at hp
    dsimp only at hp
    have e : ∀ (st : List (Option Frame)) (n : BitVec 16),
        symAt v.tmp { v with stack := st, sp := n } = (.ok t, { v with stack := st, sp := n }) :=
      fun st n => symAt_some (v := { v with stack := st, sp := n }) h.sym
    rw [M.bind_ok (e _ _), M.bind_ok (e _ _), if_pos rfl] at hp
    have hu : u.free = BitVec.ofNat 32 i.toNat :: v.free := by cases hp; rfl
    dsimp only at hq
    obtain ⟨z, u2, h4, hq2⟩ := M.bind_inv hq
    have e2 := ReadOnly.inv (ReadOnly.symAt y) h4
    subst e2
    rw [M.get_bind] at hq2
    refine ⟨v.free, ?_⟩
    rw [← hu]
    split at hq2
    · split at hq2 <;> cases hq2
    · obtain ⟨b, u3, h5, hq3⟩ := M.bind_inv hq2
      have e3 := ReadOnly.inv (ReadOnly.symGetString _ _ _) h5
      subst e3
      cases hq3
      rfl
  obtain ⟨rest, hfree⟩ := hfree
  have hsym : w.syms[w.tmp]? = some t := by rw [htmp, h3.vars.syms]; exact h.sym
  have hil : i.toNat < a.length := by rw [h.count]; exact h.lt hi
  have hi256 : i.toNat < 256 := i.toNat_lt
  have hnat : (BitVec.ofNat 32 i.toNat).toNat = i.toNat := by rw [BitVec.toNat_ofNat]; omega
  have hmod : (BitVec.ofNat 32 i.toNat).toNat % 65536 = i.toNat := by rw [hnat]; omega
  have hget : getFreeString w = (.ok (BitVec.ofNat 32 i.toNat), { w with free := rest }) := by
    unfold getFreeString
    rw [M.get_bind, hfree]
    rfl
  have hset := symSetString_slot (v := { w with free := rest }) hsym h.type h.member h.value h.count hil s'
  have hlen : fs.length < stackSize := by
    have := hs.2.1
    simp only [List.length_append, List.length_singleton] at this
    omega
  generalize hw2 : ({ w with free := rest, syms := w.syms.set w.tmp { t with value := .strs (a.set i.toNat s') } } : Vm) = w2
  have hs2 : Stk w2 fs := by rw [← hw2]; exact h2.congr rfl rfl
  obtain ⟨p1, p2⟩ := push_ok (.ref w.tmp (UInt8.ofNat (BitVec.ofNat 32 i.toNat).toNat) w2.instance_) hs2 hlen
  refine ⟨w, { w2 with stack := putSlot w2.stack fs.length (.ref w.tmp (UInt8.ofNat (BitVec.ofNat 32 i.toNat).toNat) w2.instance_), sp := w2.sp + 1 },
    h1, hwr, ?_, ?_⟩
  · unfold pushString
    rw [M.bind_ok hget, M.get_bind, hmod]
    have hset' : symSetString ({ w with free := rest } : Vm).tmp s' i.toNat none { w with free := rest } = (.ok (), w2) := by
      rw [hset, ← hw2]
    rw [M.bind_ok hset']
    exact p1
  · show symGetString v.tmp i.toNat p _ = _
    have hsym2 : w2.syms[v.tmp]? = some { t with value := .strs (a.set i.toNat s') } := by
      rw [← hw2]
      show (w.syms.set w.tmp _)[v.tmp]? = _
      rw [htmp, List.getElem?_set_self (by rw [h3.vars.syms]; exact hvt)]
    generalize hw3 : ({ w2 with stack := _, sp := w2.sp + 1 } : Vm) = w3
    have hsym3 : w3.syms[v.tmp]? = some { t with value := .strs (a.set i.toNat s') } := by rw [← hw3]; exact hsym2
    unfold symGetString
    rw [M.bind_ok (symAt_some hsym3), M.get_bind]
    have hg : ∀ c, Sym.getString { t with value := .strs (a.set i.toNat s') } i.toNat c = .ok s' := by
      intro c
      unfold Sym.getString
      have hc : ¬ t.count.toNat ≤ i.toNat := by rw [← h.count]; omega
      rw [if_neg (by simp [h.type]), if_neg hc, if_neg (by intro hm; have := h.member; rw [show t.isMember = true from hm] at this; cases this)]
      have : (a.set i.toNat s')[i.toNat]? = some s' := List.getElem?_set_self hil
      simp only [this]
    rw [hg]
    rfl

/-! ## Results of callbacks -/

theorem pushValue_ok {v : Vm} {t : Sym} {a : List Bytes} {live : List (Nat × Bytes)} (h : TmpOk v t a live)
    (hn : live.length < 243) {fs : List Frame} (hs : Stk v fs) (hl : fs.length < stackSize) {r : XVal} (hr : ∀ y, r ≠ .func y) :
    ∃ w rs, pushValue r v = (.ok (), w) ∧ OnlyTmp v w ∧ Stk w (fs ++ rs) ∧ Pushed w r rs := by
  have plain : ∀ f : Frame, ∃ w, push f v = (.ok (), w) ∧ OnlyTmp v w ∧ Stk w (fs ++ [f]) := by
    intro f
    obtain ⟨h1, h2⟩ := push_ok f hs hl
    refine ⟨_, h1, ⟨t, ?_⟩, h2⟩
    show _ = ({ v with stack := _, sp := _, free := _, syms := v.syms.set v.tmp t } : Vm)
    rw [set_self h.sym]
  cases r with
  | void =>
    refine ⟨v, [], rfl, ⟨t, ?_⟩, by simpa using hs, rfl⟩
    rw [set_self h.sym]
  | int x =>
    obtain ⟨w, h1, h2, h3⟩ := plain (.int x)
    exact ⟨w, _, h1, h2, h3, rfl⟩
  | float x =>
    obtain ⟨w, h1, h2, h3⟩ := plain (.float x)
    exact ⟨w, _, h1, h2, h3, rfl⟩
  | inst x =>
    obtain ⟨w, h1, h2, h3⟩ := plain (.inst x)
    exact ⟨w, _, h1, h2, h3, rfl⟩
  | str s =>
    obtain ⟨i, w, t', a', h1, h2, h3, -, h5⟩ := pushString_ok h hn hs hl s
    refine ⟨w, _, h1, h2, h3, _, rfl, v.tmp, i, v.instance_, rfl, ?_⟩
    have := tmp_read h5 (i := i) (s := s) (by simp) v.instance_
    rw [h2.tmp] at this
    exact this
  | func y => exact absurd rfl (hr y)

theorem Pushed.length {w : Vm} {r : XVal} {rs : List Frame} (h : Pushed w r rs) (hr : ∀ y, r ≠ .func y) :
    rs.length = if r = .void then 0 else 1 := by
  cases r with
  | func y => exact absurd rfl (hr y)
  | str s =>
    obtain ⟨f, rfl, -⟩ := h
    rfl
  | void => rw [show rs = [] from h]; rfl
  | int x => rw [show rs = [.int x] from h]; rfl
  | float x => rw [show rs = [.float x] from h]; rfl
  | inst x => rw [show rs = [.inst x] from h]; rfl

/-- A stack with exactly the results needs no repair. -/
theorem fixStack_exact {c : Call} {f : Sym} {v : Vm} {fs rs : List Frame} (hs : Stk v (fs ++ rs)) (hc : c.sp.toNat = fs.length)
    (hr : rs.length = results f) : fixStack c f v = (.ok (), v) := by
  have hlen := hs.2.1
  have hsp := hs.1
  simp only [List.length_append] at hlen hsp
  have hsz : stackSize = 2048 := rfl
  unfold fixStack
  rw [M.get_bind]
  unfold results at hr
  cases hh : f.hasReturn with
  | false =>
    rw [if_pos (by rfl)]
    rw [hh] at hr
    have : c.sp.setWidth 16 = v.sp := by
      apply BitVec.eq_of_toNat_eq
      rw [BitVec.toNat_setWidth, hc, hsp]
      have : rs.length = 0 := hr
      omega
    rw [setSp_def, this]
  | true =>
    rw [if_neg (by simp)]
    rw [hh] at hr
    have hr1 : rs.length = 1 := hr
    have hrem : (v.sp.setWidth 32 - c.sp).toNat = 1 := by
      rw [BitVec.toNat_sub, BitVec.toNat_setWidth, hc, hsp]
      omega
    rw [if_neg (by intro h0; rw [h0] at hrem; cases hrem), if_neg (by omega)]
    rfl

end Verif.Daedalus
