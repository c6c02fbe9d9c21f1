import Verif.Lemmas.DaedalusEff
import Verif.Spec.DaedalusConst

/-!
# What changes constants
-/

namespace Verif.Daedalus

open Verif.Spec.Daedalus

/-! ## Operations that write no variable -/

/-- An operation that changes no symbol but the temporary strings. -/
def LkAt {α} (v : Vm) (p : M α) : Prop := Keeps v (p v).2 ∧ ∀ z, z ≠ v.tmp → (p v).2.syms[z]? = v.syms[z]?
def Lk {α} (p : M α) : Prop := ∀ v, LkAt v p

theorem LkAt.bind {α β} {v : Vm} {p : M α} {f : α → M β} (hp : LkAt v p) (hf : ∀ a w, p v = (.ok a, w) → LkAt w (f a)) :
    LkAt v (p >>= f) := by
  unfold LkAt at *
  rw [M.bind_def]
  match h : p v with
  | (.ok a, w) =>
    rw [h] at hp
    obtain ⟨h1, h2⟩ := hf a w h
    refine ⟨hp.1.trans h1, fun z hz => ?_⟩
    exact (h2 z (by rw [show w.tmp = v.tmp from hp.1.tmp]; exact hz)).trans (hp.2 z hz)
  | (.error e, w) =>
    rw [h] at hp
    exact hp

theorem Lk.bind {α β} {p : M α} {f : α → M β} (hp : Lk p) (hf : ∀ a, Lk (f a)) : Lk (p >>= f) :=
  fun v => (hp v).bind fun a w _ => hf a w

theorem Lk.of {α} {p : M α} (hk : Kp p) (h : ∀ v, (p v).2.syms = v.syms) : Lk p := fun v => ⟨hk v, fun z _ => by rw [h v]⟩

theorem Lk.ofReadOnly {α} {p : M α} (h : ReadOnly p) : Lk p := Lk.of (Kp.ofReadOnly h) fun v => by rw [h v]

theorem Lk.get : Lk M.get := Lk.ofReadOnly ReadOnly.get
theorem Lk.pure {α} (a : α) : Lk (Pure.pure a : M α) := Lk.ofReadOnly (ReadOnly.pure a)
theorem Lk.fail {α} (e : Fail) : Lk (M.fail e : M α) := Lk.ofReadOnly (ReadOnly.fail e)
theorem Lk.throw {α} (e : Exc) : Lk (M.throw e : M α) := Lk.fail _
theorem Lk.ub {α} : Lk (M.ub : M α) := Lk.fail _
theorem Lk.lift {α} (r : Except Fail α) : Lk (M.lift r) := Lk.ofReadOnly (ReadOnly.lift r)
theorem Lk.symAt (y : Nat) : Lk (symAt y) := Lk.ofReadOnly (ReadOnly.symAt y)

theorem Lk.ite {α} {c : Prop} [Decidable c] {p q : M α} (hp : Lk p) (hq : Lk q) : Lk (if c then p else q) := by
  split
  · exact hp
  · exact hq

theorem Lk.setSp (sp : BitVec 16) : Lk (setSp sp) := Lk.of (Kp.setSp sp) fun _ => rfl
theorem Lk.markFree (i : Byte) : Lk (markFree i) := Lk.of (Kp.markFree i) fun _ => rfl

theorem Lk.stackGet (i : Nat) : Lk (stackGet i) := Lk.of (Kp.stackGet i) fun v => by
  unfold Daedalus.stackGet
  repeat' split
  all_goals rfl

theorem Lk.stackPut (i : Nat) (f : Frame) : Lk (stackPut i f) := Lk.of (Kp.stackPut i f) fun v => by
  unfold Daedalus.stackPut
  split <;> rfl

theorem Lk.push (f : Frame) : Lk (push f) :=
  Lk.get.bind fun _ => Lk.ite (Lk.throw _) ((Lk.stackPut _ _).bind fun _ => Lk.setSp _)

theorem Lk.take : Lk take :=
  Lk.get.bind fun _ => (Lk.setSp _).bind fun _ => (Lk.stackGet _).bind fun _ => (Lk.stackPut _ _).bind fun _ => Lk.pure _

theorem Lk.pushRef (y : Nat) (i : Byte) : Lk (pushRef y i) := Lk.get.bind fun _ => Lk.push _

theorem Lk.getFreeString : Lk getFreeString := by
  intro v
  refine ⟨Kp.getFreeString v, fun z hz => ?_⟩
  unfold Daedalus.getFreeString
  rw [M.get_bind]
  cases v.free with
  | cons i rest => rfl
  | nil =>
    dsimp only
    cases hs : v.syms[v.tmp]? with
    | none =>
      rw [M.bind_err (show Daedalus.symAt v.tmp v = (.error .ub, v) by rw [symAt_eq, hs])]
    | some s =>
      rw [M.bind_ok (symAt_some hs)]
      cases hg : s.grow (s.count * 2) with
      | error e => rw [M.bind_err (show M.lift (.error e : Except Fail Sym) v = (.error e, v) from rfl)]
      | ok s' =>
        rw [M.bind_ok (show M.lift (.ok s' : Except Fail Sym) v = (.ok s', v) from rfl), M.set_bind]
        cases pushRange [] s.count.toNat s'.count.toNat with
        | nil => exact List.getElem?_set_ne (Ne.symm hz)
        | cons i rest => exact List.getElem?_set_ne (Ne.symm hz)

/-- A write changes one symbol only. -/
theorem storeSym_other {y : Nat} {p : Option Nat} {s : Sym} {i : Option Inst} {v : Vm} {z : Nat} (hz : z ≠ y) :
    (storeSym y p s i v).2.syms[z]? = v.syms[z]? := List.getElem?_set_ne (Ne.symm hz)

theorem set_other {y : Nat} {r : Except Fail (Sym × Option Inst)} {p : Option Nat} {v : Vm} {z : Nat} (hz : z ≠ y) :
    ((M.lift r >>= fun q => storeSym y p q.1 q.2) v).2.syms[z]? = v.syms[z]? := by
  cases r with
  | error e => rfl
  | ok q => exact storeSym_other hz

theorem symSetInt_other {y : Nat} (x : BitVec 32) (i : Nat) (p : Option Nat) (v : Vm) {z : Nat} (hz : z ≠ y) :
    (symSetInt y x i p v).2.syms[z]? = v.syms[z]? := by
  unfold symSetInt
  cases hs : v.syms[y]? with
  | none => rw [M.bind_err (show Daedalus.symAt y v = (.error .ub, v) by rw [symAt_eq, hs])]
  | some s =>
    rw [M.bind_ok (symAt_some hs), M.get_bind]
    exact set_other hz

theorem symSetFloat_other {y : Nat} (x : BitVec 32) (i : Nat) (p : Option Nat) (v : Vm) {z : Nat} (hz : z ≠ y) :
    (symSetFloat y x i p v).2.syms[z]? = v.syms[z]? := by
  unfold symSetFloat
  cases hs : v.syms[y]? with
  | none => rw [M.bind_err (show Daedalus.symAt y v = (.error .ub, v) by rw [symAt_eq, hs])]
  | some s =>
    rw [M.bind_ok (symAt_some hs), M.get_bind]
    exact set_other hz

theorem symSetString_other {y : Nat} (x : Bytes) (i : Nat) (p : Option Nat) (v : Vm) {z : Nat} (hz : z ≠ y) :
    (symSetString y x i p v).2.syms[z]? = v.syms[z]? := by
  unfold symSetString
  cases hs : v.syms[y]? with
  | none => rw [M.bind_err (show Daedalus.symAt y v = (.error .ub, v) by rw [symAt_eq, hs])]
  | some s =>
    rw [M.bind_ok (symAt_some hs), M.get_bind]
    exact set_other hz

theorem symSetInstance_other {y : Nat} (q : Option Nat) (v : Vm) {z : Nat} (hz : z ≠ y) :
    (symSetInstance y q v).2.syms[z]? = v.syms[z]? := by
  unfold symSetInstance
  cases hs : v.syms[y]? with
  | none => rw [M.bind_err (show Daedalus.symAt y v = (.error .ub, v) by rw [symAt_eq, hs])]
  | some s =>
    rw [M.bind_ok (symAt_some hs)]
    cases s.setInstance q with
    | error e => rfl
    | ok s' => exact storeSym_other (p := none) (i := none) hz

theorem Lk.pushString (s : Bytes) : Lk (pushString s) := by
  refine Lk.getFreeString.bind fun i v => ?_
  unfold LkAt
  rw [M.get_bind]
  refine LkAt.bind ⟨Kp.symSetString _ _ _ _ v, fun z hz => symSetString_other _ _ _ v hz⟩ fun _ w _ => Lk.pushRef _ _ w

theorem Lk.popInt : Lk popInt := by
  refine Lk.get.bind fun v => Lk.ite (Lk.pure _) (Lk.take.bind fun f => ?_)
  cases f
  · exact Lk.pure _
  · exact Lk.throw _
  · exact Lk.ofReadOnly (ReadOnly.vmGetInt _ _ _)
  · exact Lk.throw _

theorem Lk.popFloat : Lk popFloat := by
  refine Lk.get.bind fun v => Lk.ite (Lk.pure _) (Lk.take.bind fun f => ?_)
  cases f
  · exact Lk.pure _
  · exact Lk.pure _
  · exact Lk.ofReadOnly (ReadOnly.vmGetFloat _ _ _)
  · exact Lk.throw _

theorem Lk.popInst : Lk popInst := by
  refine Lk.get.bind fun v => Lk.ite (Lk.throw _) (Lk.take.bind fun f => ?_)
  cases f
  · exact Lk.throw _
  · exact Lk.throw _
  · exact Lk.ofReadOnly (ReadOnly.symGetInstance _)
  · exact Lk.pure _

theorem Lk.popRef : Lk popRef := by
  refine Lk.get.bind fun v => Lk.ite (Lk.throw _) (Lk.take.bind fun f => ?_)
  cases f
  · exact Lk.throw _
  · exact Lk.throw _
  · refine (Lk.symAt _).bind fun s => (Lk.symAt _).bind fun t => ?_
    dsimp only
    split
    · exact (Lk.markFree _).bind fun _ => Lk.pure _
    · exact Lk.pure _
  · exact Lk.throw _

theorem Lk.popString : Lk popString := by
  refine Lk.popRef.bind fun q => (Lk.symAt _).bind fun s => Lk.get.bind fun v => ?_
  exact Lk.ite (Lk.ite (Lk.pure _) (Lk.throw _)) (Lk.ofReadOnly (ReadOnly.symGetString _ _ _))

theorem Lk.checkConst (y : Nat) : Lk (checkConst y) :=
  (Lk.symAt y).bind fun _ => Lk.get.bind fun _ => Lk.ite (Lk.throw _) (Lk.pure _)

theorem Lk.execBin (op : Op) : Lk (execBin op) :=
  Lk.popInt.bind fun _ => Lk.popInt.bind fun _ => (Lk.lift _).bind fun _ => (Lk.push _).bind fun _ => Lk.pure _

theorem Lk.execUn (op : Op) : Lk (execUn op) :=
  Lk.popInt.bind fun _ => (Lk.lift _).bind fun _ => (Lk.push _).bind fun _ => Lk.pure _

theorem Lk.fix (t : DType) : Lk (fix t) := by
  cases t
  all_goals first
    | exact Lk.push _
    | exact Lk.pushString _
    | exact Lk.pure _

theorem Lk.forM_ {α} {f : α → M Unit} (h : ∀ a, Lk (f a)) (as : List α) : Lk (forM_ f as) := by
  induction as with
  | nil => exact Lk.pure _
  | cons a as ih => exact (h a).bind fun _ => ih

theorem Lk.params (f : Sym) : Lk (params f) := Lk.get.bind fun _ => Lk.ite Lk.ub (Lk.pure _)

theorem Lk.symByIndex (x : BitVec 32) : Lk (symByIndex x) := Lk.get.bind fun v => by
  cases v.syms[x.toNat]? with
  | some s => exact Lk.pure _
  | none => exact Lk.throw _

theorem Lk.saveLocal (y : Nat) : Lk (saveLocal y) := by
  refine (Lk.symAt y).bind fun s => ?_
  split
  · exact Lk.forM_ (fun i => (Lk.ofReadOnly (ReadOnly.symGetFloat _ _ _)).bind fun _ => Lk.push _) _
  · exact Lk.forM_ (fun i => (Lk.ofReadOnly (ReadOnly.symGetInt _ _ _)).bind fun _ => Lk.push _) _
  · exact Lk.forM_ (fun i => (Lk.ofReadOnly (ReadOnly.symGetInt _ _ _)).bind fun _ => Lk.push _) _
  · exact Lk.forM_ (fun i => (Lk.ofReadOnly (ReadOnly.symGetString _ _ _)).bind fun _ => Lk.pushString _) _
  · exact (Lk.ofReadOnly (ReadOnly.symGetInstance _)).bind fun _ => Lk.push _
  · exact Lk.pure _

theorem Lk.moveSlot (i j : Nat) : Lk (moveSlot i j) :=
  (Lk.stackGet _).bind fun _ => Lk.ite (Lk.pure _) ((Lk.stackPut _ _).bind fun _ => Lk.stackPut _ _)

theorem Lk.pushLocals (y : Nat) : Lk (pushLocals y) := by
  refine Lk.get.bind fun v => Lk.ite (Lk.pure _) ((Lk.symAt y).bind fun f => (Lk.params f).bind fun ps => ?_)
  refine Lk.ite (Lk.throw _) (Lk.ite (Lk.throw _) ((Lk.setSp _).bind fun _ => ?_))
  exact (Lk.forM_ (fun i => Lk.moveSlot _ _) _).bind fun _ => (Lk.forM_ Lk.saveLocal _).bind fun _ =>
    Lk.get.bind fun _ => Lk.setSp _

theorem Lk.fixStack (c : Call) (f : Sym) : Lk (fixStack c f) :=
  Lk.get.bind fun _ => Lk.ite (Lk.setSp _) <| Lk.ite (Lk.fix _) <| Lk.ite
    ((Lk.stackGet _).bind fun _ => (Lk.stackPut _ _).bind fun _ => Lk.setSp _) (Lk.pure _)

/-! ## Constants -/

theorem _root_.Verif.Spec.Daedalus.SameConst.refl (v : Vm) : SameConst v v := ⟨Same.refl v, fun _ _ h => h.sym⟩

theorem _root_.Verif.Spec.Daedalus.SameConst.trans {a b c : Vm} (h : SameConst a b) (h' : SameConst b c) : SameConst a c :=
  ⟨h.toSame.trans h'.toSame, fun y s hs => h'.const y s ⟨h.const y s hs, hs.const, hs.type, by rw [h.tmp]; exact hs.tmp⟩⟩

theorem shape_name {s t : Sym} (h : s.shape = t.shape) : s.name = t.name := by have := congrArg Sym.name h; exact this
theorem shape_index {s t : Sym} (h : s.shape = t.shape) : s.index = t.index := by have := congrArg Sym.index h; exact this
theorem shape_isConst {s t : Sym} (h : s.shape = t.shape) : s.isConst = t.isConst := by unfold Sym.isConst; rw [shape_flags h]
theorem shape_hasLocals {s t : Sym} (h : s.shape = t.shape) : s.hasLocals = t.hasLocals := by
  unfold Sym.hasLocals; rw [shape_flags h]

theorem localsEnd_congr {parent : Bytes} {a b : List Sym} (h : a.map Sym.name = b.map Sym.name) (i : Nat) :
    localsEnd parent a i = localsEnd parent b i := by
  induction a generalizing b i with
  | nil =>
    cases b with
    | nil => rfl
    | cons _ _ => cases h
  | cons x xs ih =>
    cases b with
    | nil => cases h
    | cons y ys =>
      simp only [List.map_cons, List.cons.injEq] at h
      unfold localsEnd
      rw [h.1, ih h.2]

theorem Same.names {v w : Vm} (h : Same v w) : w.syms.map Sym.name = v.syms.map Sym.name := by
  apply List.ext_getElem?
  intro i
  rw [List.getElem?_map, List.getElem?_map]
  cases hs : v.syms[i]? with
  | none =>
    have : w.syms[i]? = none := by
      rw [List.getElem?_eq_none_iff] at hs ⊢
      rw [h.len]; exact hs
    rw [this]
  | some s =>
    obtain ⟨s', h1, h2, -⟩ := h.decl i s hs
    rw [h1]
    simp [shape_name h2]

/-- The locals of a function are the same. -/
theorem Same.localsOf {v w : Vm} (h : Same v w) {f f' : Sym} (h1 : f'.shape = f.shape) (h2 : f'.count = f.count) :
    localsOf w f' = localsOf v f := by
  unfold Daedalus.localsOf findLocals
  rw [shape_index h1, h2, shape_name h1]
  dsimp only
  have : ∀ k n, localsEnd f.name (w.syms.drop k) n = localsEnd f.name (v.syms.drop k) n := fun k n =>
    localsEnd_congr (by rw [List.map_drop, List.map_drop, h.names]) n
  rw [this]

theorem _root_.Verif.Spec.Daedalus.Strict.same {v w : Vm} (h : Strict v) (hs : Same v w) : Strict w := by
  refine ⟨by rw [hs.ignoreConst]; exact h.ignore, fun z f' hz hl => ?_⟩
  obtain ⟨f, h1, h2, h3⟩ := hs.symm.decl z f' hz
  obtain ⟨hzt, hloc⟩ := h.locals z f h1 (by rw [shape_hasLocals h2]; exact hl)
  refine ⟨by rw [hs.tmp]; exact hzt, fun l hm s hls => ?_⟩
  have hf := h3 (by rw [hs.tmp]; exact hzt)
  rw [hs.localsOf h2.symm (extent_count hf).symm] at hm
  obtain ⟨t, k1, k2, -⟩ := hs.symm.decl l s hls
  rw [← shape_isConst k2]
  exact hloc l hm t k1

/-- An operation that changes no constant, in a state and in all. -/
def CkAt {α} (v : Vm) (p : M α) : Prop := Strict v → SameConst v (p v).2
def Ck {α} (p : M α) : Prop := ∀ v, CkAt v p

theorem CkAt.bind {α β} {v : Vm} {p : M α} {f : α → M β} (hp : CkAt v p)
    (hf : ∀ a w, p v = (.ok a, w) → Strict v → SameConst v w → CkAt w (f a)) : CkAt v (p >>= f) := by
  intro hs
  have hp := hp hs
  rw [M.bind_def]
  match h : p v with
  | (.ok a, w) =>
    rw [h] at hp
    exact hp.trans (hf a w h hs hp (hs.same hp.toSame))
  | (.error e, w) =>
    rw [h] at hp
    exact hp

theorem Ck.bind {α β} {p : M α} {f : α → M β} (hp : Ck p) (hf : ∀ a, Ck (f a)) : Ck (p >>= f) :=
  fun v => (hp v).bind fun a w _ _ _ => hf a w

theorem LkAt.ck {α} {v : Vm} {p : M α} (h : LkAt v p) : CkAt v p := fun _ =>
  ⟨h.1.toSame, fun y s hs => by rw [h.2 y hs.tmp]; exact hs.sym⟩

theorem Lk.ck {α} {p : M α} (h : Lk p) : Ck p := fun v => (h v).ck

theorem Ck.ite {α} {c : Prop} [Decidable c] {p q : M α} (hp : Ck p) (hq : Ck q) : Ck (if c then p else q) := by
  split
  · exact hp
  · exact hq

/-- Operations that change neither symbols nor settings. -/
theorem Ck.quiet {α} {p : M α} (h : ∀ v, (p v).2.syms = v.syms ∧ (p v).2.text = v.text ∧ (p v).2.tmp = v.tmp ∧
    (p v).2.nullOk = v.nullOk ∧ (p v).2.ignoreConst = v.ignoreConst) : Ck p := by
  intro v _
  obtain ⟨h1, h2, h3, h4, h5⟩ := h v
  exact ⟨⟨h2, h3, h4, h5, by rw [h1], fun y s hs => ⟨s, by rw [h1]; exact hs, rfl, fun _ => rfl⟩⟩,
    fun y s hs => by rw [h1]; exact hs.sym⟩

/-- A write to a symbol that is not a constant. -/
theorem CkAt.write {α} {v : Vm} {p : M α} {y : Nat} (hk : KpAt v p) (h : ∀ z, z ≠ y → (p v).2.syms[z]? = v.syms[z]?)
    (hy : ∀ s, v.syms[y]? = some s → s.isConst = true → s.type = .instance) : CkAt v p := fun _ =>
  ⟨hk.toSame, fun z s hs => by
    by_cases hz : z = y
    · subst z
      exact absurd (hy s hs.sym hs.const) hs.type
    · rw [h z hz]
      exact hs.sym⟩

/-- After the test the symbol is not a constant. -/
theorem checkConst_inv {y : Nat} {v w : Vm} (hs : Strict v) (h : checkConst y v = (.ok (), w)) :
    w = v ∧ ∀ s, v.syms[y]? = some s → s.isConst = false := by
  unfold checkConst at h
  obtain ⟨s, u, h1, h⟩ := M.bind_inv h
  obtain ⟨hy, hw⟩ := symAt_inv h1
  subst u
  rw [M.get_bind, hs.ignore] at h
  cases hc : s.isConst with
  | true => rw [hc] at h; cases h
  | false =>
    rw [hc] at h
    cases h
    refine ⟨rfl, fun t ht => ?_⟩
    rw [hy] at ht
    cases ht
    exact hc

theorem CkAt.checked {α} {v : Vm} {y : Nat} {k : M α}
    (hk : (∀ s, v.syms[y]? = some s → s.isConst = false) → CkAt v k) : CkAt v (checkConst y >>= fun _ => k) := by
  intro hs
  refine ((Lk.checkConst y v).ck).bind (fun a w hw hs' _ => ?_) hs
  obtain ⟨hw', hc⟩ := checkConst_inv hs' (by cases a; exact hw)
  subst w
  exact hk hc

theorem Ck.vmSetInt (y : Nat) (x : BitVec 32) (i : Byte) (p : Option Nat) : Ck (vmSetInt y x i p) := fun v =>
  CkAt.checked fun hc => ((Lk.symAt y v).ck).bind fun s w hw _ _ => by
    obtain ⟨-, hw⟩ := symAt_inv hw
    subst w
    refine ((Lk.get v).ck).bind fun u w hw _ _ => ?_
    cases hw
    split
    · exact CkAt.write (Kp.symSetInt _ _ _ _ _) (fun z hz => symSetInt_other _ _ _ _ hz) fun s hs ht => by rw [hc s hs] at ht; cases ht
    · exact (Lk.pure _ _).ck

theorem Ck.vmSetFloat (y : Nat) (x : BitVec 32) (i : Byte) (p : Option Nat) : Ck (vmSetFloat y x i p) := fun v =>
  CkAt.checked fun hc => ((Lk.symAt y v).ck).bind fun s w hw _ _ => by
    obtain ⟨-, hw⟩ := symAt_inv hw
    subst w
    refine ((Lk.get v).ck).bind fun u w hw _ _ => ?_
    cases hw
    split
    · exact CkAt.write (Kp.symSetFloat _ _ _ _ _) (fun z hz => symSetFloat_other _ _ _ _ hz) fun s hs ht => by rw [hc s hs] at ht; cases ht
    · exact (Lk.pure _ _).ck

theorem Ck.vmSetString (y : Nat) (x : Bytes) (i : Byte) (p : Option Nat) : Ck (vmSetString y x i p) := fun v =>
  CkAt.checked fun hc => ((Lk.symAt y v).ck).bind fun s w hw _ _ => by
    obtain ⟨-, hw⟩ := symAt_inv hw
    subst w
    refine ((Lk.get v).ck).bind fun u w hw _ _ => ?_
    cases hw
    split
    · exact CkAt.write (Kp.symSetString _ _ _ _ _) (fun z hz => symSetString_other _ _ _ _ hz) fun s hs ht => by rw [hc s hs] at ht; cases ht
    · exact (Lk.pure _ _).ck

/-- `set_instance` fails for everything but instances. -/
theorem Ck.symSetInstance (y : Nat) (q : Option Nat) : Ck (symSetInstance y q) := by
  intro v
  cases hs : v.syms[y]? with
  | none =>
    unfold CkAt Daedalus.symSetInstance
    rw [M.bind_err (show Daedalus.symAt y v = (.error .ub, v) by rw [symAt_eq, hs])]
    exact fun _ => SameConst.refl v
  | some s =>
    by_cases ht : s.type = .instance
    · refine CkAt.write (Kp.symSetInstance y q v) (fun z hz => symSetInstance_other q v hz) fun t h1 h2 => ?_
      rw [hs] at h1
      cases h1
      exact ht
    · unfold CkAt Daedalus.symSetInstance
      rw [M.bind_ok (symAt_some hs)]
      have : s.setInstance q = .error (.throw .daedalusType) := by
        unfold Sym.setInstance
        rw [if_pos ht]
      rw [this]
      exact fun _ => SameConst.refl v

theorem Ck.assignOp (op : Op) : Ck (assignOp op) := by
  refine Lk.popRef.ck.bind fun q => Lk.popInt.ck.bind fun value => Ck.ite (Lk.throw _).ck fun v => ?_
  refine CkAt.checked fun hc => ((Lk.symAt _ v).ck).bind fun s w hw _ _ => ?_
  obtain ⟨-, hw⟩ := symAt_inv hw
  subst w
  refine ((Lk.get v).ck).bind fun u w hw _ _ => ?_
  cases hw
  split
  · refine ((Lk.ofReadOnly (ReadOnly.symGetInt _ _ _) v).ck).bind fun x w hw _ _ => ?_
    have : w = v := by
      have := ReadOnly.symGetInt q.1 q.2.1.toNat q.2.2 v
      rw [hw] at this
      exact congrArg Prod.snd this
    subst w
    refine ((Lk.lift _ v).ck).bind fun r w hw _ _ => ?_
    obtain ⟨-, hw⟩ := lift_inv hw
    subst w
    exact CkAt.write (Kp.symSetInt _ _ _ _ _) (fun z hz => symSetInt_other _ _ _ _ hz) fun s hs ht => by rw [hc s hs] at ht; cases ht
  · exact (Lk.pure _ _).ck

/-! ## Locals -/

/-- The symbol is not a constant. -/
def NoConst (y : Nat) (v : Vm) : Prop := ∀ s, v.syms[y]? = some s → s.isConst = false

theorem NoConst.same {y : Nat} {v w : Vm} (h : NoConst y v) (hs : Same v w) : NoConst y w := by
  intro s hw
  obtain ⟨t, h1, h2, -⟩ := hs.symm.decl y s hw
  rw [← shape_isConst h2]
  exact h t h1

theorem CkAt.forM_ {α} {f : α → M Unit} {P : Vm → Prop} (hP : ∀ v w, P v → Same v w → P w) (hf : ∀ a v, P v → CkAt v (f a))
    (as : List α) : ∀ v, P v → CkAt v (forM_ f as) := by
  induction as with
  | nil => intro v _; exact (Lk.pure _ v).ck
  | cons a as ih => intro v hv; exact (hf a v hv).bind fun _ w _ _ hw => ih w (hP v w hv hw.toSame)

theorem CkAt.restoreLocal (y : Nat) (v : Vm) (hy : NoConst y v) : CkAt v (restoreLocal y) := by
  have hn : ∀ v w, NoConst y v → Same v w → NoConst y w := fun v w h hs => h.same hs
  refine ((Lk.symAt y v).ck).bind fun l w hw _ hs => ?_
  have hy := hy.same hs.toSame
  have no : ∀ {v : Vm}, NoConst y v → ∀ s, v.syms[y]? = some s → s.isConst = true → s.type = .instance :=
    fun h s hs ht => by rw [h s hs] at ht; cases ht
  split
  · exact CkAt.forM_ hn (fun i v hv => ((Lk.popFloat v).ck).bind fun _ w _ _ hw =>
      CkAt.write (Kp.symSetFloat _ _ _ _ _) (fun z hz => symSetFloat_other _ _ _ _ hz) (no (hv.same hw.toSame))) _ _ hy
  · exact CkAt.forM_ hn (fun i v hv => ((Lk.popInt v).ck).bind fun _ w _ _ hw =>
      CkAt.write (Kp.symSetInt _ _ _ _ _) (fun z hz => symSetInt_other _ _ _ _ hz) (no (hv.same hw.toSame))) _ _ hy
  · exact CkAt.forM_ hn (fun i v hv => ((Lk.popInt v).ck).bind fun _ w _ _ hw =>
      CkAt.write (Kp.symSetInt _ _ _ _ _) (fun z hz => symSetInt_other _ _ _ _ hz) (no (hv.same hw.toSame))) _ _ hy
  · exact CkAt.forM_ hn (fun i v hv => ((Lk.popString v).ck).bind fun _ w _ _ hw =>
      CkAt.write (Kp.symSetString _ _ _ _ _) (fun z hz => symSetString_other _ _ _ _ hz) (no (hv.same hw.toSame))) _ _ hy
  · exact ((Lk.popInst w).ck).bind fun q w' _ _ hw' =>
      CkAt.write (Kp.symSetInstance _ _ _) (fun z hz => symSetInstance_other _ _ hz) (no (hy.same hw'.toSame))
  · exact (Lk.pure _ _).ck

theorem CkAt.restoreAll (ls : List Nat) : ∀ v, (∀ l ∈ ls, NoConst l v) → CkAt v (Daedalus.forM_ Daedalus.restoreLocal ls) := by
  induction ls with
  | nil => intro v _; exact (Lk.pure _ v).ck
  | cons l ls ih =>
    intro v h
    refine (CkAt.restoreLocal l v (h l (by simp))).bind fun _ w _ _ hw => ih w fun k hk => ?_
    exact (h k (List.mem_cons_of_mem _ hk)).same hw.toSame

theorem Ck.popLocals (y : Nat) (v : Vm) (hl : ∀ f, v.syms[y]? = some f → f.hasLocals = true) : CkAt v (popLocals y) := by
  refine ((Lk.get v).ck).bind fun u w hw _ _ => ?_
  cases hw
  split
  · exact (Lk.pure _ _).ck
  · refine ((Lk.symAt y v).ck).bind fun f w hw hst _ => ?_
    obtain ⟨hf, hw⟩ := symAt_inv hw
    subst w
    have hn : ∀ l ∈ (localsOf v f).reverse, NoConst l v := fun l hm s hs =>
      (hst.locals y f hf (hl f hf)).2 l (List.mem_reverse.mp hm) s hs
    split
    · refine ((Lk.take v).ck).bind fun r w _ _ hw => ?_
      refine (CkAt.restoreAll _ w fun l hm => (hn l hm).same hw.toSame).bind fun _ w' _ _ _ => ?_
      exact ((Lk.get w').ck).bind fun u w'' hw'' _ _ => ((Lk.stackPut _ _ _).ck).bind fun _ w3 _ _ _ => (Lk.setSp _ w3).ck
    · exact CkAt.restoreAll _ v hn

/-! ## Calls and execution -/

theorem Ck.pushCall (y : Nat) : Ck (pushCall y) := by
  refine (Lk.symAt y).ck.bind fun f => ?_
  have hk : Ck (do let ps ← params f; let v ← M.get; M.set { v with calls := ⟨y, v.pc, v.sp.setWidth 32 - BitVec.ofNat 32 ps.length, v.instance_⟩ :: v.calls } : M Unit) :=
    (Lk.params f).ck.bind fun ps => Ck.quiet fun v => by
      rw [M.get_bind]
      exact ⟨rfl, rfl, rfl, rfl, rfl⟩
  split
  · exact (Lk.pushLocals y).ck.bind fun _ => hk
  · exact hk

theorem Ck.popCall : Ck popCall := by
  intro v
  refine ((Lk.get v).ck).bind fun u w hw _ _ => ?_
  cases hw
  cases v.calls with
  | nil => exact (Lk.ub v).ck
  | cons c rest =>
    refine ((Lk.symAt c.fn v).ck).bind fun f w hw _ _ => ?_
    obtain ⟨hf, hw⟩ := symAt_inv hw
    subst w
    refine ((Lk.fixStack c f v).ck).bind fun _ w _ _ hw => ?_
    have hk : ∀ w, CkAt w (do let v ← M.get; M.set { v with pc := c.pc, instance_ := c.ctx, calls := v.calls.tail } : M Unit) :=
      Ck.quiet fun v => by
        rw [M.get_bind]
        exact ⟨rfl, rfl, rfl, rfl, rfl⟩
    split
    · rename_i hl
      refine (Ck.popLocals c.fn w fun g hg => ?_).bind fun _ w' _ _ _ => hk w'
      obtain ⟨f', h1, h2, -⟩ := hw.toSame.decl _ f hf
      rw [hg] at h1
      cases h1
      rw [shape_hasLocals h2]
      exact hl
    · exact hk w

theorem Ck.jump (a : BitVec 32) : Ck (jump a) := Ck.quiet fun v => by
  unfold Daedalus.jump
  rw [M.get_bind]
  split <;> exact ⟨rfl, rfl, rfl, rfl, rfl⟩

theorem Ck.guarded {α} {p : M α} (t : DType) (h : Ck p) : Ck (guarded t p) := by
  intro v hs
  have h1 := h v hs
  unfold Daedalus.guarded
  match hp : p v with
  | (.ok a, w) => rw [hp] at h1; exact h1
  | (.error (.throw e), w) =>
    rw [hp] at h1
    have h2 := (Lk.fix t).ck w (hs.same h1.toSame)
    dsimp only
    match hf : Daedalus.fix t w with
    | (.ok a, u) => rw [hf] at h2; exact h1.trans h2
    | (.error (.throw e), u) => rw [hf] at h2; exact h1.trans h2
    | (.error .ub, u) => rw [hf] at h2; exact h1.trans h2
    | (.error .terminate, u) => rw [hf] at h2; exact h1.trans h2
    | (.error .hang, u) => rw [hf] at h2; exact h1.trans h2
  | (.error .ub, w) => rw [hp] at h1; exact h1
  | (.error .terminate, w) => rw [hp] at h1; exact h1
  | (.error .hang, w) => rw [hp] at h1; exact h1

theorem Ck.ofHost {α} {p : M α} (h : KeepsConst p) : Ck p := h

theorem Ck.pushVar {h : Host} (hb : HostConst h) (y : Nat) (s : Sym) : Ck (pushVar h y s) := by
  unfold Daedalus.pushVar
  match ht : h.trap with
  | some t => exact Ck.ite (Ck.ofHost (hb.trap t y ht)) (Lk.pushRef _ _).ck
  | none => exact (Lk.pushRef _ _).ck

theorem Ck.execBl {h : Host} (hb : HostConst h) {call : Nat → M Unit} (hc : ∀ y, Ck (call y)) (a : BitVec 32) :
    Ck (execBl h call a) := by
  refine Lk.get.ck.bind fun v => ?_
  match ho : h.override_ a with
  | some cb =>
    dsimp only
    cases findByAddress v.syms a with
    | none => exact Lk.ub.ck
    | some y =>
      exact (Lk.symAt y).ck.bind fun s => (Ck.guarded _ (Ck.ofHost (hb.override_ a cb ho))).bind fun _ => (Lk.pure _).ck
  | none =>
    dsimp only
    cases findByAddress v.syms a with
    | none => exact (Lk.throw _).ck
    | some y => exact (hc y).bind fun _ => (Lk.pure _).ck

theorem Ck.execBe {h : Host} (hb : HostConst h) (x : BitVec 32) : Ck (execBe h x) := by
  refine (Lk.symByIndex x).ck.bind fun p => (Ck.guarded _ ?_).bind fun _ => (Lk.pure _).ck
  match he : h.external p.1 with
  | some cb => exact (Ck.pushCall _).bind fun _ => (Ck.ofHost (hb.external _ cb he)).bind fun _ => Ck.popCall
  | none =>
    dsimp only
    match hd : h.default_ with
    | some d => exact Ck.ofHost (hb.default_ d _ hd)
    | none => exact (Lk.throw _).ck

theorem Ck.execOp {h : Host} (hb : HostConst h) {call : Nat → M Unit} (hc : ∀ y, Ck (call y)) (i : Instr) :
    Ck (execOp h call i) := by
  obtain ⟨op, a, y, m, x, sz⟩ := i
  cases op
  case bl => exact Ck.execBl hb hc _
  case be => exact Ck.execBe hb _
  case b => exact (Ck.jump _).bind fun _ => (Lk.pure _).ck
  case bz => exact Lk.popInt.ck.bind fun z => Ck.ite ((Ck.jump _).bind fun _ => (Lk.pure _).ck) (Lk.pure _).ck
  case gmovi =>
    refine (Lk.symByIndex _).ck.bind fun p => (Lk.ofReadOnly (ReadOnly.symGetInstance _)).ck.bind fun q => ?_
    refine Ck.quiet fun v => ?_
    rw [M.get_bind]
    exact ⟨rfl, rfl, rfl, rfl, rfl⟩
  all_goals first
    | exact (Lk.execBin _).ck
    | exact (Lk.execUn _).ck
    | exact (Lk.pure _).ck
    | exact (Lk.throw _).ck
    | exact ((Lk.push _).bind fun _ => Lk.pure _).ck
    | exact (Lk.symByIndex _).ck.bind fun _ => (Ck.pushVar hb _ _).bind fun _ => (Lk.pure _).ck
    | exact ((Lk.symByIndex _).bind fun _ => (Lk.pushRef _ _).bind fun _ => Lk.pure _).ck
    | exact Lk.popRef.ck.bind fun _ => Lk.popInt.ck.bind fun _ => (Ck.vmSetInt _ _ _ _).bind fun _ => (Lk.pure _).ck
    | exact Lk.popRef.ck.bind fun _ => Lk.popFloat.ck.bind fun _ => (Ck.vmSetFloat _ _ _ _).bind fun _ => (Lk.pure _).ck
    | exact Lk.popRef.ck.bind fun _ => Lk.popString.ck.bind fun _ => (Ck.vmSetString _ _ _ _).bind fun _ => (Lk.pure _).ck
    | exact Lk.popRef.ck.bind fun _ => Lk.popInst.ck.bind fun _ => (Ck.symSetInstance _ _).bind fun _ => (Lk.pure _).ck
    | exact (Ck.assignOp _).bind fun _ => (Lk.pure _).ck

theorem Ck.advance (i : Instr) : Ck (advance i) := Ck.quiet fun _ => ⟨rfl, rfl, rfl, rfl, rfl⟩

theorem Ck.fetch : Ck fetch := Ck.quiet fun v => by
  unfold Daedalus.fetch
  split <;> exact ⟨rfl, rfl, rfl, rfl, rfl⟩

theorem Ck.execCatch {h : Host} (hb : HostConst h) (e : Exc) (i : Instr) : Ck (execCatch h e i) := by
  refine Lk.get.ck.bind fun v => ?_
  match hh : h.handler with
  | none => exact (Lk.throw _).ck
  | some hd =>
    refine (Ck.ofHost (hb.handler hd e i hh)).bind fun st => ?_
    cases st with
    | fail => exact (Lk.throw _).ck
    | return_ => exact (Lk.pure _).ck
    | continue_ =>
      refine Lk.get.ck.bind fun v' => ?_
      dsimp only
      split
      · exact (Ck.advance i).bind fun _ => (Lk.pure _).ck
      · exact (Lk.pure _).ck

theorem Ck.exec {h : Host} (hb : HostConst h) {call : Nat → M Unit} (hc : ∀ y, Ck (call y)) : Ck (exec h call) := by
  refine Ck.fetch.bind fun i => ?_
  intro v hs
  have ho := Ck.execOp hb hc i v hs
  unfold execInstr
  match he : Daedalus.execOp h call i v with
  | (.ok .next, u) =>
    rw [he] at ho
    exact ho.trans (((Ck.advance i).bind fun _ => (Lk.pure true).ck) u (hs.same ho.toSame))
  | (.ok .stay, u) => rw [he] at ho; exact ho
  | (.ok .ret, u) => rw [he] at ho; exact ho
  | (.error (.throw e), u) =>
    rw [he] at ho
    dsimp only
    split
    · exact ho.trans (Ck.execCatch hb e i u (hs.same ho.toSame))
    · exact ho
  | (.error .ub, u) => rw [he] at ho; exact ho
  | (.error .terminate, u) => rw [he] at ho; exact ho
  | (.error .hang, u) => rw [he] at ho; exact ho

theorem Ck.loop {step : M Bool} (hs : Ck step) (n : Nat) : Ck (loop step n) := by
  induction n with
  | zero => exact (Lk.fail _).ck
  | succ n ih => exact hs.bind fun b => Ck.ite ih (Lk.pure _).ck

theorem Ck.unsafeCall {h : Host} (hb : HostConst h) (fuel : Nat) : ∀ y, Ck (unsafeCall h fuel y) := by
  induction fuel with
  | zero => intro y; exact (Lk.fail _).ck
  | succ n ih =>
    intro y
    exact (Ck.pushCall y).bind fun _ => (Lk.symAt y).ck.bind fun f => (Ck.jump _).bind fun _ =>
      (Ck.loop (Ck.exec hb ih) n).bind fun _ => Ck.popCall

end Verif.Daedalus
