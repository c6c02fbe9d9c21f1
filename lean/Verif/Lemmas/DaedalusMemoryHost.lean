import Verif.Lemmas.DaedalusMemoryExec

/-!
# Lemmas about the memory of the machine (C100): functions of the host
-/

namespace Verif.Daedalus

open Verif.Spec.Daedalus

theorem TmAt.checkClass {v : Vm} (hs : Tidy v) (t : Nat) {p : Option Nat} (hp : ∀ a, p = some a → a < v.heap.length) :
    TmAt v (fun _ w => w = v) (checkClass t p) := by
  unfold Daedalus.checkClass
  match p, hp with
  | none, _ => exact TmAt.pure hs rfl
  | some a, hp =>
    have ha := hp a rfl
    have hn : v.heap[a]? = some v.heap[a] := List.getElem?_eq_getElem ha
    refine TmAt.get_bind ?_
    rw [hn]
    dsimp only
    match ht : v.heap[a].type, (hs.objects a _ hn).1 with
    | some c, _ =>
      dsimp only
      split
      · exact TmAt.pure hs rfl
      · exact TmAt.throw hs _

theorem TmAt.popView {v : Vm} (hs : Tidy v) : TmAt v (fun _ w => OneLess v w) popView := by
  unfold Daedalus.popView
  refine (TmAt.popRef hs).bind fun r w _ hw _ _ hr => ?_
  obtain ⟨y, i, p⟩ := r
  obtain ⟨hle, s, h1, h2⟩ := hr
  refine TmAt.symAt_bind h1 (TmAt.get_bind ?_)
  split
  · split
    · exact TmAt.pure hw hle
    · exact TmAt.throw hw _
  · refine (TmAt.symGetString hw (List.getElem?_eq_some_iff.mp h1).1 (.inr i.toNat_lt)).bind fun _ u _ hu _ _ e => ?_
    subst e
    exact TmAt.pure hu hle

theorem TmAt.popValue {v : Vm} (hs : Tidy v) (fuel : Nat) {t : PType} (ht : t ≠ .func) :
    TmAt v (fun _ w => OneLess v w) (popValue fuel t) := by
  match t, ht with
  | .int, _ => exact (TmAt.popInt hs).bind fun _ _ _ hw _ _ h => TmAt.pure hw h
  | .bool, _ => exact (TmAt.popInt hs).bind fun _ _ _ hw _ _ h => TmAt.pure hw h
  | .float, _ => exact (TmAt.popFloat hs).bind fun _ _ _ hw _ _ h => TmAt.pure hw h
  | .str, _ => exact TmAt.popView hs
  | .inst none, _ => exact (TmAt.popInst hs).bind fun _ _ _ hw _ _ h => TmAt.pure hw h.1
  | .inst (some t), _ =>
    refine (TmAt.popInst hs).bind fun p w _ hw _ _ h => ?_
    refine (TmAt.checkClass hw t h.2).bind fun q u _ hu _ _ e => ?_
    subst e
    exact TmAt.pure hu h.1
  | .sym, _ => exact (TmAt.popRef hs).bind fun _ _ _ hw _ _ h => TmAt.pure hw h.1

theorem TmAt.popValues (fuel : Nat) : ∀ (ts : List PType) {v : Vm}, Tidy v → .func ∉ ts →
    TmAt v (fun _ w => v.sp.toNat ≤ w.sp.toNat + ts.length) (popValues fuel ts)
  | [], _, hs, _ => TmAt.pure hs (Nat.le_refl _)
  | t :: ts, v, hs, ht => by
    unfold Daedalus.popValues
    refine (TmAt.popValues fuel ts hs fun h => ht (List.mem_cons_of_mem _ h)).bind fun xs w _ hw _ _ h => ?_
    refine (TmAt.popValue hw fuel fun h => ht (h ▸ List.mem_cons_self)).bind fun x u _ hu _ _ h' => ?_
    refine TmAt.pure hu ?_
    have := h'.2
    rw [List.length_cons]
    omega

theorem TmAt.pushValue {v : Vm} (hs : Tidy v) {r : XVal} (hr : ∀ y, r ≠ .func y) (hp : ∀ a, r = .inst (some a) → a < v.heap.length) :
    TmAt v (fun _ w => v.sp.toNat ≤ w.sp.toNat) (pushValue r) := by
  have key : ∀ {α} {Q : α → Vm → Prop} {p : M α}, TmAt v (fun _ w => OneMore v w) p → TmAt v (fun _ w => v.sp.toNat ≤ w.sp.toNat) p :=
    fun h => h.mono fun _ w _ _ _ _ e => by rw [e]; omega
  match r, hr, hp with
  | .void, _, _ => exact TmAt.pure hs (Nat.le_refl _)
  | .int x, _, _ => exact key (Q := fun _ _ => True) (TmAt.pushInt hs x)
  | .float x, _, _ => exact key (Q := fun _ _ => True) (TmAt.pushFloat hs x)
  | .str x, _, _ => exact key (Q := fun _ _ => True) (TmAt.pushString hs x)
  | .inst p, _, hp => exact key (Q := fun _ _ => True) (TmAt.pushInst hs fun a ha => hp a (by rw [ha]))
  | .func y, hr, _ => exact absurd rfl (hr y)

variable {h : Host}

theorem LvAt.leaves {α} {P : Vm → Prop} {p : M α} {Q : α → Vm → Prop}
    (hp : ∀ v, Good h v → P v → LvAt h v.calls.length v Q p) : Leaves h P p Q := fun v hg hP => hp v hg hP

/-- A function that `register_external` makes. -/
theorem leaves_external {y : Nat} {fuel : Nat} {ts : List PType} {cb : List PVal → M XVal} (ht : .func ∉ ts) (hcb : Polite h cb) :
    Leaves h (Entered · y ts.length) (external fuel ts cb)
      fun _ w => Untouched w := by
  refine LvAt.leaves fun v hg hP => ?_
  obtain ⟨c, rest, h1, h2, h4⟩ := hP
  unfold Daedalus.external
  refine (LvAt.ofTm hg (Nat.le_refl _) (TmAt.popValues fuel ts hg.sound ht)).bind fun xs w _ hw sw hn hq => ?_
  obtain ⟨kw, -, hsp⟩ := hq
  have hcb' := hcb xs w hw
  have hlv : LvAt h v.calls.length w (fun r u => u.calls = w.calls ∧ w.sp.toNat ≤ u.sp.toNat ∧ (∀ y, r ≠ .func y) ∧
      ∀ a, r = .inst (some a) → a < u.heap.length) (cb xs) := by
    unfold LvAt
    match hc : cb xs w with
    | (.ok r, u) =>
      rw [hc] at hcb'
      obtain ⟨k1, k2, k3, k4, k5, k6⟩ := hcb'
      exact ⟨k1, k2, by rw [k3]; exact hn, k3, k4, k5, k6⟩
    | (.error .ub, u) => rw [hc] at hcb'; exact hcb'
    | (.error (.throw e), u) => rw [hc] at hcb'; exact ⟨hcb'.1, hcb'.2.1, Nat.le_trans hn hcb'.2.2⟩
    | (.error .terminate, u) => rw [hc] at hcb'; exact ⟨hcb'.1, hcb'.2.1, Nat.le_trans hn hcb'.2.2⟩
    | (.error .hang, u) => rw [hc] at hcb'; exact ⟨hcb'.1, hcb'.2.1, Nat.le_trans hn hcb'.2.2⟩
  refine hlv.bind fun r u _ hu _ hn' hq => ?_
  obtain ⟨k3, k4, k5, k6⟩ := hq
  refine (LvAt.ofTm hu hn' (TmAt.pushValue hu.sound k5 k6)).mono (Nat.le_refl _) fun _ t _ hq => ?_
  obtain ⟨kt, -, hle⟩ := hq
  intro c' rest' he
  rw [kt.calls, k3, kw.calls, h1] at he
  obtain ⟨rfl, -⟩ := List.cons.inj he
  omega

/-- `register_default_external` without arguments: what is called without being there. -/
theorem leaves_default {y : Nat} : Leaves h (HasParams · y) (defaultExternal y) fun _ _ => True := by
  refine LvAt.leaves fun v hg hP => ?_
  obtain ⟨f, h1, h2⟩ := hP
  refine (LvAt.ofTm hg (Nat.le_refl _) (Q := fun _ _ => True) ?_).mono (Nat.le_refl _) fun _ _ _ _ => trivial
  have hs := hg.sound
  unfold defaultExternal
  refine TmAt.symAt_bind h1 ?_
  have hps : params f v = (.ok (List.range' (f.index.toNat + 1) f.count.toNat), v) := by
    unfold Daedalus.params
    rw [M.get_bind, if_neg (by omega)]
    rfl
  unfold TmAt
  rw [M.bind_ok hps]
  refine (TmAt.bind (Q := fun _ _ => True) ?_ fun _ w _ hw _ _ _ => ?_ : TmAt v _ _)
  · have : ∀ (l : List Nat) {w : Vm}, Tidy w → (∀ z ∈ l, z < w.syms.length) → TmAt w (fun _ _ => True) (forM_ defaultPop l) := by
      intro l
      induction l with
      | nil => exact fun hw _ => TmAt.pure hw trivial
      | cons z l ih =>
        intro w hw hz
        refine TmAt.bind (Q := fun _ _ => True) ?_ fun _ u _ hu ku _ _ => ih hu fun z' hz' => by
          rw [ku.len]; exact hz z' (List.mem_cons_of_mem _ hz')
        unfold defaultPop
        refine TmAt.symAt_bind (List.getElem?_eq_getElem (hz z List.mem_cons_self)) ?_
        split
        · exact (TmAt.popInt hw).bind fun _ _ _ hu _ _ _ => TmAt.pure hu trivial
        · exact (TmAt.popFloat hw).bind fun _ _ _ hu _ _ _ => TmAt.pure hu trivial
        · exact (TmAt.popRef hw).bind fun _ _ _ hu _ _ _ => TmAt.pure hu trivial
        · exact (TmAt.popRef hw).bind fun _ _ _ hu _ _ _ => TmAt.pure hu trivial
        · exact TmAt.pure hw trivial
    refine this _ hs fun z hz => ?_
    rw [List.mem_reverse, List.mem_range'_1] at hz
    omega
  · split
    · split
      · exact (TmAt.pushFloat hw 0).mono fun _ _ _ _ _ _ _ => trivial
      · exact (TmAt.pushInt hw 0).mono fun _ _ _ _ _ _ _ => trivial
      · exact (TmAt.pushString hw []).mono fun _ _ _ _ _ _ _ => trivial
      · exact (TmAt.pushInst (x := none) hw nofun).mono fun _ _ _ _ _ _ _ => trivial
      · exact TmAt.pure hw trivial
    · exact TmAt.pure hw trivial

/-- `lenient_vm_exception_handler`. -/
theorem leaves_lenient {e : Exc} {i : Instr} : Leaves h (fun _ => True) (lenient e i) fun s w => s = .return_ → Untouched w := by
  refine LvAt.leaves fun v hg _ => ?_
  refine (LvAt.ofTm hg (Nat.le_refl _) (Q := fun s _ => s = .continue_) ?_).mono (Nat.le_refl _) fun s _ _ hq he => by
    rw [hq.2.2] at he; cases he
  unfold lenient
  split
  all_goals first
    | exact TmAt.pure hg.sound rfl
    | exact (TmAt.pushInt hg.sound 0).bind fun _ _ _ hw _ _ _ => TmAt.pure hw rfl

end Verif.Daedalus
