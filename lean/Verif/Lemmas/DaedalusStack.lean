import Verif.Spec.Daedalus
import Verif.Lemmas.DaedalusVm

/-!
# Histories of stack requests
-/

namespace Verif.Daedalus

open Verif.Spec.Daedalus

/-- Operations that do not change the machine. -/
def ReadOnly {α} (p : M α) : Prop := ∀ v, p v = ((p v).1, v)

theorem ReadOnly.bind {α β} {p : M α} {f : α → M β} (hp : ReadOnly p) (hf : ∀ a, ReadOnly (f a)) :
    ReadOnly (p >>= f) := by
  intro v
  rw [M.bind_def, hp v]
  match h : (p v).1 with
  | .ok a => exact hf a v
  | .error e => rfl

theorem ReadOnly.get : ReadOnly M.get := fun _ => rfl
theorem ReadOnly.lift {α} (r : Except Fail α) : ReadOnly (M.lift r) := fun _ => rfl
theorem ReadOnly.pure {α} (a : α) : ReadOnly (Pure.pure a : M α) := fun _ => rfl
theorem ReadOnly.fail {α} (e : Fail) : ReadOnly (M.fail e : M α) := fun _ => rfl

theorem ReadOnly.symAt (y : Nat) : ReadOnly (symAt y) := by
  intro v
  unfold Daedalus.symAt
  simp only [M.get_bind]
  cases v.syms[y]? <;> rfl

theorem ReadOnly.symGetInt (y i : Nat) (p : Option Nat) : ReadOnly (symGetInt y i p) :=
  (ReadOnly.symAt y).bind fun _ => ReadOnly.get.bind fun _ => ReadOnly.lift _
theorem ReadOnly.symGetFloat (y i : Nat) (p : Option Nat) : ReadOnly (symGetFloat y i p) :=
  (ReadOnly.symAt y).bind fun _ => ReadOnly.get.bind fun _ => ReadOnly.lift _
theorem ReadOnly.symGetString (y i : Nat) (p : Option Nat) : ReadOnly (symGetString y i p) :=
  (ReadOnly.symAt y).bind fun _ => ReadOnly.get.bind fun _ => ReadOnly.lift _
theorem ReadOnly.symGetInstance (y : Nat) : ReadOnly (symGetInstance y) :=
  (ReadOnly.symAt y).bind fun _ => ReadOnly.lift _

theorem ReadOnly.vmGetInt (y : Nat) (i : Byte) (p : Option Nat) : ReadOnly (vmGetInt y i p) := by
  refine (ReadOnly.symAt y).bind fun s => ReadOnly.get.bind fun v => ?_
  split
  · split
    · exact ReadOnly.pure _
    · exact ReadOnly.fail _
  · exact ReadOnly.symGetInt _ _ _

theorem ReadOnly.vmGetFloat (y : Nat) (i : Byte) (p : Option Nat) : ReadOnly (vmGetFloat y i p) := by
  refine (ReadOnly.symAt y).bind fun s => ReadOnly.get.bind fun v => ?_
  split
  · split
    · exact ReadOnly.pure _
    · exact ReadOnly.fail _
  · exact ReadOnly.symGetFloat _ _ _

/-- Machines whose variables are the same. -/
structure SameVars (v w : Vm) : Prop where
  syms : w.syms = v.syms
  heap : w.heap = v.heap
  nullOk : w.nullOk = v.nullOk

theorem symAt_eq (y : Nat) (v : Vm) :
    symAt y v = (match v.syms[y]? with | some s => .ok s | none => .error .ub, v) := by
  unfold symAt
  simp only [M.get_bind]
  cases v.syms[y]? <;> rfl

theorem symAt_some {y : Nat} {v : Vm} {s : Sym} (h : v.syms[y]? = some s) : symAt y v = (.ok s, v) := by
  rw [symAt_eq, h]

theorem SameVars.vmGetInt {v w : Vm} (h : SameVars v w) (y : Nat) (i : Byte) (p : Option Nat) :
    (vmGetInt y i p w).1 = (vmGetInt y i p v).1 := by
  unfold Daedalus.vmGetInt Daedalus.symGetInt
  simp only [M.bind_def, symAt_eq, h.syms]
  cases v.syms[y]? with
  | none => rfl
  | some s =>
    simp only [M.get_def]
    rw [h.nullOk]
    split
    · split <;> rfl
    · simp only [M.bind_def, symAt_eq, h.syms]
      cases v.syms[y]? with
      | none => rfl
      | some s => simp only [M.get_def, M.lift_def, instAt, h.heap]

theorem SameVars.vmGetFloat {v w : Vm} (h : SameVars v w) (y : Nat) (i : Byte) (p : Option Nat) :
    (vmGetFloat y i p w).1 = (vmGetFloat y i p v).1 := by
  unfold Daedalus.vmGetFloat Daedalus.symGetFloat
  simp only [M.bind_def, symAt_eq, h.syms]
  cases v.syms[y]? with
  | none => rfl
  | some s =>
    simp only [M.get_def]
    rw [h.nullOk]
    split
    · split <;> rfl
    · simp only [M.bind_def, symAt_eq, h.syms]
      cases v.syms[y]? with
      | none => rfl
      | some s => simp only [M.get_def, M.lift_def, instAt, h.heap]

theorem SameVars.symGetInstance {v w : Vm} (h : SameVars v w) (y : Nat) :
    (symGetInstance y w).1 = (symGetInstance y v).1 := by
  unfold Daedalus.symGetInstance
  simp only [M.bind_def, symAt_eq, h.syms]
  cases v.syms[y]? with
  | none => rfl
  | some s => rfl

/-- The machine's side of a request. -/
def answer {α} (p : M α) (f : α → Answer) : M Answer := do let a ← p; return f a

def request : StackOp → M Answer
  | .pushInt x => answer (pushInt x) fun _ => .done
  | .pushFloat x => answer (pushFloat x) fun _ => .done
  | .pushInst p => answer (pushInst p) fun _ => .done
  | .pushVar y i => answer (pushRef y i) fun _ => .done
  | .popInt => answer popInt .bits
  | .popFloat => answer popFloat .bits
  | .popInst => answer popInst .inst
  | .popVar => answer popRef fun (y, i, p) => .var y i p

/-- A history: exceptions are caught by the caller, who goes on. -/
def requests : List StackOp → Vm → List (Except Fail Answer) × Vm
  | [], v => ([], v)
  | o :: os, v =>
    let (a, v) := request o v
    let (as, v) := requests os v
    (a :: as, v)

/-- The values of the variables of a machine. -/
def envOf (v : Vm) : Env where
  int y i p := (vmGetInt y i p v).1
  float y i p := (vmGetFloat y i p v).1
  inst y := (symGetInstance y v).1
  current := v.instance_

theorem answer_ok {α} {p : M α} {f : α → Answer} {v v' : Vm} {a : α} (h : p v = (.ok a, v')) :
    answer p f v = (.ok (f a), v') := by
  unfold answer
  rw [M.bind_ok h]
  rfl

theorem answer_err {α} {p : M α} {f : α → Answer} {v v' : Vm} {e : Fail} (h : p v = (.error e, v')) :
    answer p f v = (.error e, v') := by
  unfold answer
  rw [M.bind_err h]

theorem answer_eq {α} {p : M α} {f : α → Answer} {v v' : Vm} {r : Except Fail α} (h : p v = (r, v')) :
    answer p f v = (r.map f, v') := by
  cases r with
  | ok a => exact answer_ok h
  | error e => exact answer_err h

/-- What stays the same in a history of requests, and the frames on the stack, top first. -/
structure StkInv (v0 v : Vm) (items : List Frame) : Prop where
  stk : Stk v items.reverse
  vars : SameVars v0 v
  current : v.instance_ = v0.instance_
  tmp : v.tmp = v0.tmp
  tmpIn : v0.tmp < v0.syms.length
  refs : ∀ y i p, Frame.ref y i p ∈ items → y < v0.syms.length

theorem StkInv.push {v0 v : Vm} {items : List Frame} (h : StkInv v0 v items) (f : Frame) (hr : ∀ y i p, f = .ref y i p → y < v0.syms.length)
    {op : M Answer} (hop : op v = answer (Daedalus.push f) (fun _ => .done) v) :
    ∃ w, op v = ((pushSpec f items).1, w) ∧ StkInv v0 w (pushSpec f items).2 := by
  rw [hop]
  unfold pushSpec
  by_cases hl : items.length = 2048
  · rw [if_pos hl]
    exact ⟨v, answer_err (push_full f h.stk (by simpa [stackSize] using hl)), h⟩
  · rw [if_neg hl]
    have hle := h.stk.2.1
    have hlt : items.reverse.length < stackSize := by
      simp only [List.length_reverse, stackSize] at *
      omega
    have := push_ok f h.stk hlt
    refine ⟨_, answer_ok this.1, ⟨?_, ⟨h.vars.syms, h.vars.heap, h.vars.nullOk⟩, h.current, h.tmp, h.tmpIn, ?_⟩⟩
    · have h2 := this.2
      rwa [← List.reverse_cons] at h2
    · intro y i p hm
      rcases List.mem_cons.mp hm with he | hm
      · exact hr y i p he.symm
      · exact h.refs y i p hm

/-- The state after taking the top frame. -/
theorem StkInv.taken {v0 v : Vm} {f : Frame} {items : List Frame} (h : StkInv v0 v (f :: items)) :
    ∃ w, take v = (.ok f, w) ∧ StkInv v0 w items ∧ ¬ v.sp = 0 ∧ w.tmp = v.tmp := by
  have hs := h.stk
  rw [List.reverse_cons] at hs
  have := take_ok hs
  refine ⟨_, this.1, ⟨this.2, ⟨h.vars.syms, h.vars.heap, h.vars.nullOk⟩, h.current, h.tmp, h.tmpIn, ?_⟩,
    sp_ne_zero hs, rfl⟩
  intro y i p hm
  exact h.refs y i p (List.mem_cons_of_mem _ hm)

theorem StkInv.empty {v0 v : Vm} (h : StkInv v0 v []) : v.sp = 0 := sp_zero h.stk

theorem request_step {v0 v : Vm} {items : List Frame} (h : StkInv v0 v items) (o : StackOp)
    (ho : ∀ y i, o = .pushVar y i → y < v0.syms.length) :
    ∃ w, request o v = ((stackStep (envOf v0) items o).1, w) ∧ StkInv v0 w (stackStep (envOf v0) items o).2 := by
  cases o with
  | pushInt x => exact h.push (.int x) (by intro _ _ _ he; cases he) rfl
  | pushFloat x => exact h.push (.float x) (by intro _ _ _ he; cases he) rfl
  | pushInst x => exact h.push (.inst x) (by intro _ _ _ he; cases he) rfl
  | pushVar y i =>
    refine h.push (.ref y i v0.instance_) (by intro y' _ _ he; cases he; exact ho y i rfl) ?_
    simp only [request, answer, pushRef, M.bind_def, M.get_def, h.current]
  | popInt =>
    cases items with
    | nil =>
      refine ⟨v, ?_, h⟩
      refine answer_ok (v := v) ?_
      unfold popInt
      rw [M.get_bind, if_pos h.empty]
      rfl
    | cons f rest =>
      obtain ⟨w, ht, hw, hne, _⟩ := h.taken
      have hp : popInt v = (match f with
          | .ref y i p => vmGetInt y i p
          | .int x => pure x
          | _ => M.throw .daedalusVm) w := by
        unfold popInt
        rw [M.get_bind, if_neg hne, M.bind_ok ht]
        cases f <;> rfl
      cases f with
      | int x => exact ⟨w, answer_ok hp, hw⟩
      | float x => exact ⟨w, answer_err hp, hw⟩
      | inst x => exact ⟨w, answer_err hp, hw⟩
      | ref y i p =>
        refine ⟨w, ?_, hw⟩
        dsimp only at hp
        rw [ReadOnly.vmGetInt y i p w, hw.vars.vmGetInt] at hp
        exact answer_eq hp
  | popFloat =>
    cases items with
    | nil =>
      refine ⟨v, ?_, h⟩
      refine answer_ok (v := v) ?_
      unfold popFloat
      rw [M.get_bind, if_pos h.empty]
      rfl
    | cons f rest =>
      obtain ⟨w, ht, hw, hne, _⟩ := h.taken
      have hp : popFloat v = (match f with
          | .ref y i p => vmGetFloat y i p
          | .float x => pure x
          | .int x => pure x
          | _ => M.throw .daedalusVm) w := by
        unfold popFloat
        rw [M.get_bind, if_neg hne, M.bind_ok ht]
        cases f <;> rfl
      cases f with
      | int x => exact ⟨w, answer_ok hp, hw⟩
      | float x => exact ⟨w, answer_ok hp, hw⟩
      | inst x => exact ⟨w, answer_err hp, hw⟩
      | ref y i p =>
        refine ⟨w, ?_, hw⟩
        dsimp only at hp
        rw [ReadOnly.vmGetFloat y i p w, hw.vars.vmGetFloat] at hp
        exact answer_eq hp
  | popInst =>
    cases items with
    | nil =>
      refine ⟨v, ?_, h⟩
      refine answer_err (v := v) ?_
      unfold popInst
      rw [M.get_bind, if_pos h.empty]
      rfl
    | cons f rest =>
      obtain ⟨w, ht, hw, hne, _⟩ := h.taken
      have hp : popInst v = (match f with
          | .ref y _ _ => symGetInstance y
          | .inst p => pure p
          | _ => M.throw .daedalusVm) w := by
        unfold popInst
        rw [M.get_bind, if_neg hne, M.bind_ok ht]
        cases f <;> rfl
      cases f with
      | int x => exact ⟨w, answer_err hp, hw⟩
      | float x => exact ⟨w, answer_err hp, hw⟩
      | inst x => exact ⟨w, answer_ok hp, hw⟩
      | ref y i p =>
        refine ⟨w, ?_, hw⟩
        dsimp only at hp
        rw [ReadOnly.symGetInstance y w, hw.vars.symGetInstance] at hp
        exact answer_eq hp
  | popVar =>
    cases items with
    | nil =>
      refine ⟨v, ?_, h⟩
      refine answer_err (v := v) ?_
      unfold popRef
      rw [M.get_bind, if_pos h.empty]
      rfl
    | cons f rest =>
      obtain ⟨w, ht, hw, hne, htmp⟩ := h.taken
      cases f with
      | int x =>
        exact ⟨w, answer_err (by unfold popRef; rw [M.get_bind, if_neg hne, M.bind_ok ht]; rfl), hw⟩
      | float x =>
        exact ⟨w, answer_err (by unfold popRef; rw [M.get_bind, if_neg hne, M.bind_ok ht]; rfl), hw⟩
      | inst x =>
        exact ⟨w, answer_err (by unfold popRef; rw [M.get_bind, if_neg hne, M.bind_ok ht]; rfl), hw⟩
      | ref y i p =>
        have hy : y < w.syms.length := by rw [hw.vars.syms]; exact h.refs y i p (List.mem_cons_self)
        have ht' : v.tmp < w.syms.length := by rw [hw.vars.syms, h.tmp]; exact h.tmpIn
        have key : popRef v = (do
            if w.syms[y].index = w.syms[v.tmp].index then markFree i
            return (y, i, p) : M _) w := by
          unfold popRef
          rw [M.get_bind, if_neg hne, M.bind_ok ht]
          dsimp only
          rw [M.bind_ok (symAt_some (List.getElem?_eq_getElem hy)), M.bind_ok (symAt_some (List.getElem?_eq_getElem ht'))]
        by_cases hc : w.syms[y].index = w.syms[v.tmp].index
        · rw [if_pos hc] at key
          refine ⟨{ w with free := BitVec.ofNat 32 i.toNat :: w.free }, answer_ok (a := (y, i, p)) key, ?_⟩
          exact ⟨hw.stk.congr rfl rfl, ⟨hw.vars.syms, hw.vars.heap, hw.vars.nullOk⟩, hw.current, hw.tmp, hw.tmpIn, hw.refs⟩
        · rw [if_neg hc] at key
          exact ⟨w, answer_ok (a := (y, i, p)) key, hw⟩

theorem requests_run {v0 : Vm} (ops : List StackOp) (hops : ∀ y i, .pushVar y i ∈ ops → y < v0.syms.length) {v : Vm}
    {items : List Frame} (h : StkInv v0 v items) :
    ∃ w, requests ops v = ((stackRun (envOf v0) items ops).1, w) ∧ StkInv v0 w (stackRun (envOf v0) items ops).2 := by
  induction ops generalizing v items with
  | nil => exact ⟨v, rfl, h⟩
  | cons o os ih =>
    obtain ⟨w, h1, h2⟩ := request_step h o (by intro y i he; exact hops y i (he ▸ List.mem_cons_self))
    obtain ⟨u, h3, h4⟩ := ih (fun y i hm => hops y i (List.mem_cons_of_mem _ hm)) h2
    refine ⟨u, ?_, h4⟩
    simp only [requests, stackRun, h1, h3]

end Verif.Daedalus
