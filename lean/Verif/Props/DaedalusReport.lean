import Verif.Lemmas.DaedalusReport
import Verif.Props.DaedalusMemory

/-!
# C102: the report about a failing script
-/

namespace Verif.Props

open Verif.Daedalus Verif.Spec.Daedalus

/-- **C102** — whatever the state of the machine: a report that is printed to its end is complete and true. It names the active functions with
their addresses, every value on the stack, the global variables and the current instance. -/
theorem c102_complete (v : Vm) (lines : List Line) (h : report v = .ok lines) : Complete v lines := report_complete h

/-- **C102**, restricted — printing the report is not undefined: for machines in order (as all those are that C100 speaks of) in which
function variables on the stack hold functions and instances belong to symbols. Missing: other function variables, see the violation. -/
theorem c102_safe_partial (h : Host) (v : Vm) (hg : Good h v) (hT : Traceable v) : report v ≠ .error .ub :=
  report_safe hg.sound (fun c hc => by obtain ⟨⟨f, hf, _⟩, _⟩ := hg.calls c hc; exact ⟨f, hf⟩) hT

/-- **C102**, restricted — the report is printed to its end, and the exception that led to it is raised again in the same machine. Missing:
references to elements that do not exist, among them functions without parameters, see the violations. -/
theorem c102_report_partial (h : Host) (v : Vm) (hg : Good h v) (hT : Traceable v) (hP : Presentable v) :
    ∃ lines, report v = .ok lines ∧ Complete v lines ∧ ∀ {α} (e : Exc), (rethrow e : M α) v = (.error (.throw e), v) := by
  obtain ⟨ls, e⟩ := report_ok hg.sound (fun c hc => by obtain ⟨⟨f, hf, _⟩, _⟩ := hg.calls c hc; exact ⟨f, hf⟩) hT hP
  exact ⟨ls, e, report_complete e, fun x => by unfold rethrow; rw [e]⟩

/-- **C102** — without an exception handler, calls leave the machine with reports in the same state as without and return the same; a call that
fails without reports fails with them, in the same way unless a report itself fails. -/
theorem c102_unchanged (h : Host) (hh : h.handler = none) (fuel : Nat) (y : Nat) (v : Vm) :
    (unsafeCallR h fuel y v).2 = (unsafeCall h fuel y v).2 ∧
      ((unsafeCallR h fuel y v).1 = (unsafeCall h fuel y v).1 ∨
        ∃ e e' w, (unsafeCall h fuel y v).1 = .error e ∧ (unsafeCallR h fuel y v).1 = .error e' ∧ report w = .error e') :=
  Sim.unsafeCall hh fuel y v

/-- **C102** — with a handler that never gives up nothing is reported. -/
theorem c102_handler (h : Host) (hd : Exc → Instr → M Strategy) (hh : h.handler = some hd) (hn : ∀ e i v, (hd e i v).1 ≠ .ok .fail)
    (fuel : Nat) : unsafeCallR h fuel = unsafeCall h fuel := unsafeCallR_eq hh hn fuel

/-- The lenient handler never gives up. -/
theorem lenient_ne_fail (e : Exc) (i : Instr) (v : Vm) : (lenient e i v).1 ≠ .ok .fail := by
  have push : ((do pushInt 0; return .continue_ : M Strategy) v).1 ≠ .ok .fail := by
    show (M.bind _ _ v).1 ≠ _
    unfold M.bind
    split
    · intro h; cases h
    · intro h; cases h
  unfold lenient
  generalize i.op = op
  cases op
  all_goals first | exact push | (intro h; cases h)

example : ∃ (h : Host) (hd : Exc → Instr → M Strategy), h.handler = some hd ∧ ∀ e i v, (hd e i v).1 ≠ .ok .fail := ⟨{ handler := some lenient }, _, rfl, lenient_ne_fail⟩

/-! ### A script that fails while a function is on the stack -/

/-- `MAIN` pushes the function `F`, calls `G`, which divides one by zero. -/
def failingScript : Vm where
  syms := [
    { name := b!"MAIN", type := .function, flags := 1, address := 0, index := 0 },
    { name := b!"F", type := .function, flags := 1, address := 0, index := 1 },
    { name := b!"G", type := .function, flags := 1, address := 11, index := 2 },
    { name := b!"SELF", type := .instance, index := 3, value := .inst none },
    { type := .string, count := 1, value := .strs [[]], index := 4 }]
  tmp := 4
  text :=
    assemble { op := .pushv, symbol := 1, size := 5 } ++ assemble { op := .bl, address := 11, size := 5 } ++ assemble { op := .rsr } ++
    assemble { op := .pushi, immediate := 0, size := 5 } ++ assemble { op := .pushi, immediate := 1, size := 5 } ++
    assemble { op := .div } ++ assemble { op := .rsr }

/-- **C102**, violation — a function without parameters on the stack: the script fails because of a division by zero, but what reaches the
caller is that an index is out of bounds. -/
theorem c102_hidden_violation :
    (unsafeCall {} 10 0 failingScript).1 = .error (.throw .daedalusVm) ∧
    (unsafeCallR {} 10 0 failingScript).1 = .error (.throw .daedalusIndex) := by
  decide +kernel

/-- The same script with a variable on the stack. -/
def reportedScript : Vm := { failingScript with
  syms := failingScript.syms.set 1 { name := b!"F", type := .int, index := 1, count := 1, value := .ints (some [some 7]) } }

-- The failure and what is printed about it.
example : (unsafeCallR {} 10 0 reportedScript).1 = .error (.throw .daedalusVm) ∧
    report (unsafeCallR {} 10 0 reportedScript).2 = .ok [.callHead, .call b!"G" 21, .call b!"MAIN" 5, .stackHead,
      .ref 0 b!"F" 0 (.int 7), .globalHead, .globalNull b!"SELF", .thisNull] := by
  decide +kernel

/-- The function `MAIN` of that script before its first instruction, with the variable on the stack. -/
def reportedState : Vm := { reportedScript with stack := [some (.ref 1 0 none)], sp := 1 }

-- It meets the hypotheses of `c102_report_partial`.
example : Good {} reportedState ∧ Traceable reportedState ∧ Presentable reportedState := by
  have on : ∀ s k, OnStack reportedState s k → k = 0 ∧ reportedState.syms[1]? = some s := by
    rintro s k ⟨i, y, p, hi, hf, hy⟩
    have : i = 0 := by
      have : i < (1 : Nat) := hi
      omega
    subst this
    cases hf
    exact ⟨rfl, hy⟩
  have gl : ∀ s, IsGlobal reportedState s → reportedState.syms[3]? = some s := by
    rintro s ⟨n, hn, y, hf, hy⟩
    have hh : [b!"HERO", b!"SELF", b!"OTHER", b!"VICTIM", b!"ITEM"].all (fun n => (findByName reportedState.syms n).all (· == 3)) = true := by
      decide +kernel
    have := List.all_eq_true.1 hh n hn
    rw [hf] at this
    have : y = 3 := by simpa using this
    rw [← this]
    exact hy
  have fr : Tidy { reportedState with stack := [], sp := 0 } := (tidy_of (by decide +kernel)).1
  refine ⟨⟨⟨fr.stored, fr.temp, fr.objects, fr.held, by decide, ?_, ?_⟩, (fun c hc => by cases hc), callables_of (by decide +kernel) fun _ => rfl⟩,
    ⟨?_, ?_, ?_⟩, ⟨?_, ?_, ?_⟩⟩
  · intro i hi
    have : i = 0 := by
      have : i < (1 : Nat) := hi
      omega
    subst this
    exact ⟨_, rfl⟩
  · intro i f hf
    match i, hf with
    | 0, hf =>
      cases hf
      refine ⟨?_, ?_⟩
      · intro y k p e
        cases e
        exact ⟨_, rfl, by decide⟩
      · intro a e
        cases e
  · intro s k h ht
    cases (on s k h).2
    cases ht
  · intro s p h hp a ha
    cases gl s h
    cases hp
    cases ha
  · intro a ha
    cases ha
  · intro s k h _
    obtain ⟨rfl, h'⟩ := on s k h
    cases h'
    exact ⟨by decide, _, rfl⟩
  · intro s k h ht
    cases (on s k h).2
    cases ht
  · intro s h
    cases gl s h
    exact ⟨rfl, _, rfl⟩

/-- **C102**, violation — a function variable on the stack that holds no function: while the report is printed, a null pointer is
dereferenced. -/
theorem c102_function_violation (v : Vm) (hc : ∀ c ∈ v.calls, ∃ s, v.syms[c.fn]? = some s) (hd : v.sp.toNat ≤ 2048) (i : Nat)
    (hi : i + 1 = v.sp.toNat) (y : Nat) (k : Byte) (p : Option Nat) (hf : v.stack[i]? = some (some (.ref y k p))) (s : Sym)
    (hs : v.syms[y]? = some s) (ht : s.type = .function) (r : BitVec 32) (hr : s.getInt k.toNat (instAt v v.instance_) = .ok r)
    (hn : v.syms.length ≤ r.toNat) {α} (e : Exc) : (rethrow e : M α) v = (.error .ub, v) := by
  have h1 : slotLine v i = .error .ub := by
    unfold slotLine stackGet
    have : ¬ i ≥ stackSize := by unfold stackSize; omega
    rw [if_neg this, hf]
    simp only [hs]
    unfold showRef
    rw [ht]
    simp only [hr]
    rw [List.getElem?_eq_none hn]
    rfl
  obtain ⟨c, h2⟩ := callLines_ok hc v.pc
  have h3 : slotLines v v.sp.toNat = .error .ub := by
    rw [← hi]
    unfold slotLines
    rw [h1]
  have h4 : report v = .error .ub := by
    unfold report
    rw [h2, h3]
    rfl
  unfold rethrow
  rw [h4]

/-- **C102**, violation — a member on the stack while there is no current instance: the report fails, and what reaches the caller is that
there is no context, whatever the error was. -/
theorem c102_member_violation (v : Vm) (hc : ∀ c ∈ v.calls, ∃ s, v.syms[c.fn]? = some s) (hd : v.sp.toNat ≤ 2048) (i : Nat)
    (hi : i + 1 = v.sp.toNat) (y : Nat) (k : Byte) (p : Option Nat) (hf : v.stack[i]? = some (some (.ref y k p))) (s : Sym)
    (hs : v.syms[y]? = some s) (ht : s.type = .int) (hk : k.toNat < s.count.toNat) (hm : s.isMember = true) (hn : v.instance_ = none)
    {α} (e : Exc) : (rethrow e : M α) v = (.error (.throw .daedalusNoContext), v) := by
  have h1 : slotLine v i = .error (.throw .daedalusNoContext) := by
    unfold slotLine stackGet
    have : ¬ i ≥ stackSize := by unfold stackSize; omega
    rw [if_neg this, hf]
    simp only [hs]
    unfold showRef
    rw [ht]
    simp only [hn, instAt]
    unfold Sym.getInt
    rw [if_neg (by simp [ht]), if_neg (by omega), if_pos hm]
    rfl
  obtain ⟨c, h2⟩ := callLines_ok hc v.pc
  have h3 : slotLines v v.sp.toNat = .error (.throw .daedalusNoContext) := by
    rw [← hi]
    unfold slotLines
    rw [h1]
  have h4 : report v = .error (.throw .daedalusNoContext) := by
    unfold report
    rw [h2, h3]
    rfl
  unfold rethrow
  rw [h4]

end Verif.Props
