import Verif.Lemmas.DaedalusDefault
import Verif.Props.DaedalusCall

/-!
# Going on after an error (C107)
-/

namespace Verif.Props

open Verif.Daedalus Verif.Spec.Daedalus

/-- A host with the lenient handler and nothing else said. -/
def Forgiving (h : Host) : Prop := h.handler = some lenient

/-- What the machine looks like behind an instruction that failed: it goes on with the next one, the stack holds these values, and no variable, no instance, no active call
and not the current instance changed. -/
structure Skipped (v w : Vm) (i : Instr) (fs : List Frame) : Prop where
  stack : Stk w fs
  pc : w.pc = v.pc + BitVec.ofNat 32 i.size
  vars : SameVars v w
  calls : w.calls = v.calls
  self : w.instance_ = v.instance_

/-- Instructions that leave a value. -/
def leaves (i : Instr) : Prop := i.op ∈ binaryOps ∨ i.op ∈ unaryOps ∨ i.op = .pushi ∨ i.op = .pushv ∨ i.op = .pushvi ∨ i.op = .pushvv

theorem lenient_pops (e : Exc) (i : Instr) {v : Vm} {fs : List Frame} (hs : Stk v fs) (hl : fs.length < stackSize) :
    ∃ w, lenient e i v = (.ok .continue_, w) ∧ PopsOnly v w ∧ (leaves i → Stk w (fs ++ [.int 0])) ∧ (¬ leaves i → Stk w fs) := by
  obtain ⟨p1, p2⟩ := push_ok (.int 0) hs hl
  have hp : (do pushInt 0; return Strategy.continue_ : M Strategy) v =
      (.ok .continue_, { v with stack := putSlot v.stack fs.length (.int 0), sp := v.sp + 1 }) := by
    rw [M.bind_ok (show pushInt 0 v = _ from p1)]
    rfl
  unfold lenient leaves
  cases hop : i.op
  all_goals first
    | exact ⟨_, hp, rfl, fun _ => p2, fun h => absurd (by decide) h⟩
    | exact ⟨v, rfl, rfl, fun h => absurd h (by simp [binaryOps, unaryOps]), fun _ => hs⟩

theorem skips {h : Host} (hh : Forgiving h) {call : Nat → M Unit} {i : Instr} {v u : Vm} {e : Exc} (hx : execOp h call i v = (.error (.throw e), u))
    (he : isScriptError e = true) (hu : PopsOnly v u) {fs : List Frame} (hs : Stk u fs) (hl : fs.length < stackSize) :
    ∃ w, execInstr h call i v = (.ok true, w) ∧ (leaves i → Skipped v w i (fs ++ [.int 0])) ∧ (¬ leaves i → Skipped v w i fs) := by
  obtain ⟨w, h1, h2, h3, h4⟩ := lenient_pops e i hs hl
  have hv := hu.trans h2
  refine ⟨{ w with pc := w.pc + BitVec.ofNat 32 i.size }, ?_, ?_⟩
  · unfold execInstr
    rw [hx]
    dsimp only
    rw [if_pos he]
    unfold execCatch
    rw [M.get_bind, hh]
    dsimp only
    rw [M.bind_ok h1]
    dsimp only
    rw [M.get_bind, if_pos (by rw [h2])]
    rfl
  · have all : ∀ gs, Stk w gs → Skipped v { w with pc := w.pc + BitVec.ofNat 32 i.size } i gs := by
      intro gs hg
      refine ⟨hg.congr rfl rfl, ?_, ⟨hv.vars.syms, hv.vars.heap, hv.vars.nullOk⟩, ?_, ?_⟩
      · show w.pc + _ = _
        rw [hv]
      · show w.calls = _
        rw [hv]
      · show w.instance_ = _
        rw [hv]
    exact ⟨fun hl => all _ (h3 hl), fun hl => all _ (h4 hl)⟩

/-- The operators of assignments with numbers. -/
def numberAssigns : List Op := [.movi, .movvf, .addmovi, .submovi, .mulmovi, .divmovi]

theorem checkConst_fails {v : Vm} {y : Nat} {s : Sym} (hy : v.syms[y]? = some s) (hc : s.isConst = true) (hi : v.ignoreConst = false) :
    checkConst y v = (.error (.throw .daedalusConst), v) := by
  unfold checkConst
  rw [M.bind_ok (symAt_some hy), M.get_bind, hc, hi]
  rfl

theorem room {v : Vm} {fs : List Frame} {f : Frame} {gs : List Frame} (hs : Stk v (fs ++ f :: gs)) : fs.length < stackSize := by
  have := hs.2.1
  simp only [List.length_append, List.length_cons] at this
  omega

/-- **C107** — assigning a number to a constant, by any of the operators: both operands are gone, nothing changes, the script goes on. -/
theorem c107_constant {h : Host} (hh : Forgiving h) (call : Nat → M Unit) {i : Instr} (hop : i.op ∈ numberAssigns) {v : Vm} {fs : List Frame} {g : Frame}
    {y : Nat} {k : Byte} {p : Option Nat} {x : BitVec 32} (hs : Stk v (fs ++ [g, .ref y k p])) (hx : IntIn v g x) {s : Sym} (hy : v.syms[y]? = some s)
    (ht : v.tmp < v.syms.length) (hc : s.isConst = true) (hi : v.ignoreConst = false) :
    ∃ w, execInstr h call i v = (.ok true, w) ∧ Skipped v w i fs := by
  have hs' : Stk v ((fs ++ [g]) ++ [.ref y k p]) := by rw [List.append_assoc]; exact hs
  obtain ⟨u1, a1, a2, a3⟩ := popRef_in hs' (List.getElem?_eq_some_iff.mp hy).1 ht
  obtain ⟨u2, b1, b2, b3⟩ := popInt_in a2 (IntIn.same a3.vars hx)
  have hu := a3.trans b3
  have hk : checkConst y u2 = (.error (.throw .daedalusConst), u2) :=
    checkConst_fails (by rw [hu.vars.syms]; exact hy) hc (by rw [hu]; exact hi)
  have hl : ¬ leaves i := by
    simp only [numberAssigns, List.mem_cons, List.not_mem_nil, or_false] at hop
    rcases hop with hop | hop | hop | hop | hop | hop <;> simp [leaves, hop, binaryOps, unaryOps]
  have set : (do vmSetInt y x k p; return Step.next : M Step) u2 = (.error (.throw .daedalusConst), u2) := by
    refine M.bind_err ?_
    unfold vmSetInt
    exact M.bind_err hk
  have asg : ∀ op, ∃ e, isScriptError e = true ∧ (do assignOp op; return Step.next : M Step) v = (.error (.throw e), u2) := by
    intro op
    by_cases hz : op = .div ∧ x = 0
    · refine ⟨.daedalusVm, rfl, M.bind_err ?_⟩
      unfold assignOp
      rw [M.bind_ok a1]
      dsimp only
      rw [M.bind_ok b1, if_pos hz]
      rfl
    · refine ⟨.daedalusConst, rfl, M.bind_err ?_⟩
      unfold assignOp
      rw [M.bind_ok a1]
      dsimp only
      rw [M.bind_ok b1, if_neg hz]
      exact M.bind_err hk
  have : ∃ e, isScriptError e = true ∧ execOp h call i v = (.error (.throw e), u2) := by
    simp only [numberAssigns, List.mem_cons, List.not_mem_nil, or_false] at hop
    unfold execOp
    rcases hop with hop | hop | hop | hop | hop | hop <;> rw [hop] <;> dsimp only
    · refine ⟨.daedalusConst, rfl, ?_⟩
      rw [M.bind_ok a1]
      dsimp only
      rw [M.bind_ok b1]
      exact set
    · refine ⟨.daedalusConst, rfl, ?_⟩
      rw [M.bind_ok a1]
      dsimp only
      rw [M.bind_ok b1]
      exact set
    · exact asg .add
    · exact asg .sub
    · exact asg .mul
    · exact asg .div
  obtain ⟨e, he, hx⟩ := this
  obtain ⟨w, h1, -, h2⟩ := skips hh hx he hu b2 (room hs)
  exact ⟨w, h1, h2 hl⟩

/-- A value that cannot be read as a number: a member without an instance, a variable of another type or out of range, an instance. -/
def Unreadable (v : Vm) (g : Frame) : Prop := ∃ e, isScriptError e = true ∧ frameInt v g = .error (.throw e)

/-- **C107** — an assignment of a number that cannot be read: both operands are gone, nothing changes, the script goes on. -/
theorem c107_value {h : Host} (hh : Forgiving h) (call : Nat → M Unit) {i : Instr} (hop : i.op ∈ numberAssigns) {v : Vm} {fs : List Frame} {g : Frame}
    {y : Nat} {k : Byte} {p : Option Nat} (hs : Stk v (fs ++ [g, .ref y k p])) (hx : Unreadable v g) (hy : y < v.syms.length) (ht : v.tmp < v.syms.length) :
    ∃ w, execInstr h call i v = (.ok true, w) ∧ Skipped v w i fs := by
  have hs' : Stk v ((fs ++ [g]) ++ [.ref y k p]) := by rw [List.append_assoc]; exact hs
  obtain ⟨u1, a1, a2, a3⟩ := popRef_in hs' hy ht
  obtain ⟨u2, b1, b2, b3⟩ := popInt_ok a2
  obtain ⟨e, he, hx⟩ := hx
  have hf : frameInt u1 g = frameInt v g := by
    cases g with
    | ref y i p => show (vmGetInt y i p u1).1 = (vmGetInt y i p v).1; rw [a3.vars.vmGetInt]
    | _ => rfl
  rw [hf, hx] at b1
  have hu := a3.trans b3.pops
  have hl : ¬ leaves i := by
    simp only [numberAssigns, List.mem_cons, List.not_mem_nil, or_false] at hop
    rcases hop with hop | hop | hop | hop | hop | hop <;> simp [leaves, hop, binaryOps, unaryOps]
  have asg : ∀ op, (do assignOp op; return Step.next : M Step) v = (.error (.throw e), u2) := by
    intro op
    refine M.bind_err ?_
    unfold assignOp
    rw [M.bind_ok a1]
    exact M.bind_err b1
  have hx : execOp h call i v = (.error (.throw e), u2) := by
    simp only [numberAssigns, List.mem_cons, List.not_mem_nil, or_false] at hop
    unfold execOp
    rcases hop with hop | hop | hop | hop | hop | hop <;> rw [hop] <;> dsimp only
    · rw [M.bind_ok a1]; exact M.bind_err b1
    · rw [M.bind_ok a1]; exact M.bind_err b1
    · exact asg .add
    · exact asg .sub
    · exact asg .mul
    · exact asg .div
  obtain ⟨w, h1, -, h2⟩ := skips hh hx he hu b2 (room hs)
  exact ⟨w, h1, h2 hl⟩

theorem popInt_unreadable {v : Vm} {fs : List Frame} {g : Frame} (hs : Stk v (fs ++ [g])) (hx : Unreadable v g) :
    ∃ e u, isScriptError e = true ∧ popInt v = (.error (.throw e), u) ∧ PopsOnly v u ∧ Stk u fs := by
  obtain ⟨u, b1, b2, b3⟩ := popInt_ok hs
  obtain ⟨e, he, hx⟩ := hx
  rw [hx] at b1
  exact ⟨e, u, he, b1, b3.pops, b2⟩

/-- **C107** — an operator with one operand that cannot be read: the operand is replaced by zero. -/
theorem c107_unary {h : Host} (hh : Forgiving h) (call : Nat → M Unit) {i : Instr} (hop : i.op ∈ unaryOps) {v : Vm} {fs : List Frame} {g : Frame}
    (hs : Stk v (fs ++ [g])) (hx : Unreadable v g) : ∃ w, execInstr h call i v = (.ok true, w) ∧ Skipped v w i (fs ++ [.int 0]) := by
  obtain ⟨e, u, he, h1, h2, h3⟩ := popInt_unreadable hs hx
  have : execOp h call i v = (.error (.throw e), u) := by
    rw [execOp_un hop _ _ _ rfl]
    exact M.bind_err h1
  obtain ⟨w, k1, k2, -⟩ := skips hh this he h2 h3 (room hs)
  exact ⟨w, k1, k2 (.inr (.inl hop))⟩

/-- **C107** — an operator with two operands the lower one of which cannot be read: both are replaced by zero. -/
theorem c107_binary_partial {h : Host} (hh : Forgiving h) (call : Nat → M Unit) {i : Instr} (hop : i.op ∈ binaryOps) {v : Vm} {fs : List Frame} {g f : Frame}
    {a : BitVec 32} (hs : Stk v (fs ++ [g, f])) (hf : frameInt v f = .ok a) (hx : Unreadable v g) :
    ∃ w, execInstr h call i v = (.ok true, w) ∧ Skipped v w i (fs ++ [.int 0]) := by
  have hs' : Stk v ((fs ++ [g]) ++ [f]) := by rw [List.append_assoc]; exact hs
  obtain ⟨u, b1, b2, b3⟩ := popInt_ok hs'
  rw [hf] at b1
  have hx' : Unreadable u g := by
    obtain ⟨e, he, hx⟩ := hx
    refine ⟨e, he, ?_⟩
    rw [← hx]
    cases g with
    | ref y i p => show (vmGetInt y i p u).1 = (vmGetInt y i p v).1; rw [b3.vars.vmGetInt]
    | _ => rfl
  obtain ⟨e, u', he, h1, h2, h3⟩ := popInt_unreadable b2 hx'
  have : execOp h call i v = (.error (.throw e), u') := by
    rw [execOp_bin hop _ _ _ rfl]
    unfold execBin
    rw [M.bind_ok b1]
    exact M.bind_err h1
  obtain ⟨w, k1, k2, -⟩ := skips hh this he (b3.pops.trans h2) h3 (room hs)
  exact ⟨w, k1, k2 (.inl hop)⟩

/-- **C107** (negation): if the upper operand cannot be read the lower one stays: one value too many is left, whatever the operator and the machine. -/
theorem c107_operand_violation {h : Host} (hh : Forgiving h) (call : Nat → M Unit) {i : Instr} (hop : i.op ∈ binaryOps) {v : Vm} {fs : List Frame} {g f : Frame}
    (hs : Stk v (fs ++ [g, f])) (hx : Unreadable v f) : ∃ w, execInstr h call i v = (.ok true, w) ∧ Skipped v w i (fs ++ [g, .int 0]) := by
  have hs' : Stk v ((fs ++ [g]) ++ [f]) := by rw [List.append_assoc]; exact hs
  obtain ⟨e, u, he, h1, h2, h3⟩ := popInt_unreadable hs' hx
  have : execOp h call i v = (.error (.throw e), u) := by
    rw [execOp_bin hop _ _ _ rfl]
    exact M.bind_err h1
  obtain ⟨w, k1, k2, -⟩ := skips hh this he h2 h3 (room hs')
  have k2 := k2 (.inl hop)
  rw [List.append_assoc] at k2
  exact ⟨w, k1, k2⟩

/-- **C107** — a condition that cannot be read: the script goes on as if it was met. -/
theorem c107_condition {h : Host} (hh : Forgiving h) (call : Nat → M Unit) {i : Instr} (hop : i.op = .bz) {v : Vm} {fs : List Frame} {g : Frame}
    (hs : Stk v (fs ++ [g])) (hx : Unreadable v g) : ∃ w, execInstr h call i v = (.ok true, w) ∧ Skipped v w i fs := by
  obtain ⟨e, u, he, h1, h2, h3⟩ := popInt_unreadable hs hx
  have : execOp h call i v = (.error (.throw e), u) := by
    unfold execOp
    rw [hop]
    exact M.bind_err h1
  obtain ⟨w, k1, -, k2⟩ := skips hh this he h2 h3 (room hs)
  exact ⟨w, k1, k2 (by simp [leaves, hop, binaryOps, unaryOps])⟩

/-- The text a value on the stack stands for. -/
def frameText (v : Vm) : Frame → Except Fail Bytes
  | .ref y i p =>
    match v.syms[y]? with
    | some s =>
      if s.isMember && p.isNone then
        if v.nullOk then .ok [] else .error (.throw .daedalusNoContext)
      else s.getString i.toNat (instAt v p)
    | none => .error .ub
  | _ => .error (.throw .daedalusVm)

/-- A value that cannot be read as a text: a member without an instance, a variable of another type or out of range, a number,
an instance. -/
def UnreadableText (v : Vm) (g : Frame) : Prop := ∃ e, isScriptError e = true ∧ frameText v g = .error (.throw e)

theorem popString_ok {v : Vm} {fs : List Frame} {g : Frame} (h : Stk v (fs ++ [g])) (ht : v.tmp < v.syms.length)
    (hy : ∀ y i p, g = .ref y i p → y < v.syms.length) : ∃ w, popString v = (frameText v g, w) ∧ Stk w fs ∧ PopsOnly v w := by
  have hk := take_ok h
  have other : (∀ y i p, g ≠ .ref y i p) → ∃ w, popString v = (.error (.throw .daedalusVm), w) ∧ Stk w fs ∧ PopsOnly v w := by
    intro hn
    refine ⟨_, ?_, hk.2, rfl⟩
    unfold popString
    refine M.bind_err ?_
    unfold popRef
    rw [M.get_bind, if_neg (sp_ne_zero h), M.bind_ok hk.1]
    cases g with
    | ref y i p => exact absurd rfl (hn y i p)
    | _ => rfl
  cases g with
  | int x => exact other fun _ _ _ e => by cases e
  | float x => exact other fun _ _ _ e => by cases e
  | inst x => exact other fun _ _ _ e => by cases e
  | ref y i p =>
    have hy := hy y i p rfl
    obtain ⟨w, h1, h2, h3⟩ := popRef_in h hy ht
    refine ⟨w, ?_, h2, h3⟩
    have hs : v.syms[y]? = some v.syms[y] := List.getElem?_eq_getElem hy
    have hw : w.syms[y]? = some v.syms[y] := by rw [h3.vars.syms]; exact hs
    unfold popString frameText
    rw [M.bind_ok h1]
    dsimp only
    rw [M.bind_ok (symAt_some hw), M.get_bind, hs, h3.vars.nullOk]
    dsimp only
    split
    · split <;> rfl
    · unfold symGetString
      rw [M.bind_ok (symAt_some hw), M.get_bind]
      have : instAt w p = instAt v p := by unfold instAt; rw [h3.vars.heap]
      rw [this]
      rfl

theorem frameText_same {v w : Vm} (h : SameVars v w) (g : Frame) : frameText w g = frameText v g := by
  unfold frameText
  cases g with
  | ref y i p =>
    have : instAt w p = instAt v p := by unfold instAt; rw [h.heap]
    dsimp only
    rw [h.syms, h.nullOk, this]
  | _ => rfl

/-- **C107** — an assignment of a text that cannot be read: both operands are gone, nothing changes, the script goes on. -/
theorem c107_text_value {h : Host} (hh : Forgiving h) (call : Nat → M Unit) {i : Instr} (hop : i.op = .movs) {v : Vm} {fs : List Frame} {g : Frame}
    {y : Nat} {k : Byte} {p : Option Nat} (hs : Stk v (fs ++ [g, .ref y k p])) (hx : UnreadableText v g) (hy : y < v.syms.length)
    (ht : v.tmp < v.syms.length) : ∃ w, execInstr h call i v = (.ok true, w) ∧ Skipped v w i fs := by
  have hs' : Stk v ((fs ++ [g]) ++ [.ref y k p]) := by rw [List.append_assoc]; exact hs
  obtain ⟨u1, a1, a2, a3⟩ := popRef_in hs' hy ht
  obtain ⟨e, he, hx⟩ := hx
  have hg : ∀ y i p, g = .ref y i p → y < u1.syms.length := by
    rintro y i p rfl
    unfold frameText at hx
    dsimp only at hx
    cases hz : v.syms[y]? with
    | none => rw [hz] at hx; cases hx
    | some s => rw [a3.vars.syms]; exact (List.getElem?_eq_some_iff.mp hz).1
  obtain ⟨u2, b1, b2, b3⟩ := popString_ok a2 (by rw [a3.vars.syms, a3.tmp_eq]; exact ht) hg
  rw [frameText_same a3.vars, hx] at b1
  have : execOp h call i v = (.error (.throw e), u2) := by
    unfold execOp
    rw [hop]
    dsimp only
    rw [M.bind_ok a1]
    exact M.bind_err b1
  obtain ⟨w, k1, -, k2⟩ := skips hh this he (a3.trans b3) b2 (room hs)
  exact ⟨w, k1, k2 (by simp [leaves, hop, binaryOps, unaryOps])⟩

/-- **C107** — assigning a text to a constant. -/
theorem c107_text {h : Host} (hh : Forgiving h) (call : Nat → M Unit) {i : Instr} (hop : i.op = .movs) {v : Vm} {fs : List Frame} {g : Frame}
    {y : Nat} {k : Byte} {p : Option Nat} {x : Bytes} (hs : Stk v (fs ++ [g, .ref y k p])) (hx : TextIn v g x) {s : Sym} (hy : v.syms[y]? = some s)
    (ht : v.tmp < v.syms.length) (hc : s.isConst = true) (hi : v.ignoreConst = false) :
    ∃ w, execInstr h call i v = (.ok true, w) ∧ Skipped v w i fs := by
  have hs' : Stk v ((fs ++ [g]) ++ [.ref y k p]) := by rw [List.append_assoc]; exact hs
  obtain ⟨u1, a1, a2, a3⟩ := popRef_in hs' (List.getElem?_eq_some_iff.mp hy).1 ht
  obtain ⟨y', k', p', rfl, hx⟩ := hx
  obtain ⟨u2, -, b1, b2, b3⟩ := popView_in a2 (by rw [a3.vars.syms, a3.tmp_eq]; exact ht) (symGetString_same a3.vars hx)
  have hu := a3.trans b3
  have hk : checkConst y u2 = (.error (.throw .daedalusConst), u2) :=
    checkConst_fails (by rw [hu.vars.syms]; exact hy) hc (by rw [hu]; exact hi)
  have hx : execOp h call i v = (.error (.throw .daedalusConst), u2) := by
    unfold execOp
    rw [hop]
    dsimp only
    rw [M.bind_ok a1]
    dsimp only
    rw [M.bind_ok b1]
    refine M.bind_err ?_
    unfold vmSetString
    exact M.bind_err hk
  obtain ⟨w, h1, -, h2⟩ := skips hh hx rfl hu b2 (room hs)
  exact ⟨w, h1, h2 (by simp [leaves, hop, binaryOps, unaryOps])⟩

/-- **C107** — assigning a number to a constant with `MOVF`. -/
theorem c107_float {h : Host} (hh : Forgiving h) (call : Nat → M Unit) {i : Instr} (hop : i.op = .movf) {v : Vm} {fs : List Frame} {g : Frame}
    {y : Nat} {k : Byte} {p : Option Nat} {x : BitVec 32} (hs : Stk v (fs ++ [g, .ref y k p])) (hx : FloatIn v g x) {s : Sym} (hy : v.syms[y]? = some s)
    (ht : v.tmp < v.syms.length) (hc : s.isConst = true) (hi : v.ignoreConst = false) :
    ∃ w, execInstr h call i v = (.ok true, w) ∧ Skipped v w i fs := by
  have hs' : Stk v ((fs ++ [g]) ++ [.ref y k p]) := by rw [List.append_assoc]; exact hs
  obtain ⟨u1, a1, a2, a3⟩ := popRef_in hs' (List.getElem?_eq_some_iff.mp hy).1 ht
  obtain ⟨u2, b1, b2, b3⟩ := popFloat_in a2 (FloatIn.same a3.vars hx)
  have hu := a3.trans b3
  have hk : checkConst y u2 = (.error (.throw .daedalusConst), u2) :=
    checkConst_fails (by rw [hu.vars.syms]; exact hy) hc (by rw [hu]; exact hi)
  have hx : execOp h call i v = (.error (.throw .daedalusConst), u2) := by
    unfold execOp
    rw [hop]
    dsimp only
    rw [M.bind_ok a1]
    dsimp only
    rw [M.bind_ok b1]
    refine M.bind_err ?_
    unfold vmSetFloat
    exact M.bind_err hk
  obtain ⟨w, h1, -, h2⟩ := skips hh hx rfl hu b2 (room hs)
  exact ⟨w, h1, h2 (by simp [leaves, hop, binaryOps, unaryOps])⟩

/-- **C107** — assigning an instance to something that holds none. -/
theorem c107_instance {h : Host} (hh : Forgiving h) (call : Nat → M Unit) {i : Instr} (hop : i.op = .movvi) {v : Vm} {fs : List Frame} {q : Option Nat}
    {y : Nat} {k : Byte} {p : Option Nat} (hs : Stk v (fs ++ [.inst q, .ref y k p])) {s : Sym} (hy : v.syms[y]? = some s)
    (ht : v.tmp < v.syms.length) (hn : s.type ≠ .instance) :
    ∃ w, execInstr h call i v = (.ok true, w) ∧ Skipped v w i fs := by
  have hs' : Stk v ((fs ++ [.inst q]) ++ [.ref y k p]) := by rw [List.append_assoc]; exact hs
  obtain ⟨u1, a1, a2, a3⟩ := popRef_in hs' (List.getElem?_eq_some_iff.mp hy).1 ht
  obtain ⟨u2, b1, b2, b3⟩ := popInst_in a2 (.inl rfl)
  have hu := a3.trans b3
  have hx : execOp h call i v = (.error (.throw .daedalusType), u2) := by
    unfold execOp
    rw [hop]
    dsimp only
    rw [M.bind_ok a1]
    dsimp only
    rw [M.bind_ok b1]
    refine M.bind_err ?_
    unfold symSetInstance
    rw [M.bind_ok (symAt_some (by rw [hu.vars.syms]; exact hy))]
    unfold Sym.setInstance
    rw [if_pos hn]
    rfl
  obtain ⟨w, h1, -, h2⟩ := skips hh hx rfl hu b2 (room hs)
  exact ⟨w, h1, h2 (by simp [leaves, hop, binaryOps, unaryOps])⟩

namespace Forgiven

/-- A constant `C` and a member `N.HP`. -/
def v : Vm where
  syms := [
    { name := b!"C", type := .int, flags := 1, index := 0, count := 1, value := .ints (some [some 5]) },
    { name := b!"N.HP", type := .int, flags := 4, index := 1, count := 1 },
    { type := .string, count := 1, value := .strs [[]], index := 2 }]
  tmp := 2
  stack := [some (.int 3), some (.int 7), some (.ref 0 0 none)]
  sp := 3

def h : Host := { handler := some lenient }

/-- `C = 7`. -/
example : ∃ w, execInstr h (fun _ => M.ub) { op := .movi, size := 1 } v = (.ok true, w) ∧ Skipped v w { op := .movi, size := 1 } [.int 3] :=
  c107_constant (h := h) (v := v) (fs := [.int 3]) rfl _ (by decide) ⟨rfl, by decide, rfl⟩ (.inl rfl) rfl (by decide) rfl rfl

/-- A state in which a number is about to get an instance. -/
def mixed : Vm := { v with stack := [some (.inst none), some (.ref 0 0 none)], sp := 2 }

example : ∃ w, execInstr h (fun _ => M.ub) { op := .movvi, size := 1 } mixed = (.ok true, w) ∧ Skipped mixed w { op := .movvi, size := 1 } [] :=
  c107_instance (h := h) (fs := []) rfl _ rfl ⟨rfl, by decide, rfl⟩ rfl (by decide) (by decide)

/-- A state in which a text is about to get a number. -/
def numberAsText : Vm := { v with stack := [some (.int 3), some (.ref 2 0 none)], sp := 2 }

example : ∃ w, execInstr h (fun _ => M.ub) { op := .movs, size := 1 } numberAsText = (.ok true, w) ∧
    Skipped numberAsText w { op := .movs, size := 1 } [] :=
  c107_text_value (h := h) (fs := []) (g := .int 3) rfl _ rfl ⟨rfl, by decide, rfl⟩ ⟨.daedalusVm, rfl, rfl⟩ (by decide) (by decide)

/-- A state in which a constant text is about to be replaced by another one. -/
def texts : Vm where
  syms := [
    { name := b!"C", type := .string, flags := 1, index := 0, count := 1, value := .strs [b!"OLD"] },
    { name := b!"T", type := .string, flags := 0, index := 1, count := 1, value := .strs [b!"NEW"] },
    { type := .string, count := 1, value := .strs [[]], index := 2 }]
  tmp := 2
  stack := [some (.ref 1 0 none), some (.ref 0 0 none)]
  sp := 2

example : ∃ w, execInstr h (fun _ => M.ub) { op := .movs, size := 1 } texts = (.ok true, w) ∧ Skipped texts w { op := .movs, size := 1 } [] :=
  c107_text (h := h) (fs := []) (x := b!"NEW") rfl _ rfl ⟨rfl, by decide, rfl⟩ ⟨1, 0, none, rfl, rfl⟩ rfl (by decide) rfl rfl

/-- A state in which a constant float is about to be replaced by 1.0. -/
def floats : Vm where
  syms := [
    { name := b!"C", type := .float, flags := 1, index := 0, count := 1, value := .floats [some 0] },
    { type := .string, count := 1, value := .strs [[]], index := 1 }]
  tmp := 1
  stack := [some (.float 0x3F800000), some (.ref 0 0 none)]
  sp := 2

example : ∃ w, execInstr h (fun _ => M.ub) { op := .movf, size := 1 } floats = (.ok true, w) ∧ Skipped floats w { op := .movf, size := 1 } [] :=
  c107_float (h := h) (fs := []) (x := 0x3F800000) rfl _ rfl ⟨rfl, by decide, rfl⟩ (.inl rfl) rfl (by decide) rfl rfl

/-- The hit points of nobody. -/
theorem nobody : Unreadable v (.ref 1 0 none) := ⟨.daedalusNoContext, rfl, by decide +kernel⟩

/-- `3 + 7 * N.HP` where `N` is nobody: 7 is left, and 0. -/
example : ∃ w, execInstr h (fun _ => M.ub) { op := .mul, size := 1 } { v with stack := [some (.int 3), some (.int 7), some (.ref 1 0 none)] } = (.ok true, w) ∧
    Stk w [.int 3, .int 7, .int 0] := by
  obtain ⟨w, h1, h2⟩ := c107_operand_violation (h := h) (v := { v with stack := [some (.int 3), some (.int 7), some (.ref 1 0 none)] })
    (i := { op := .mul, size := 1 }) (fs := [.int 3]) (g := .int 7) rfl (fun _ => M.ub) (by decide) ⟨rfl, by decide, rfl⟩ nobody
  exact ⟨w, h1, h2.stack⟩

end Forgiven

/-- **C107** (negation) to the end: with the lenient handler `3 + 7 * N.HP`, where `N` is nobody, is 7. -/
theorem c107_sum_violation :
    let step := fun op : Op => execInstr Forgiven.h (fun _ => M.ub) { op, size := 1 }
    ((do let _ ← step .mul; let _ ← step .add; popInt : M (BitVec 32))
      { Forgiven.v with stack := [some (.int 3), some (.int 7), some (.ref 1 0 none)] }).1 = .ok 7 := by
  decide +kernel

end Verif.Props
