import Verif.Lemmas.DaedalusCode
import Verif.Lemmas.DaedalusStack
import Verif.Lemmas.DaedalusOps

/-!
# Lemmas about the execution of single instructions
-/

namespace Verif.Daedalus

open Verif.Spec.Daedalus

/-- The number a frame stands for. -/
def frameInt (v : Vm) : Frame → Except Fail (BitVec 32)
  | .int x => .ok x
  | .ref y i p => (vmGetInt y i p v).1
  | _ => .error (.throw .daedalusVm)

theorem StackOnly.vars {v w : Vm} (h : StackOnly v w) : SameVars v w := by
  rw [h]
  exact ⟨rfl, rfl, rfl⟩

theorem SameVars.frameInt {v w : Vm} (h : SameVars v w) (f : Frame) : frameInt w f = frameInt v f := by
  cases f with
  | ref y i p => exact h.vmGetInt y i p
  | _ => rfl

theorem popInt_ok {v : Vm} {fs : List Frame} {f : Frame} (h : Stk v (fs ++ [f])) :
    ∃ w, popInt v = (frameInt v f, w) ∧ Stk w fs ∧ StackOnly v w := by
  have ht := take_ok h
  refine ⟨_, ?_, ht.2, rfl⟩
  unfold popInt
  rw [M.get_bind, if_neg (sp_ne_zero h), M.bind_ok ht.1]
  cases f with
  | int x => rfl
  | float x => rfl
  | inst x => rfl
  | ref y i p =>
    dsimp only [frameInt]
    rw [ReadOnly.vmGetInt y i p _]
    congr 1
    apply SameVars.vmGetInt
    exact ⟨rfl, rfl, rfl⟩

theorem popInt_empty {v : Vm} (h : Stk v []) : popInt v = (.ok 0, v) := by
  unfold popInt
  rw [M.get_bind, if_pos (sp_zero h)]
  rfl

theorem pushInt_ok {v : Vm} {fs : List Frame} (x : BitVec 32) (h : Stk v fs) (hl : fs.length < stackSize) :
    ∃ w, pushInt x v = (.ok (), w) ∧ Stk w (fs ++ [.int x]) ∧ StackOnly v w := by
  have := push_ok (.int x) h hl
  exact ⟨_, this.1, this.2, rfl⟩

/-- The instruction at an address inside of the code. -/
theorem fetch_in {v : Vm} (h : v.pc.toNat < v.text.length) :
    ∃ i pos, fetch v = (.ok i, { v with textPos := pos }) ∧
      i.op = Op.ofByte (v.text[v.pc.toNat]) ∧ i.size = instrLen (v.text[v.pc.toNat]).toNat := by
  obtain ⟨i, h1, h2, h3⟩ := decode_at v.text v.pc.toNat h
  refine ⟨i, min (v.pc.toNat + instrLen (v.text[v.pc.toNat]).toNat) v.text.length, ?_, h2, h3⟩
  unfold fetch instructionAt
  rw [Rd.bind_ok (Rd.seek_beg (Nat.le_of_lt h)), h1]

/-- An instruction that stands at the program counter. -/
theorem fetch_assembled {v : Vm} {i : Instr} {pre post : Bytes} (hc : Canonical i)
    (ht : v.text = pre ++ assemble i ++ post) (hp : v.pc.toNat = pre.length) :
    ∃ pos, fetch v = (.ok i, { v with textPos := pos }) := by
  have h := reads_decode i hc pre post
  refine ⟨pre.length + (assemble i).length, ?_⟩
  unfold fetch instructionAt
  rw [hp, Rd.bind_ok (Rd.seek_beg (by rw [ht]; simp)), ht, h]

theorem Stk.textPos {v : Vm} {fs : List Frame} (h : Stk v fs) (pos : Nat) : Stk { v with textPos := pos } fs := h

theorem SameVars.textPos (v : Vm) (pos : Nat) : SameVars v { v with textPos := pos } := ⟨rfl, rfl, rfl⟩

/-- A binary operator whose operands are numbers. -/
theorem execBin_ok {v : Vm} {fs : List Frame} {fa fb : Frame} {a b : BitVec 32} (op : Op)
    (h : Stk v (fs ++ [fb, fa])) (ha : frameInt v fa = .ok a) (hb : frameInt v fb = .ok b) :
    ∃ w, StackOnly v w ∧ Stk w fs ∧
      execBin op v = (do pushInt (← M.lift (binop op a b)); return Step.next : M Step) w := by
  have h' : Stk v ((fs ++ [fb]) ++ [fa]) := by rw [List.append_assoc]; exact h
  obtain ⟨w1, e1, s1, o1⟩ := popInt_ok h'
  obtain ⟨w2, e2, s2, o2⟩ := popInt_ok s1
  rw [ha] at e1
  rw [o1.vars.frameInt, hb] at e2
  refine ⟨w2, o1.trans o2, s2, ?_⟩
  unfold execBin
  rw [M.bind_ok e1, M.bind_ok e2]

theorem execUn_ok {v : Vm} {fs : List Frame} {fa : Frame} {a : BitVec 32} (op : Op)
    (h : Stk v (fs ++ [fa])) (ha : frameInt v fa = .ok a) :
    ∃ w, StackOnly v w ∧ Stk w fs ∧
      execUn op v = (do pushInt (← M.lift (unop op a)); return Step.next : M Step) w := by
  obtain ⟨w1, e1, s1, o1⟩ := popInt_ok h
  rw [ha] at e1
  refine ⟨w1, o1, s1, ?_⟩
  unfold execUn
  rw [M.bind_ok e1]

theorem execOp_bin {op : Op} (hop : op ∈ binaryOps) (h : Host) (call : Nat → M Unit) (i : Instr) (hi : i.op = op) :
    execOp h call i = execBin op := by
  simp only [binaryOps, List.mem_cons, List.not_mem_nil, or_false] at hop
  unfold execOp
  rw [hi]
  rcases hop with rfl | rfl | rfl | rfl | rfl | rfl | rfl | rfl | rfl | rfl | rfl | rfl | rfl | rfl | rfl | rfl | rfl <;> rfl

theorem execOp_un {op : Op} (hop : op ∈ unaryOps) (h : Host) (call : Nat → M Unit) (i : Instr) (hi : i.op = op) :
    execOp h call i = execUn op := by
  simp only [unaryOps, List.mem_cons, List.not_mem_nil, or_false] at hop
  unfold execOp
  rw [hi]
  rcases hop with rfl | rfl | rfl | rfl <;> rfl

theorem op_len {op : Op} (hop : op ∈ binaryOps ∨ op ∈ unaryOps) : instrLen (number op) = 1 ∧ (∀ b, op ≠ .unknown b) := by
  simp only [binaryOps, unaryOps, List.mem_cons, List.not_mem_nil, or_false] at hop
  rcases hop with (rfl | rfl | rfl | rfl | rfl | rfl | rfl | rfl | rfl | rfl | rfl | rfl | rfl | rfl | rfl | rfl | rfl) |
    (rfl | rfl | rfl | rfl) <;> exact ⟨rfl, by intro b hb; cases hb⟩

/-- Fetching an operator that stands at the program counter. -/
theorem fetch_op {v : Vm} {op : Op} (hop : op ∈ binaryOps ∨ op ∈ unaryOps)
    (hc : v.text[v.pc.toNat]? = some (UInt8.ofNat (number op))) :
    ∃ i pos, fetch v = (.ok i, { v with textPos := pos }) ∧ i.op = op ∧ i.size = 1 := by
  obtain ⟨hlt, he⟩ := List.getElem?_eq_some_iff.mp hc
  obtain ⟨i, pos, h1, h2, h3⟩ := fetch_in hlt
  rw [he] at h2 h3
  have := op_len hop
  rw [ofByte_number _ this.2] at h2
  refine ⟨i, pos, h1, h2, ?_⟩
  have hn : (UInt8.ofNat (number op)).toNat = number op := by
    rw [← number_ofByte, ofByte_number _ this.2]
  rw [h3, hn, this.1]

/-- The machine after an operator: only the stack, the program counter and the code reader changed. -/
def AfterOp (v w : Vm) : Prop :=
  w = { v with stack := w.stack, sp := w.sp, textPos := w.textPos, pc := v.pc + 1 }

theorem exec_bin {v : Vm} {fs : List Frame} {fa fb : Frame} {a b r : BitVec 32} {op : Op} (h : Host) (call : Nat → M Unit)
    (hop : op ∈ binaryOps) (hc : v.text[v.pc.toNat]? = some (UInt8.ofNat (number op)))
    (hs : Stk v (fs ++ [fb, fa])) (ha : frameInt v fa = .ok a) (hb : frameInt v fb = .ok b) (hr : binop op a b = .ok r) :
    ∃ w, exec h call v = (.ok true, w) ∧ Stk w (fs ++ [.int r]) ∧ AfterOp v w := by
  obtain ⟨i, pos, hf, hi, hz⟩ := fetch_op (Or.inl hop) hc
  obtain ⟨w1, o1, s1, e1⟩ := execBin_ok (v := { v with textPos := pos }) op (hs.textPos pos)
    (by rw [(SameVars.textPos v pos).frameInt, ha]) (by rw [(SameVars.textPos v pos).frameInt, hb])
  have hl : fs.length < stackSize := by
    have := hs.2.1
    simp only [List.length_append, List.length_cons, List.length_nil] at this
    omega
  obtain ⟨w2, e2, s2, o2⟩ := pushInt_ok r s1 hl
  have ee : execBin op { v with textPos := pos } = (.ok .next, w2) := by
    rw [e1, hr, M.bind_ok (M.lift_def _ _), M.bind_ok e2]
    rfl
  refine ⟨{ w2 with pc := w2.pc + 1 }, ?_, s2.congr rfl rfl, ?_⟩
  · unfold exec
    rw [M.bind_ok hf]
    unfold execInstr
    rw [execOp_bin hop h call i hi, ee]
    dsimp only
    rw [M.bind_ok (show advance i w2 = (.ok (), { w2 with pc := w2.pc + 1 }) by unfold advance; rw [hz]; rfl)]
    rfl
  · have := o1.trans o2
    unfold AfterOp
    unfold StackOnly at this
    rw [this]

theorem exec_un {v : Vm} {fs : List Frame} {fa : Frame} {a r : BitVec 32} {op : Op} (h : Host) (call : Nat → M Unit)
    (hop : op ∈ unaryOps) (hc : v.text[v.pc.toNat]? = some (UInt8.ofNat (number op)))
    (hs : Stk v (fs ++ [fa])) (ha : frameInt v fa = .ok a) (hr : unop op a = .ok r) :
    ∃ w, exec h call v = (.ok true, w) ∧ Stk w (fs ++ [.int r]) ∧ AfterOp v w := by
  obtain ⟨i, pos, hf, hi, hz⟩ := fetch_op (Or.inr hop) hc
  obtain ⟨w1, o1, s1, e1⟩ := execUn_ok (v := { v with textPos := pos }) op (hs.textPos pos)
    (by rw [(SameVars.textPos v pos).frameInt, ha])
  have hl : fs.length < stackSize := by
    have := hs.2.1
    simp only [List.length_append, List.length_cons, List.length_nil] at this
    omega
  obtain ⟨w2, e2, s2, o2⟩ := pushInt_ok r s1 hl
  have ee : execUn op { v with textPos := pos } = (.ok .next, w2) := by
    rw [e1, hr, M.bind_ok (M.lift_def _ _), M.bind_ok e2]
    rfl
  refine ⟨{ w2 with pc := w2.pc + 1 }, ?_, s2.congr rfl rfl, ?_⟩
  · unfold exec
    rw [M.bind_ok hf]
    unfold execInstr
    rw [execOp_un hop h call i hi, ee]
    dsimp only
    rw [M.bind_ok (show advance i w2 = (.ok (), { w2 with pc := w2.pc + 1 }) by unfold advance; rw [hz]; rfl)]
    rfl
  · have := o1.trans o2
    unfold AfterOp
    unfold StackOnly at this
    rw [this]

/-- A binary operator whose result is not a value. -/
theorem exec_bin_err {v : Vm} {fs : List Frame} {fa fb : Frame} {a b : BitVec 32} {e : Fail} {op : Op} (h : Host)
    (call : Nat → M Unit) (hop : op ∈ binaryOps) (hc : v.text[v.pc.toNat]? = some (UInt8.ofNat (number op)))
    (hs : Stk v (fs ++ [fb, fa])) (ha : frameInt v fa = .ok a) (hb : frameInt v fb = .ok b) (hr : binop op a b = .error e) :
    ∃ w i, i.op = op ∧ Stk w fs ∧ w = { v with stack := w.stack, sp := w.sp, textPos := w.textPos } ∧
      exec h call v = (match e with
        | .throw x => if isScriptError x then execCatch h x i w else (.error e, w)
        | _ => (.error e, w)) := by
  obtain ⟨i, pos, hf, hi, hz⟩ := fetch_op (Or.inl hop) hc
  obtain ⟨w1, o1, s1, e1⟩ := execBin_ok (v := { v with textPos := pos }) op (hs.textPos pos)
    (by rw [(SameVars.textPos v pos).frameInt, ha]) (by rw [(SameVars.textPos v pos).frameInt, hb])
  have ee : execBin op { v with textPos := pos } = (.error e, w1) := by
    rw [e1, hr, M.bind_err (M.lift_def _ _)]
  refine ⟨w1, i, hi, s1, ?_, ?_⟩
  · unfold StackOnly at o1
    rw [o1]
  · unfold exec
    rw [M.bind_ok hf]
    unfold execInstr
    rw [execOp_bin hop h call i hi, ee]
    cases e <;> rfl

end Verif.Daedalus
