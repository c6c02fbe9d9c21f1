import Verif.Lemmas.DaedalusExec

/-!
# Daedalus: instructions, the stack, operators (C30, C31, C32, C64)
-/

namespace Verif.Props

open Verif.Daedalus
open Verif.Spec.Daedalus

/-! ## C30 -/

/-- **C30** — decoding inside of the code never fails, and the bytes it consumes depend on the first byte only: 1, 5 or 6
(fewer where the code ends). `size`, by which the program counter advances, is the same number. -/
theorem c30_length (text : Bytes) (p : Nat) (hp : p < text.length) :
    ∃ i, decode ⟨text, p⟩ = .ok (i, ⟨text, min (p + instrLen text[p].toNat) text.length⟩) ∧
      number i.op = text[p].toNat ∧ i.size = instrLen text[p].toNat := by
  obtain ⟨i, h1, h2, h3⟩ := decode_at text p hp
  exact ⟨i, h1, by rw [h2, number_ofByte], h3⟩

/-- **C30** — an instruction decodes to itself, wherever it stands and whatever follows. -/
theorem c30_roundtrip (i : Instr) (h : Canonical i) (pre post : Bytes) :
    decode ⟨pre ++ assemble i ++ post, pre.length⟩ = .ok (i, ⟨pre ++ assemble i ++ post, pre.length + i.size⟩) := by
  have h1 := reads_decode i h pre post
  have : (assemble i).length = i.size := by
    have hu := h.2.2.2.2.2
    rw [h.1]
    obtain ⟨op, a, y, m, x, sz⟩ := i
    cases op
    case unknown b =>
      have hn : ∀ o : Op, (∀ c, o ≠ .unknown c) → number o ≠ b.toNat := fun o ho => hu b o rfl ho
      have k1 := hn .bl (by intro c hc; cases hc)
      have k2 := hn .be (by intro c hc; cases hc)
      have k3 := hn .pushi (by intro c hc; cases hc)
      have k4 := hn .pushv (by intro c hc; cases hc)
      have k5 := hn .pushvi (by intro c hc; cases hc)
      have k6 := hn .b (by intro c hc; cases hc)
      have k7 := hn .bz (by intro c hc; cases hc)
      have k8 := hn .gmovi (by intro c hc; cases hc)
      have k9 := hn .pushvv (by intro c hc; cases hc)
      simp only [number] at k1 k2 k3 k4 k5 k6 k7 k8 k9
      have hl : instrLen b.toNat = 1 := by
        unfold instrLen
        rw [if_neg (by simp only [wordOps, List.mem_cons, List.not_mem_nil, or_false]; omega), if_neg (by omega)]
      show ([b] : Bytes).length = instrLen b.toNat
      rw [hl]; rfl
    all_goals simp [assemble, instrLen, wordOps, number, encW_length]
  rw [h1, this]

/-- Walks over code from an address by the sizes of the instructions. -/
def walk (text : Bytes) : Nat → Nat → Except Fail (List Instr)
  | 0, _ => .ok []
  | n + 1, p =>
    match instructionAt text 0 p with
    | .error e => .error e
    | .ok (i, _) =>
      match walk text n (p + i.size) with
      | .error e => .error e
      | .ok is => .ok (i :: is)

/-- **C30** — a program is decoded instruction by instruction, without drift, wherever it stands. -/
theorem c30_program (is : List Instr) (h : ∀ i ∈ is, Canonical i) (pre post : Bytes) :
    walk (pre ++ (is.map assemble).flatten ++ post) is.length pre.length = .ok is := by
  induction is generalizing pre with
  | nil => rfl
  | cons i is ih =>
    have h1 := c30_roundtrip i (h i List.mem_cons_self) pre ((is.map assemble).flatten ++ post)
    have ht : pre ++ ((i :: is).map assemble).flatten ++ post = pre ++ assemble i ++ ((is.map assemble).flatten ++ post) := by
      simp
    have hi : instructionAt (pre ++ ((i :: is).map assemble).flatten ++ post) 0 pre.length = .ok (i, pre.length + i.size) := by
      unfold instructionAt
      rw [Rd.bind_ok (Rd.seek_beg (by simp)), ht, h1]
    have hl : (assemble i).length = i.size := by
      have h2 := reads_decode i (h i List.mem_cons_self) pre ((is.map assemble).flatten ++ post)
      rw [h1] at h2
      simp only [Except.ok.injEq, Prod.mk.injEq, Rs.mk.injEq, true_and] at h2
      omega
    have h3 := ih (fun j hj => h j (List.mem_cons_of_mem _ hj)) (pre ++ assemble i)
    simp only [walk, List.length_cons, hi]
    have e : pre ++ ((i :: is).map assemble).flatten ++ post = pre ++ assemble i ++ (is.map assemble).flatten ++ post := by
      simp
    rw [List.length_append, hl, ← e] at h3
    rw [h3]

/-- A program with all shapes of instructions. -/
example : walk (assemble { op := .pushi, immediate := 7, size := 5 } ++ assemble { op := .pushvv, symbol := 3, index := 2, size := 6 } ++
    assemble { op := .rsr }) 3 0 =
    .ok [{ op := .pushi, immediate := 7, size := 5 }, { op := .pushvv, symbol := 3, index := 2, size := 6 }, { op := .rsr }] := by
  decide

/-! ## C31 -/

/-- **C31** — for every history of requests, the machine answers exactly as a last-in-first-out list of at most 2048 values
does: pushes onto a full stack are refused and change nothing, pops of numbers from an empty stack give zero, other pops from
an empty stack and pops of the wrong type raise, and the stack pointer is the number of values. Reading a variable gives
whatever the variable holds. -/
theorem c31_history (v : Vm) (items : List Frame) (hs : Stk v items.reverse) (ht : v.tmp < v.syms.length)
    (hr : ∀ y i p, Frame.ref y i p ∈ items → y < v.syms.length) (ops : List StackOp)
    (ho : ∀ y i, .pushVar y i ∈ ops → y < v.syms.length) :
    (requests ops v).1 = (stackRun (envOf v) items ops).1 ∧
    Stk (requests ops v).2 (stackRun (envOf v) items ops).2.reverse ∧
    (requests ops v).2.sp.toNat = (stackRun (envOf v) items ops).2.length ∧
    (requests ops v).2.sp.toNat ≤ 2048 := by
  obtain ⟨w, h1, h2⟩ := requests_run ops ho (v0 := v) ⟨hs, ⟨rfl, rfl, rfl⟩, rfl, rfl, ht, hr⟩
  rw [h1]
  refine ⟨rfl, h2.stk, ?_, ?_⟩
  · rw [h2.stk.1, List.length_reverse]
  · rw [h2.stk.1]; exact h2.stk.2.1

/-- **C31** — a history that only touches numbers is free of undefined behaviour. -/
theorem c31_defined (ops : List StackOp) (h : ∀ o ∈ ops, ∀ y i, o ≠ .pushVar y i) (env : Env) (items : List Frame)
    (hi : ∀ y i p, Frame.ref y i p ∉ items) :
    ∀ a ∈ (stackRun env items ops).1, a ≠ .error .ub := by
  have pushF : ∀ (f : Frame) (items : List Frame), (∀ y i p, f ≠ .ref y i p) → (∀ y i p, Frame.ref y i p ∉ items) →
      (pushSpec f items).1 ≠ .error .ub ∧ ∀ y i p, Frame.ref y i p ∉ (pushSpec f items).2 := by
    intro f items hf hi
    unfold pushSpec
    split
    · exact ⟨by simp, hi⟩
    · refine ⟨by simp, ?_⟩
      intro y i p hm
      rcases List.mem_cons.mp hm with he | hm
      · exact hf y i p he.symm
      · exact hi y i p hm
  induction ops generalizing items with
  | nil => intro a ha; cases ha
  | cons o os ih =>
    have step : (stackStep env items o).1 ≠ .error .ub ∧ ∀ y i p, Frame.ref y i p ∉ (stackStep env items o).2 := by
      have tail : ∀ f rest, items = f :: rest → ∀ y i p, Frame.ref y i p ∉ rest := by
        intro f rest he y i p hm
        exact hi y i p (he ▸ List.mem_cons_of_mem _ hm)
      have hd : ∀ f rest, items = f :: rest → ∀ y i p, f ≠ .ref y i p := by
        intro f rest he y i p hf
        exact hi y i p (he ▸ hf ▸ List.mem_cons_self)
      cases o with
      | pushInt x => exact pushF _ _ (by intro _ _ _ h; cases h) hi
      | pushFloat x => exact pushF _ _ (by intro _ _ _ h; cases h) hi
      | pushInst x => exact pushF _ _ (by intro _ _ _ h; cases h) hi
      | pushVar y i => exact absurd rfl (h _ List.mem_cons_self y i)
      | popInt | popFloat | popInst | popVar =>
        cases items with
        | nil => exact ⟨by simp [stackStep], by simp [stackStep]⟩
        | cons f rest =>
          cases f with
          | ref y i p => exact absurd rfl (hd _ _ rfl y i p)
          | int x => exact ⟨by simp [stackStep], tail _ _ rfl⟩
          | float x => exact ⟨by simp [stackStep], tail _ _ rfl⟩
          | inst x => exact ⟨by simp [stackStep], tail _ _ rfl⟩
    intro a ha
    simp only [stackRun, List.mem_cons] at ha
    rcases ha with he | ha
    · rw [he]; exact step.1
    · exact ih (fun o ho => h o (List.mem_cons_of_mem _ ho)) _ step.2 a ha

/-- A machine with an empty stack and one string symbol for temporaries; requests of all kinds. -/
def vm0 : Vm := { syms := [{ type := .string, count := 1, value := .strs [[]], index := 0 }], tmp := 0 }

example : Stk vm0 ([] : List Frame).reverse ∧ vm0.tmp < vm0.syms.length := by
  refine ⟨⟨rfl, by decide, rfl⟩, by decide⟩

example : (requests [.pushInt 5, .pushFloat 6, .popInt, .popInt, .popInt, .popInst, .pushInst none, .popInst] vm0).1 =
    [.ok .done, .ok .done, .error (.throw .daedalusVm), .ok (.bits 5), .ok (.bits 0), .error (.throw .daedalusVm), .ok .done,
      .ok (.inst none)] := by
  decide

/-! ## C32 -/

/-- **C32** — an operator with two operands replaces the two topmost values by its result, with the topmost value as left
operand, for all operands whose result C++ defines; nothing else changes and execution goes on with the next byte. Operands
are numbers or variables. -/
theorem c32_binary (h : Host) (call : Nat → M Unit) (v : Vm) (op : Op) (hop : op ∈ binaryOps) (fs : List Frame)
    (fa fb : Frame) (a b : BitVec 32) (hc : v.text[v.pc.toNat]? = some (UInt8.ofNat (number op)))
    (hs : Stk v (fs ++ [fb, fa])) (ha : frameInt v fa = .ok a) (hb : frameInt v fb = .ok b)
    (hd : OpDefined op a.toInt b.toInt) :
    ∃ w r, exec h call v = (.ok true, w) ∧ r.toInt = opValue op a.toInt b.toInt ∧ Stk w (fs ++ [.int r]) ∧ AfterOp v w := by
  obtain ⟨r, hr, hv⟩ := binop_ok hop a b hd
  obtain ⟨w, h1, h2, h3⟩ := exec_bin h call hop hc hs ha hb hr
  exact ⟨w, r, h1, hv, h2, h3⟩

/-- **C32** — an operator with one operand. -/
theorem c32_unary (h : Host) (call : Nat → M Unit) (v : Vm) (op : Op) (hop : op ∈ unaryOps) (fs : List Frame)
    (fa : Frame) (a : BitVec 32) (hc : v.text[v.pc.toNat]? = some (UInt8.ofNat (number op)))
    (hs : Stk v (fs ++ [fa])) (ha : frameInt v fa = .ok a) (hd : OpDefined op a.toInt 0) :
    ∃ w r, exec h call v = (.ok true, w) ∧ r.toInt = opValue op a.toInt 0 ∧ Stk w (fs ++ [.int r]) ∧ AfterOp v w := by
  obtain ⟨r, hr, hv⟩ := unop_ok hop a 0 hd
  obtain ⟨w, h1, h2, h3⟩ := exec_un h call hop hc hs ha hr
  exact ⟨w, r, h1, hv, h2, h3⟩

/-- **C32** — division and remainder by zero raise `DaedalusVmException`. -/
theorem c32_zero (h : Host) (hh : h.handler = none) (call : Nat → M Unit) (v : Vm) (op : Op) (hop : op = .div ∨ op = .mod)
    (fs : List Frame) (fa fb : Frame) (a : BitVec 32) (hc : v.text[v.pc.toNat]? = some (UInt8.ofNat (number op)))
    (hs : Stk v (fs ++ [fb, fa])) (ha : frameInt v fa = .ok a) (hb : frameInt v fb = .ok 0) :
    (exec h call v).1 = .error (.throw .daedalusVm) := by
  obtain ⟨w, i, _, _, _, he⟩ := exec_bin_err h call (op := op)
    (by rcases hop with rfl | rfl <;> simp [binaryOps]) hc hs ha hb (binop_zero hop a)
  rw [he]
  show (execCatch h .daedalusVm i w).1 = _
  unfold execCatch
  rw [hh]
  rfl

/-- A machine about to execute an operator on 7 (top) and 2. -/
def vmOp (op : Op) : Vm :=
  { vm0 with text := [UInt8.ofNat (number op)], stack := [some (.int 2), some (.int 7)], sp := 2 }

example : Stk (vmOp .sub) ([] ++ [.int 2, .int 7]) ∧ frameInt (vmOp .sub) (.int 7) = .ok 7 ∧
    OpDefined .sub (7 : BitVec 32).toInt (2 : BitVec 32).toInt ∧
    (vmOp .sub).text[(vmOp .sub).pc.toNat]? = some (UInt8.ofNat (number .sub)) := by
  refine ⟨⟨rfl, by decide, rfl⟩, rfl, by unfold OpDefined InInt; decide, rfl⟩

example : (exec {} (fun _ => M.ub) (vmOp .sub)).2.stack[0]? = some (some (.int 5)) := by decide

/-! ## C64 -/

/-- **C64** — the claim that no script has undefined behaviour is false: every operator has undefined behaviour for every pair
of operands for which C++ leaves its result undefined, except that division by zero raises. -/
theorem c64_operator_violation (h : Host) (call : Nat → M Unit) (v : Vm) (op : Op) (hop : op ∈ binaryOps) (fs : List Frame)
    (fa fb : Frame) (a b : BitVec 32) (hc : v.text[v.pc.toNat]? = some (UInt8.ofNat (number op)))
    (hs : Stk v (fs ++ [fb, fa])) (ha : frameInt v fa = .ok a) (hb : frameInt v fb = .ok b)
    (hd : ¬ OpDefined op a.toInt b.toInt) (hz : op = .div ∨ op = .mod → b ≠ 0) :
    (exec h call v).1 = .error .ub := by
  obtain ⟨w, i, _, _, _, he⟩ := exec_bin_err h call hop hc hs ha hb (binop_ub hop a b hd hz)
  rw [he]

/-- A script that divides the least number by minus one. -/
def overflowScript : Bytes :=
  assemble { op := .pushi, immediate := BitVec.allOnes 32, size := 5 } ++
  assemble { op := .pushi, immediate := 0x80000000#32, size := 5 } ++ assemble { op := .div } ++ assemble { op := .rsr }

/-- **C64** — a concrete script: a function that evaluates `-2147483648 / -1`. -/
theorem c64_script_violation :
    (unsafeCall {} 10 0 { syms := [{ name := b!"MAIN", type := .function, flags := 1, address := 0, index := 0 },
      { type := .string, count := 1, value := .strs [[]], index := 1 }], tmp := 1, text := overflowScript }).1 = .error .ub := by
  decide +kernel

/-- A function that uses a function with a parameter as a number. -/
def functionScript : Vm where
  syms := [
    { name := b!"MAIN", type := .function, flags := 1, address := 0, index := 0 },
    { name := b!"F", type := .function, flags := 1, address := 0, index := 1, count := 1 },
    { name := b!"F.X", type := .int, index := 2, count := 1, value := .ints (some [some 0]) },
    { type := .string, count := 1, value := .strs [[]], index := 3 }]
  tmp := 3
  text := assemble { op := .pushv, symbol := 1, size := 5 } ++ assemble { op := .not } ++ assemble { op := .rsr }

/-- **C64** — using a function with parameters as a number reads through a null pointer. -/
theorem c64_function_violation : (unsafeCall {} 10 0 functionScript).1 = .error .ub := by
  decide +kernel

/-- **C64**, what holds — the operators have defined behaviour for all operands whose result C++ defines or which divide by
zero, so scripts that avoid overflow and bad shifts are safe here. -/
theorem c64_operator_partial (op : Op) (hop : op ∈ binaryOps) (a b : BitVec 32)
    (h : OpDefined op a.toInt b.toInt ∨ (op = .div ∨ op = .mod) ∧ b = 0) : binop op a b ≠ .error .ub := by
  rcases h with h | ⟨h, rfl⟩
  · obtain ⟨r, hr, _⟩ := binop_ok hop a b h
    rw [hr]; simp
  · rw [binop_zero h]; simp

example : OpDefined .div (7 : BitVec 32).toInt (0 : BitVec 32).toInt ∨
    ((Op.div = .div ∨ Op.div = .mod) ∧ (0 : BitVec 32) = 0) := by simp

end Verif.Props
