import Verif.Lemmas.DaedalusRaise

/-!
# Daedalus: calls (C33), exceptions (C34), more of C64
-/

namespace Verif.Props

open Verif.Daedalus
open Verif.Spec.Daedalus

/-! ## C33 -/

/-- **C33** — a call of a script function that returns restores the position in the code, the context and the call stack of the
caller. For every byte code and every effect of host functions on the stack and on variables, without an exception handler. -/
theorem c33_frame (h : Host) (hb : Balanced h) (fuel y : Nat) (v w : Vm) (hc : unsafeCall h fuel y v = (.ok (), w)) :
    w.pc = v.pc ∧ w.instance_ = v.instance_ ∧ w.calls = v.calls :=
  have := unsafeCall_keeps hb fuel y hc
  ⟨this.pc, this.instance_, this.calls⟩

/-- **C33** — afterwards the stack is as deep as before, less the arguments, plus one exactly if the function returns a value.
For every byte code, whatever it does to the stack. -/
theorem c33_depth (h : Host) (hb : Balanced h) (fuel y : Nat) (f : Sym) (v w : Vm) (hy : v.syms[y]? = some f)
    (hl : f.hasLocals = false) (hv : f.hasReturn = true → isValue f.rtype)
    (hn : f.count.toNat ≤ v.sp.toNat) (hsp : v.sp.toNat ≤ 2048) (hc : unsafeCall h fuel y v = (.ok (), w)) :
    w.sp.toNat = v.sp.toNat - f.count.toNat + (if f.hasReturn then 1 else 0) :=
  unsafeCall_sp hb hy hl hv hn hsp hc

/-- A callee that negates what its caller has on the stack. -/
def thief : Vm where
  syms := [
    { name := b!"F", type := .function, flags := 1, address := 0, index := 0 },
    { type := .string, count := 1, value := .strs [[]], index := 1 }]
  tmp := 1
  text := assemble { op := .not } ++ assemble { op := .rsr }
  stack := [some (.int 5)]
  sp := 1

/-- **C33** — what is below of the arguments need not survive: a function without parameters and results changes the value its
caller left on the stack. -/
theorem c33_below_violation : Stk thief [.int 5] ∧ (unsafeCall {} 5 0 thief).1 = .ok () ∧
    Stk (unsafeCall {} 5 0 thief).2 [.int 0] := by
  refine ⟨⟨rfl, by decide, rfl⟩, by decide +kernel, ?_, by decide, ?_⟩
  · decide +kernel
  · decide +kernel

/-- **C33** — a function that is flagged as returning a value of type `void` and that pushes none returns none. -/
theorem c33_void_violation :
    let v : Vm := { syms := [{ name := b!"F", type := .function, flags := 3, address := 0, index := 0 },
      { type := .string, count := 1, value := .strs [[]], index := 1 }], tmp := 1, text := assemble { op := .rsr } }
    v.syms[0]?.map Sym.hasReturn = some true ∧ (unsafeCall {} 5 0 v).1 = .ok () ∧ (unsafeCall {} 5 0 v).2.sp = 0 := by
  decide +kernel

/-- **C33**, what holds — in code in which the number of values on the stack is known at each address, as a compiler emits it,
every call that returns leaves what is below of the arguments untouched, with exactly the results on top of it. For any number
of nested and recursive calls, with and without saving locals, jumps and loops, and any host functions that take their arguments
and push their results. -/
theorem c33_stack_partial (h : Host) (hb : Balanced h) (H : BitVec 32 → Option Nat) (v w : Vm) (hc : Compiled h v H)
    (fuel y : Nat) (f : Sym) (hy : v.syms[y]? = some f) (hf : f.type = .function) (hcl : Callable H f) (below args : List Frame)
    (hs : Stk v (below ++ args)) (ha : args.length = f.count.toNat) (hx : unsafeCall h fuel y v = (.ok (), w)) :
    ∃ rs, rs.length = (if f.hasReturn then 1 else 0) ∧ Stk w (below ++ rs) := by
  have hyt : y ≠ v.tmp := by
    intro he
    rw [he] at hy
    have := hc.tmp f hy
    rw [hf] at this
    cases this
  exact (unsafeCall_flow hc hb fuel y f v w hy hyt hcl (Same.refl v) hx).2 below args hs ha

/-- `MAIN` calls `ADD(7, 2)`, which has two parameters and a result, and returns what it gets, negated. `ADD` starts at 16. -/
def adder : Vm where
  syms := [
    { name := b!"MAIN", type := .function, flags := 3, address := 0, index := 0, rtype := .int },
    { name := b!"ADD", type := .function, flags := 3, address := 17, index := 1, count := 2, rtype := .int },
    { name := b!"ADD.A", type := .int, index := 2, count := 1, value := .ints (some [some 0]) },
    { name := b!"ADD.B", type := .int, index := 3, count := 1, value := .ints (some [some 0]) },
    { type := .string, count := 1, value := .strs [[]], index := 4 }]
  tmp := 4
  text := assemble { op := .pushi, immediate := 7, size := 5 } ++ assemble { op := .pushi, immediate := 2, size := 5 } ++
    assemble { op := .bl, address := 17, size := 5 } ++ assemble { op := .negate } ++ assemble { op := .rsr } ++
    assemble { op := .add } ++ assemble { op := .rsr }
  stack := [some (.int 5)]
  sp := 1

/-- The number of values at each address. -/
def adderHeights (p : BitVec 32) : Option Nat :=
  [(0, 0), (5, 1), (10, 2), (15, 1), (16, 1), (17, 2), (18, 1)].lookup p.toNat

theorem balanced_none : Balanced {} :=
  ⟨nofun, nofun, nofun, nofun, rfl⟩

theorem heights_mem {n : Nat} : ∀ {l : List (Nat × Nat)} {k : Nat}, l.lookup k = some n → (k, n) ∈ l
  | [], _, h => by cases h
  | a :: l, k, h => by
    rw [List.lookup_cons] at h
    split at h
    · next hk =>
      have : k = a.1 := by simpa using hk
      cases h
      rw [this]
      exact List.mem_cons_self
    · exact List.mem_cons_of_mem _ (heights_mem h)

/-- The hypotheses hold for a program with a call. -/
theorem adder_compiled : Compiled {} adder adderHeights := by
  have hd : ∀ p ∈ [(0, 0), (5, 1), (10, 2), (15, 1), (16, 1), (17, 2), (18, 1)], ∀ q : BitVec 32, q.toNat = p.1 →
      (q.toNat < adder.text.length ∧ ∀ i s, decode ⟨adder.text, q.toNat⟩ = .ok (i, s) → Flow {} adder adderHeights q p.2 i) := by
    intro p hp q hq
    have hq' : q = BitVec.ofNat 32 p.1 := BitVec.eq_of_toNat_eq (by
      rw [hq, BitVec.toNat_ofNat]
      simp only [List.mem_cons, List.not_mem_nil, or_false] at hp
      rcases hp with rfl | rfl | rfl | rfl | rfl | rfl | rfl <;> rfl)
    subst hq'
    simp only [List.mem_cons, List.not_mem_nil, or_false] at hp
    rcases hp with rfl | rfl | rfl | rfl | rfl | rfl | rfl
    all_goals refine ⟨by decide, fun i s hi => ?_⟩
    all_goals cases hi
    · show adderHeights 5 = some 1; decide
    · show adderHeights 10 = some 2; decide
    · exact ⟨1, _, by decide, rfl, by decide, by decide, ⟨by decide, fun _ => trivial⟩⟩
    · show 1 ≤ 1 ∧ adderHeights 16 = some 1; decide
    · exact trivial
    · show 2 ≤ 2 ∧ adderHeights 18 = some 1; decide
    · exact trivial
  refine ⟨fun p n hp => ?_, fun t ht => by cases ht; rfl, fun y f hy hl => ?_⟩
  · unfold adderHeights at hp
    exact hd (p.toNat, n) (heights_mem hp) p rfl
  · have : adder.syms.all (fun f => !f.hasLocals) = true := by decide +kernel
    have := List.all_eq_true.mp this f (List.mem_of_getElem? hy)
    rw [hl] at this
    cases this

example : Callable adderHeights { name := b!"MAIN", type := .function, flags := 3, address := 0, index := 0, rtype := .int } :=
  ⟨by decide, fun _ => trivial⟩
example : (unsafeCall {} 9 0 adder).1 = .ok () ∧ (unsafeCall {} 9 0 adder).2.stack.take 2 = [some (.int 5), some (.int (-9))] := by
  decide +kernel

/-- `DOWN(N)` calls itself with `N - 1` until `N` is zero. It saves its local `T` over each call. -/
def descent : Vm where
  syms := [
    { name := b!"DOWN", type := .function, flags := 129, address := 0, index := 0, count := 1 },
    { name := b!"DOWN.N", type := .int, index := 1, count := 1, value := .ints (some [some 0]) },
    { name := b!"DOWN.T", type := .int, index := 2, count := 1, value := .ints (some [some 7]) },
    { name := b!"T", type := .string, count := 1, value := .strs [[]], index := 3 }]
  tmp := 3
  text := assemble { op := .pushv, symbol := 1, size := 5 } ++ assemble { op := .movi } ++
    assemble { op := .pushv, symbol := 1, size := 5 } ++ assemble { op := .bz, address := 32, size := 5 } ++
    assemble { op := .pushi, immediate := 1, size := 5 } ++ assemble { op := .pushv, symbol := 1, size := 5 } ++
    assemble { op := .sub } ++ assemble { op := .bl, address := 0, size := 5 } ++ assemble { op := .rsr }
  stack := [some (.int 5), some (.int 3)]
  sp := 2

def descentHeights (p : BitVec 32) : Option Nat :=
  [(0, 1), (5, 2), (6, 0), (11, 1), (16, 0), (21, 1), (26, 2), (27, 1), (32, 0)].lookup p.toNat

/-- The hypotheses hold for a recursive function that saves its locals. -/
theorem descent_compiled : Compiled {} descent descentHeights := by
  have hd : ∀ p ∈ [(0, 1), (5, 2), (6, 0), (11, 1), (16, 0), (21, 1), (26, 2), (27, 1), (32, 0)], ∀ q : BitVec 32, q.toNat = p.1 →
      (q.toNat < descent.text.length ∧
        ∀ i s, decode ⟨descent.text, q.toNat⟩ = .ok (i, s) → Flow {} descent descentHeights q p.2 i) := by
    intro p hp q hq
    have hq' : q = BitVec.ofNat 32 p.1 := BitVec.eq_of_toNat_eq (by
      rw [hq, BitVec.toNat_ofNat]
      simp only [List.mem_cons, List.not_mem_nil, or_false] at hp
      rcases hp with rfl | rfl | rfl | rfl | rfl | rfl | rfl | rfl | rfl <;> rfl)
    subst hq'
    simp only [List.mem_cons, List.not_mem_nil, or_false] at hp
    rcases hp with rfl | rfl | rfl | rfl | rfl | rfl | rfl | rfl | rfl
    all_goals refine ⟨by decide, fun i s hi => ?_⟩
    all_goals cases hi
    · exact ⟨(by decide : descentHeights 5 = some 2), nofun⟩
    · show 2 ≤ 2 ∧ descentHeights 6 = some 0; decide
    · exact ⟨(by decide : descentHeights 11 = some 1), nofun⟩
    · show 1 ≤ 1 ∧ descentHeights 16 = some 0 ∧ descentHeights 32 = some 0; decide
    · show descentHeights 21 = some 1; decide
    · exact ⟨(by decide : descentHeights 26 = some 2), nofun⟩
    · show 2 ≤ 2 ∧ descentHeights 27 = some 1; decide
    · exact ⟨0, _, by decide, rfl, by decide, by decide, ⟨by decide, fun h => nomatch h⟩⟩
    · exact trivial
  refine ⟨fun p n hp => ?_, fun t ht => by cases ht; rfl, fun y f hy hl => ?_⟩
  · unfold descentHeights at hp
    exact hd (p.toNat, n) (heights_mem hp) p rfl
  · have : descent.syms.all (fun f => !f.hasLocals || !(localsOf descent f).contains descent.tmp) = true := by decide +kernel
    have := List.all_eq_true.mp this f (List.mem_of_getElem? hy)
    rw [hl] at this
    simpa using this

example : localsOf descent { name := b!"DOWN", type := .function, flags := 129, address := 0, index := 0, count := 1 } = [2] := by
  decide +kernel
example : (unsafeCall {} 30 0 descent).1 = .ok () ∧ (unsafeCall {} 30 0 descent).2.stack.take 1 = [some (.int 5)] ∧
    (unsafeCall {} 30 0 descent).2.sp = 1 := by decide +kernel

/-! ## C34 -/

/-- **C34** — whenever an external raises a script error, its frame stays on the call stack, so that with a handler that lets
execution continue the enclosing function "returns" into itself. -/
theorem c34_leak_violation (h : Host) (call : Nat → M Unit) (i : Instr) (cb : M Unit) (v u : Vm) (f : Sym) (e : Exc)
    (hi : i.op = .be) (he : h.external i.symbol.toNat = some cb) (hf : v.syms[i.symbol.toNat]? = some f)
    (hl : f.hasLocals = false) (hp : f.index.toNat + f.count.toNat + 1 ≤ v.syms.length)
    (hcb : cb { v with calls := ⟨i.symbol.toNat, v.pc, v.sp.setWidth 32 - f.count, v.instance_⟩ :: v.calls } =
      (.error (.throw e), u))
    (hk : u.calls = ⟨i.symbol.toNat, v.pc, v.sp.setWidth 32 - f.count, v.instance_⟩ :: v.calls) :
    (execOp h call i v).2.calls = ⟨i.symbol.toNat, v.pc, v.sp.setWidth 32 - f.count, v.instance_⟩ :: v.calls :=
  (execBe_leak hi he hf hl hp hcb hk).1

/-- `MAIN` calls `F` and then sets `X` to five; `F` calls an external and returns. -/
def leaky : Vm where
  syms := [
    { name := b!"MAIN", type := .function, flags := 1, address := 0, index := 0 },
    { name := b!"F", type := .function, flags := 1, address := 17, index := 1 },
    { name := b!"EXT", type := .function, flags := 9, address := 0, index := 2 },
    { name := b!"X", type := .int, index := 3, count := 1, value := .ints (some [some 0]) },
    { type := .string, count := 1, value := .strs [[]], index := 4 }]
  tmp := 4
  text := assemble { op := .bl, address := 17, size := 5 } ++ assemble { op := .pushi, immediate := 5, size := 5 } ++
    assemble { op := .pushv, symbol := 3, size := 5 } ++ assemble { op := .movi } ++ assemble { op := .rsr } ++
    assemble { op := .be, symbol := 2, size := 5 } ++ assemble { op := .rsr }

/-- A host whose external does something, and the lenient handler. -/
def leakyHost (p : M Unit) : Host :=
  { external := fun y => if y = 2 then some p else none, handler := some lenient }

/-- What happens: `X` and the depth of the call stack after `MAIN`. -/
def leakyRun (p : M Unit) : Except Fail Unit × Option SymVal × Nat :=
  let r := unsafeCall (leakyHost p) 9 0 leaky
  (r.1, (r.2.syms[3]?).map Sym.value, r.2.calls.length)

/-- **C34** — a concrete program: if the external raises, `MAIN` does not go on after its call of `F`, and a frame stays
behind. -/
theorem c34_resume_violation :
    leakyRun (Pure.pure ()) = (.ok (), some (.ints (some [some 5])), 0) ∧
    leakyRun (M.throw .daedalusVm) = (.ok (), some (.ints (some [some 0])), 1) := by
  decide +kernel

/-- **C34**, what holds — any other instruction, including calls of overridden functions and of the default external, leaves
the call stack alone if it raises, with any handler that does so too. -/
theorem c34_calls_partial (h : Host) (call : Nat → M Unit) (i : Instr) (v : Vm)
    (ht : ∀ t y v, h.trap = some t → (t y v).2.calls = v.calls)
    (hbl : i.op = .bl → ∃ p, h.override_ i.address = some p ∧ ∀ v, (p v).2.calls = v.calls)
    (hbe : i.op = .be → h.external i.symbol.toNat = none ∧ ∀ d y v, h.default_ = some d → (d y v).2.calls = v.calls)
    (hh : ∀ hd e i v, h.handler = some hd → (hd e i v).2.calls = v.calls) :
    (execInstr h call i v).2.calls = v.calls :=
  execInstr_calls (CallsSame.execOp (fun t y ht' v => ht t y v ht') hbl (fun hi => ⟨(hbe hi).1, fun d y hd v => (hbe hi).2 d y v hd⟩))
    (fun hd e i h' v => hh hd e i v h') v

/-- The lenient handler is one. -/
theorem c34_lenient (e : Exc) (i : Instr) (v : Vm) : (lenient e i v).2.calls = v.calls := (Kp.lenient e i v).calls

/-- A machine about to divide by zero inside of a function. -/
def vmDiv : Vm :=
  { syms := [], tmp := 0, stack := [some (.int 0), some (.int 7)], sp := 2, calls := [⟨0, 3, 0, none⟩] }

example : (execInstr { handler := some lenient } (fun _ => M.ub) { op := .div } vmDiv).1 = .ok true ∧
    (execInstr { handler := some lenient } (fun _ => M.ub) { op := .div } vmDiv).2.calls = vmDiv.calls := by
  decide +kernel

/-- **C34**, the lenient handler in full — for every instruction that leaves a value on the stack it pushes the number 0, for
every other instruction it does nothing; execution goes on. -/
theorem c34_lenient_result (e : Exc) (i : Instr) {v : Vm} {fs : List Frame} (hs : Stk v fs) (hl : fs.length < stackSize) :
    ∃ w, lenient e i v = (.ok .continue_, w) ∧ w.pc = v.pc ∧
      Stk w (if i.op ∈ binaryOps ∨ i.op ∈ unaryOps ∨ i.op = .pushi ∨ i.op = .pushv ∨ i.op = .pushvi ∨ i.op = .pushvv
        then fs ++ [.int 0] else fs) := by
  obtain ⟨p1, p2⟩ := push_ok (.int 0) hs hl
  have hp : (do pushInt 0; return Strategy.continue_ : M Strategy) v =
      (.ok .continue_, { v with stack := putSlot v.stack fs.length (.int 0), sp := v.sp + 1 }) := by
    rw [M.bind_ok (show pushInt 0 v = _ from p1)]
    rfl
  unfold lenient
  cases hop : i.op
  all_goals first
    | exact ⟨_, hp, rfl, by rw [if_pos (by decide)]; exact p2⟩
    | exact ⟨v, rfl, rfl, by rw [if_neg (by simp [binaryOps, unaryOps])]; exact hs⟩

/-- **C34** — a division by zero under the lenient handler: the operands are gone, the result is 0, execution goes on with the
next instruction. -/
theorem c34_lenient_division {v : Vm} {fs : List Frame} {fa fb : Frame} {a : BitVec 32} (i : Instr)
    (hop : i.op = .div ∨ i.op = .mod) (hs : Stk v (fs ++ [fb, fa])) (ha : frameInt v fa = .ok a) (hb : frameInt v fb = .ok 0)
    (call : Nat → M Unit) :
    ∃ w, execInstr { handler := some lenient } call i v = (.ok true, w) ∧ Stk w (fs ++ [.int 0]) ∧
      w.pc = v.pc + BitVec.ofNat 32 i.size ∧ w.calls = v.calls := by
  obtain ⟨u, ho, hsu, he⟩ := execBin_ok i.op hs ha hb
  have hbin : i.op ∈ binaryOps := by rcases hop with h | h <;> rw [h] <;> decide
  have hz : execOp { handler := some lenient } call i v = (.error (.throw .daedalusVm), u) := by
    rw [execOp_bin hbin _ _ _ rfl, he, binop_zero hop]
    rfl
  have hlen : fs.length < stackSize := by
    have := hs.2.1
    simp only [List.length_append, List.length_cons, List.length_nil] at this
    omega
  obtain ⟨w, h1, h2, h3⟩ := c34_lenient_result .daedalusVm i hsu hlen
  rw [if_pos (.inl hbin)] at h3
  have hcalls : w.calls = u.calls := by
    have := c34_lenient .daedalusVm i u
    rw [h1] at this
    exact this
  refine ⟨{ w with pc := w.pc + BitVec.ofNat 32 i.size }, ?_, h3, ?_, ?_⟩
  · unfold execInstr
    rw [hz]
    dsimp only
    rw [if_pos (by decide)]
    unfold execCatch
    rw [M.get_bind]
    dsimp only
    rw [M.bind_ok h1]
    dsimp only
    rw [M.get_bind, if_pos h2]
    rfl
  · show w.pc + _ = _
    rw [h2, show u.pc = v.pc by rw [ho]]
  · show w.calls = _
    rw [hcalls, ho]

-- `vmDiv` meets the hypotheses: its stack holds the two operands of the division.
example : Stk { vmDiv with stack := putSlot (putSlot vmDiv.stack 0 (.int 0)) 1 (.int 7), sp := 2 } ([] ++ [.int 0, .int 7]) :=
  ⟨by decide +kernel, by decide +kernel, by decide +kernel⟩

/-! ## C64 -/

/-- `MAIN` calls a function with a parameter without pushing an argument, then pushes a number. -/
def underflow : Vm where
  syms := [
    { name := b!"MAIN", type := .function, flags := 1, address := 0, index := 0 },
    { name := b!"F", type := .function, flags := 1, address := 10, index := 1, count := 1 },
    { name := b!"F.X", type := .int, index := 2, count := 1, value := .ints (some [some 0]) },
    { type := .string, count := 1, value := .strs [[]], index := 3 }]
  tmp := 3
  text := assemble { op := .bl, address := 10, size := 5 } ++ assemble { op := .pushi, immediate := 5, size := 5 } ++
    assemble { op := .rsr }

/-- **C64** — a script can write outside of the stack: a call with too few arguments moves the stack pointer below zero. -/
theorem c64_underflow_violation : (unsafeCall {} 9 0 underflow).1 = .error .ub := by
  decide +kernel

end Verif.Props
