import Verif.Lemmas.DaedalusEnds

/-!
# Daedalus: calls end (C111)
-/

namespace Verif.Props

open Verif.Daedalus
open Verif.Spec.Daedalus

/-- **C111** — a call ends in at most one way: what it does when it ends does not depend on how many instructions and nested calls the
machine was willing to execute. For every script, every host, every state. -/
theorem c111_once (h : Host) (y : Option Nat) (args : List Arg) (r : RType) (v : Vm) (m n : Nat)
    (hm : (callFunction h m y args r v).1 ≠ .error .hang) (hn : (callFunction h n y args r v).1 ≠ .error .hang) :
    callFunction h m y args r v = callFunction h n y args r v := by
  rcases Nat.le_total m n with hmn | hmn
  · exact (Le.callFunction hmn y args r v hm).symm
  · exact Le.callFunction hmn y args r v hn

/-- **C111** — the same for calls without arguments and results, and once a call has ended, more patience changes nothing. -/
theorem c111_more (h : Host) (y : Nat) (v : Vm) (m n : Nat) (hmn : m ≤ n) (hm : (unsafeCall h m y v).1 ≠ .error .hang) :
    unsafeCall h n y v = unsafeCall h m y v :=
  Le.unsafeCall hmn y v hm

/-- **C111** (partial): a call of a function of a script without loops and without recursion ends, with a result or with an exception
or in undefined behaviour, after at most as many instructions per activation as the code has bytes; whatever the values of variables,
whatever is on the stack. Missing: scripts with loops or recursion, and exception handlers, for which the claim is false. -/
theorem c111_ends_partial (h : Host) (L : BitVec 32 → Option Nat) (v : Vm) (hh : Prompt h) (hL : Straight h v.text L) (y : Nat)
    (f : Sym) (n : Nat) (hy : v.syms[y]? = some f) (hf : L f.address = some n) (args : List Arg) (r : RType) (fuel : Nat)
    (hfuel : v.text.length + n + 2 ≤ fuel) : (callFunction h fuel (some y) args r v).1 ≠ .error .hang := by
  have h1 := callFunction_onward hh hL hy hf args r
  rw [Le.callFunction hfuel (some y) args r v h1]
  exact h1

/-- **C111** — and in every state the script can be in later on: the state may be any with the same code and declarations. -/
theorem c111_ends_later_partial (h : Host) (L : BitVec 32 → Option Nat) (v w : Vm) (hh : Prompt h) (hL : Straight h v.text L)
    (hw : Same v w) (y : Nat) (f : Sym) (n : Nat) (hy : v.syms[y]? = some f) (hf : L f.address = some n) (fuel : Nat)
    (hfuel : v.text.length + n + 2 ≤ fuel) : (unsafeCall h fuel y w).1 ≠ .error .hang :=
  unsafeCall_onward hh hL n fuel hfuel y f hy hf w hw

/-- `MAIN` calls `F` if `X` is not zero; `F` sets `X` to 7. -/
def branching : Vm where
  syms := [
    { name := b!"MAIN", type := .function, flags := 1, address := 0, index := 0 },
    { name := b!"F", type := .function, flags := 1, address := 16, index := 1 },
    { name := b!"X", type := .int, index := 2, count := 1, value := .ints (some [some 3]) },
    { name := b!"$TMP", type := .string, index := 3, count := 1, value := .strs [[]] }]
  tmp := 3
  text := assemble { op := .pushv, symbol := 2 } ++ assemble { op := .bz, address := 15 } ++ assemble { op := .bl, address := 16 } ++
    assemble { op := .rsr } ++
    assemble { op := .pushi, immediate := 7 } ++ assemble { op := .pushv, symbol := 2 } ++ assemble { op := .movi } ++ assemble { op := .rsr }

/-- The addresses of its instructions; `MAIN` is of level one. -/
def branchingLevels (p : BitVec 32) : Option Nat :=
  if p ∈ [0, 5, 10, 15] then some 1 else if p ∈ [16, 21, 26, 27] then some 0 else none

example : Straight {} branching.text branchingLevels := by
  intro p n hp
  have hcases : p ∈ ([0, 5, 10, 15, 16, 21, 26, 27] : List (BitVec 32)) := by
    unfold branchingLevels at hp
    split at hp
    · rename_i h
      simp only [List.mem_cons, List.not_mem_nil, or_false] at h ⊢
      rcases h with rfl | rfl | rfl | rfl <;> simp
    · split at hp
      · rename_i h
        simp only [List.mem_cons, List.not_mem_nil, or_false] at h ⊢
        rcases h with rfl | rfl | rfl | rfl <;> simp
      · cases hp
  have hn : n = 1 ∨ n = 0 := by
    unfold branchingLevels at hp
    split at hp
    · cases hp; exact Or.inl rfl
    · split at hp
      · cases hp; exact Or.inr rfl
      · cases hp
  simp only [List.mem_cons, List.not_mem_nil, or_false] at hcases
  rcases hcases with rfl | rfl | rfl | rfl | rfl | rfl | rfl | rfl
  all_goals
    refine ⟨by decide +kernel, fun i s hd => ?_⟩
    rcases hn with rfl | rfl
    all_goals first
      | exact absurd hp (by decide +kernel)
      | cases hd; exact (by decide +kernel)
      | cases hd; exact trivial
      | cases hd; exact ⟨by decide +kernel, by decide +kernel⟩
      | cases hd; exact ⟨by decide +kernel, fun _ => ⟨0, by decide, by decide +kernel⟩⟩

example : Prompt {} where
  external := by intro _ _ h; cases h
  override_ := by intro _ _ h; cases h
  default_ := by intro _ _ h; cases h
  trap := by intro _ _ h; cases h
  handler := rfl

example : (callFunction {} (branching.text.length + 1 + 2) (some 0) [] .void branching).1 = .ok .none ∧
    (callFunction {} (branching.text.length + 1 + 2) (some 0) [] .void branching).2.syms[2]?.map Sym.value =
      some (.ints (some [some 7])) := by
  decide +kernel

/-! ## Where the claim fails -/

/-- A function that jumps to itself. -/
def endless : Vm where
  syms := [{ name := b!"MAIN", type := .function, flags := 1, address := 0, index := 0 },
    { name := b!"$TMP", type := .string, index := 1, count := 1, value := .strs [[]] }]
  tmp := 1
  text := assemble { op := .b, address := 0 }

/-- **C111** — a backward jump: the call never ends, and there is no limit that would stop it. -/
theorem c111_loop_violation (fuel : Nat) : (callFunction {} fuel (some 0) [] .void endless).1 = .error .hang := by
  refine callFunction_hangs (y := 0) rfl rfl rfl (by decide) rfl ?_
  cases fuel with
  | zero => rfl
  | succ k =>
    rw [unsafeCall_enter (f := { name := b!"MAIN", type := .function, flags := 1, address := 0, index := 0 }) rfl (by decide)
      (by decide) (by decide +kernel)]
    refine hang_bind (loop_hangs (S := fun v => v.text = endless.text ∧ v.pc = 0) (fun v hv => Or.inr ?_) k _ ⟨rfl, rfl⟩)
    obtain ⟨h1, h2⟩ := hv
    have hf := fetch_at (v := v) (i := { op := .b, address := 0, size := 5 }) (t := ⟨endless.text, 5⟩)
      (by rw [h1, h2]; decide +kernel) (by rw [h1, h2]; decide +kernel)
    refine ⟨{ v with textPos := 5, pc := 0 }, ?_, h1, rfl⟩
    unfold exec
    rw [M.bind_ok hf]
    unfold execInstr
    have : execOp {} (unsafeCall {} k) { op := .b, address := 0, size := 5 } { v with textPos := 5 } =
        (.ok .stay, { v with textPos := 5, pc := 0 }) := by
      show (jump 0 >>= fun _ => (Pure.pure Step.stay : M Step)) { v with textPos := 5 } = _
      rw [M.bind_ok (jump_eq (v := { v with textPos := 5 }) (by show _ < v.text.length; rw [h1]; decide +kernel))]
      rfl
    rw [this]

/-- A function that calls itself. -/
def recursive : Vm where
  syms := [{ name := b!"MAIN", type := .function, flags := 1, address := 0, index := 0 },
    { name := b!"$TMP", type := .string, index := 1, count := 1, value := .strs [[]] }]
  tmp := 1
  text := assemble { op := .bl, address := 0 }

theorem recursive_hangs (fuel : Nat) : ∀ v : Vm, v.text = recursive.text → v.syms = recursive.syms →
    (unsafeCall {} fuel 0 v).1 = .error .hang := by
  induction fuel with
  | zero => exact fun _ _ _ => rfl
  | succ k ih =>
    intro v hv1 hv2
    rw [unsafeCall_enter (f := { name := b!"MAIN", type := .function, flags := 1, address := 0, index := 0 }) (by rw [hv2]; rfl)
      (by decide) (by rw [hv2]; decide) (by rw [hv1]; decide +kernel)]
    refine hang_bind (loop_hangs (S := fun v => v.text = recursive.text ∧ v.syms = recursive.syms ∧ v.pc = 0)
      (fun v hv => Or.inl ?_) k _ ⟨hv1, hv2, rfl⟩)
    obtain ⟨h1, h2, h3⟩ := hv
    have hf := fetch_at (v := v) (i := { op := .bl, address := 0, size := 5 }) (t := ⟨recursive.text, 5⟩)
      (by rw [h1, h3]; decide +kernel) (by rw [h1, h3]; decide +kernel)
    unfold exec
    rw [M.bind_ok hf]
    unfold execInstr
    have : (execOp {} (unsafeCall {} k) { op := .bl, address := 0, size := 5 } { v with textPos := 5 }).1 = .error .hang := by
      show (execBl {} (unsafeCall {} k) 0 { v with textPos := 5 }).1 = _
      unfold execBl
      rw [M.get_bind]
      dsimp only
      rw [show findByAddress v.syms 0 = some 0 by rw [h2]; decide +kernel]
      exact hang_bind (ih _ h1 h2)
    match hx : execOp {} (unsafeCall {} k) { op := .bl, address := 0, size := 5 } { v with textPos := 5 } with
    | (.ok a, w) => rw [hx] at this; cases this
    | (.error e, w) => rw [hx] at this; cases this; rfl

/-- **C111** — a function that calls itself: the call never ends; there is no limit on the depth of calls either. -/
theorem c111_recursion_violation (fuel : Nat) : (callFunction {} fuel (some 0) [] .void recursive).1 = .error .hang :=
  callFunction_hangs (y := 0) rfl rfl rfl (by decide) rfl (recursive_hangs fuel recursive rfl rfl)

/-- `MAIN`, at the address 5, calls `F`, which returns a number and does nothing. The stack is full. -/
def stumbling : Vm where
  syms := [
    { name := b!"MAIN", type := .function, flags := 1, address := 5, index := 0 },
    { name := b!"F", type := .function, flags := 3, address := 0, index := 1, rtype := .int },
    { name := b!"$TMP", type := .string, index := 2, count := 1, value := .strs [[]] }]
  tmp := 2
  sp := 2048
  stack := List.replicate 2048 (some (.int 0))
  text := [60, 60, 60, 60, 60] ++ assemble { op := .bl, address := 0 } ++ assemble { op := .rsr }

/-- One round: the call of `F` fails when it is left, the handler goes on behind it, but the position is the one in `F` still. -/
theorem stumbling_round (k : Nat) (v : Vm) (h1 : v.text = stumbling.text) (h2 : v.syms = stumbling.syms) (h3 : v.pc = 5) (h4 : v.sp = 2048) :
    ∃ w, exec { handler := some lenient } (unsafeCall { handler := some lenient } (k + 2)) v = (.ok true, w) ∧
      w.text = stumbling.text ∧ w.syms = stumbling.syms ∧ w.pc = 5 ∧ w.sp = 2048 := by
  have hf := fetch_at (v := v) (i := { op := .bl, address := 0, size := 5 }) (t := ⟨stumbling.text, 10⟩)
    (by rw [h1, h3]; decide +kernel) (by rw [h1, h3]; decide +kernel)
  have hcall : unsafeCall { handler := some lenient } (k + 2) 1 { v with textPos := 10 } =
      (.error (.throw .daedalusVm), { v with textPos := 1, pc := 0, calls := ⟨1, 5, 2048, v.instance_⟩ :: v.calls }) := by
    rw [unsafeCall_enter (f := { name := b!"F", type := .function, flags := 3, address := 0, index := 1, rtype := .int })
      (by show v.syms[1]? = _; rw [h2]; rfl) (by decide) (by show _ ≤ v.syms.length; rw [h2]; decide)
      (by show _ < v.text.length; rw [h1]; decide +kernel)]
    have hloop : loop (exec { handler := some lenient } (unsafeCall { handler := some lenient } (k + 1))) (k + 1)
        { v with textPos := 10, pc := 0, calls := ⟨1, v.pc, v.sp.setWidth 32 - 0, v.instance_⟩ :: v.calls } =
        (.ok (), { v with textPos := 1, pc := 0, calls := ⟨1, 5, 2048, v.instance_⟩ :: v.calls }) := by
      have hg := fetch_at (v := { v with textPos := 10, pc := 0, calls := ⟨1, v.pc, v.sp.setWidth 32 - 0, v.instance_⟩ :: v.calls })
        (i := { op := .rsr }) (t := ⟨stumbling.text, 1⟩) (by show 0 < v.text.length; rw [h1]; decide +kernel)
        (by show decode ⟨v.text, 0⟩ = _; rw [h1]; decide +kernel)
      unfold loop exec
      rw [M.bind_def, M.bind_ok hg, h3, h4]
      rfl
    rw [M.bind_ok hloop]
    unfold popCall
    rw [M.get_bind]
    dsimp only
    rw [M.bind_ok (symAt_of (f := { name := b!"F", type := .function, flags := 3, address := 0, index := 1, rtype := .int })
      (by show v.syms[1]? = _; rw [h2]; rfl))]
    refine M.bind_err ?_
    unfold fixStack
    rw [M.get_bind]
    dsimp only
    rw [if_neg (by decide), if_pos (by rw [h4]; decide)]
    show push (.int 0) _ = _
    unfold push
    rw [M.get_bind]
    dsimp only
    rw [h4]
    rfl
  refine ⟨{ v with textPos := 1, pc := 5, calls := ⟨1, 5, 2048, v.instance_⟩ :: v.calls }, ?_, h1, h2, rfl, h4⟩
  unfold exec
  rw [M.bind_ok hf]
  unfold execInstr
  have : execOp { handler := some lenient } (unsafeCall { handler := some lenient } (k + 2)) { op := .bl, address := 0, size := 5 }
      { v with textPos := 10 } = (.error (.throw .daedalusVm), { v with textPos := 1, pc := 0, calls := ⟨1, 5, 2048, v.instance_⟩ :: v.calls }) := by
    show execBl { handler := some lenient } (unsafeCall { handler := some lenient } (k + 2)) 0 { v with textPos := 10 } = _
    unfold execBl
    rw [M.get_bind]
    dsimp only
    rw [show findByAddress v.syms 0 = some 1 by rw [h2]; decide +kernel]
    exact M.bind_err hcall
  rw [this]
  rfl

/-- **C111** — with the lenient handler a script without loops and recursion need not end either: on a full stack `F` cannot return its
value, the exception is raised while it is left, and the handler continues at a position computed from the one in `F`; here it is the
start of `MAIN` again. -/
theorem c111_handler_violation (fuel : Nat) :
    (callFunction { handler := some lenient } fuel (some 0) [] .void stumbling).1 = .error .hang := by
  refine callFunction_hangs (y := 0) rfl rfl rfl (by decide) rfl ?_
  have key : ∀ k, (unsafeCall { handler := some lenient } (k + 3) 0 stumbling).1 = .error .hang := by
    intro k
    rw [unsafeCall_enter (f := { name := b!"MAIN", type := .function, flags := 1, address := 5, index := 0 }) rfl (by decide)
      (by decide) (by decide +kernel)]
    exact hang_bind (loop_hangs (S := fun v => v.text = stumbling.text ∧ v.syms = stumbling.syms ∧ v.pc = 5 ∧ v.sp = 2048)
      (fun v hv => Or.inr (stumbling_round k v hv.1 hv.2.1 hv.2.2.1 hv.2.2.2)) (k + 2) _ ⟨rfl, rfl, rfl, rfl⟩)
  apply Classical.byContradiction
  intro hx
  have := c111_more { handler := some lenient } 0 stumbling fuel (fuel + 3) (by omega) hx
  rw [← this] at hx
  exact hx (key fuel)

/-- The levels of its instructions: without a handler it would end. -/
def stumblingLevels (p : BitVec 32) : Option Nat := if p = 5 ∨ p = 10 then some 1 else if p = 0 then some 0 else none

example : Straight {} stumbling.text stumblingLevels := by
  intro p n hp
  have hcases : p = 5 ∨ p = 10 ∨ p = 0 := by
    unfold stumblingLevels at hp
    split at hp
    · rename_i h; rcases h with h | h <;> simp [h]
    · split at hp
      · rename_i h; simp [h]
      · cases hp
  have hn : n = 1 ∨ n = 0 := by
    unfold stumblingLevels at hp
    split at hp
    · cases hp; exact Or.inl rfl
    · split at hp
      · cases hp; exact Or.inr rfl
      · cases hp
  rcases hcases with rfl | rfl | rfl
  all_goals
    refine ⟨by decide +kernel, fun i s hd => ?_⟩
    rcases hn with rfl | rfl
    all_goals first
      | exact absurd hp (by decide +kernel)
      | cases hd; exact trivial
      | cases hd; exact ⟨by decide +kernel, fun _ => ⟨0, by decide, by decide +kernel⟩⟩

end Verif.Props
