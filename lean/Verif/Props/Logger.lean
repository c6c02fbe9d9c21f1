import Verif.Model.Logger
import Mathlib.Data.List.Induction

/-! # Properties of the logger: C57 -/

namespace Verif.Props

open Log

/-- The settings of the most recent `set` of a history; without one, no callback and INFO. -/
def settings (ops : List Op) : Option Nat × Nat :=
  match (ops.filterMap fun | .set level cb => some (cb, level) | .log .. => none).getLast? with
  | some c => c
  | none => (none, 2)

/-- The callbacks due for the `i`-th call of a history. -/
def due (ops : List Op) (i : Nat) : List Call :=
  match ops[i]?, settings (ops.take i) with
  | some (.log level name message), (some cb, most) => if level ≤ most then [⟨cb, level, name, message.take 4094⟩] else []
  | _, _ => []

theorem settings_snoc_set (ops : List Op) (l : Nat) (cb : Option Nat) : settings (ops ++ [.set l cb]) = (cb, l) := by
  simp [settings]

theorem settings_snoc_log (ops : List Op) (l : Nat) (n m : Bytes) : settings (ops ++ [.log l n m]) = settings ops := by
  simp [settings]

theorem run_snoc (s : State) (ops : List Op) (op : Op) :
    run s (ops ++ [op]) = ((step (run s ops).1 op).1, (run s ops).2 ++ (step (run s ops).1 op).2) := by
  induction ops generalizing s with
  | nil => simp [run]
  | cons o ops ih => simp only [List.cons_append, run, ih, List.append_assoc]

theorem due_take (ops : List Op) (op : Op) (i : Nat) (h : i < ops.length) : due (ops ++ [op]) i = due ops i := by
  unfold due
  rw [List.getElem?_append_left h, List.take_append_of_le_length (Nat.le_of_lt h)]

/-- **C57** — the callbacks of a history are exactly those due, in the order of the calls. -/
theorem c57_calls (ops : List Op) : (run {} ops).2 = (List.range ops.length).flatMap (due ops) := by
  suffices h : (run {} ops).2 = (List.range ops.length).flatMap (due ops) ∧
      ((run {} ops).1.callback, (run {} ops).1.level) = settings ops from h.1
  induction ops using List.reverseRecOn with
  | nil => exact ⟨rfl, rfl⟩
  | append_singleton ops op ih =>
    obtain ⟨h1, h2⟩ := ih
    rw [run_snoc]
    refine ⟨?_, ?_⟩
    · simp only [List.length_append, List.length_singleton, List.range_succ, List.flatMap_append, List.flatMap_singleton]
      rw [h1]
      congr 1
      · rw [List.flatMap_def, List.flatMap_def]
        congr 1
        refine List.map_congr_left fun i hi => ?_
        exact (due_take ops op i (List.mem_range.1 hi)).symm
      · have hd : due (ops ++ [op]) ops.length =
            match op, settings ops with
            | .log level name message, (some cb, most) => if level ≤ most then [⟨cb, level, name, message.take 4094⟩] else []
            | _, _ => [] := by
          unfold due
          rw [List.getElem?_concat_length, List.take_left]
          cases op with
          | set => rfl
          | log =>
            rcases settings ops with ⟨_ | _, _⟩ <;> rfl
        rw [hd, ← h2]
        cases op with
        | set l cb => rfl
        | log l n m =>
          simp only [step]
          cases hcb : (run {} ops).1.callback with
          | none => rfl
          | some cb =>
            simp only
            by_cases hl : l ≤ (run {} ops).1.level
            · rw [if_neg (by omega), if_pos hl]; rfl
            · rw [if_pos (by omega), if_neg hl]
    · cases op with
      | set l cb => rw [settings_snoc_set]; rfl
      | log l n m =>
        rw [settings_snoc_log, ← h2]
        simp only [step]
        cases hcb : (run {} ops).1.callback with
        | none => simp [hcb]
        | some cb => simp only; split <;> simp [hcb]

/-- No callback, no call. -/
theorem c57_silent (ops : List Op) (h : ∀ level cb, Op.set level (some cb) ∉ ops) : (run {} ops).2 = [] := by
  rw [c57_calls]
  rw [List.flatMap_eq_nil_iff]
  intro i _
  unfold due
  split
  · rename_i level name message cb most _ hs
    exfalso
    unfold settings at hs
    split at hs
    · rename_i c hc
      subst hs
      have := List.mem_of_getLast? hc
      obtain ⟨op, hop, he⟩ := List.mem_filterMap.1 this
      cases op with
      | set l cb' =>
        simp only [Option.some.injEq, Prod.mk.injEq] at he
        rw [he.1] at hop
        exact h _ _ (List.mem_of_mem_take hop)
      | log => simp at he
    · simp at hs
  · rfl

example : (run {} [.log 0 b!"X" b!"early", .set 1 (some 7), .log 1 b!"X" b!"warn", .log 2 b!"X" b!"info", .set 2 (some 8),
    .log 2 b!"X" b!"info"]).2 = [⟨7, 1, b!"X", b!"warn"⟩, ⟨8, 2, b!"X", b!"info"⟩] := by decide +kernel

end Verif.Props
