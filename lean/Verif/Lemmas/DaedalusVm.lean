import Verif.Spec.Daedalus

/-!
# Lemmas about the Daedalus virtual machine: operations and the stack
-/

namespace Verif.Daedalus

namespace M

@[simp] theorem pure_def {α} (a : α) (v : Vm) : (Pure.pure a : M α) v = (.ok a, v) := rfl

theorem bind_def {α β} (p : M α) (f : α → M β) (v : Vm) :
    (p >>= f) v = match p v with
      | (.ok a, v') => f a v'
      | (.error e, v') => (.error e, v') := rfl

theorem bind_ok {α β} {p : M α} {f : α → M β} {v v' : Vm} {a : α} (h : p v = (.ok a, v')) :
    (p >>= f) v = f a v' := by
  rw [bind_def, h]

theorem bind_err {α β} {p : M α} {f : α → M β} {v v' : Vm} {e : Fail} (h : p v = (.error e, v')) :
    (p >>= f) v = (.error e, v') := by
  rw [bind_def, h]

/-- A sequence that ends well: both parts do. -/
theorem bind_inv {α β} {p : M α} {f : α → M β} {v v'' : Vm} {b : β} (h : (p >>= f) v = (.ok b, v'')) :
    ∃ a v', p v = (.ok a, v') ∧ f a v' = (.ok b, v'') := by
  rw [bind_def] at h
  match hp : p v, h with
  | (.ok a, v'), h => exact ⟨a, v', rfl, h⟩
  | (.error e, v'), h => cases h

@[simp] theorem get_def (v : Vm) : M.get v = (.ok v, v) := rfl
@[simp] theorem set_def (v w : Vm) : M.set w v = (.ok (), w) := rfl
@[simp] theorem lift_def {α} (r : Except Fail α) (v : Vm) : M.lift r v = (r, v) := rfl
@[simp] theorem fail_def {α} (e : Fail) (v : Vm) : (M.fail e : M α) v = (.error e, v) := rfl
@[simp] theorem throw_def {α} (e : Exc) (v : Vm) : (M.throw e : M α) v = (.error (.throw e), v) := rfl
@[simp] theorem ub_def {α} (v : Vm) : (M.ub : M α) v = (.error .ub, v) := rfl

@[simp] theorem get_bind {β} (f : Vm → M β) (v : Vm) : (M.get >>= f) v = f v v := rfl
@[simp] theorem pure_bind' {α β} (a : α) (f : α → M β) : ((Pure.pure a : M α) >>= f) = f a := rfl
@[simp] theorem set_bind {β} (w : Vm) (f : Unit → M β) (v : Vm) : (M.set w >>= f) v = f () w := rfl
@[simp] theorem setSp_bind {β} (sp : BitVec 16) (f : Unit → M β) (v : Vm) :
    (setSp sp >>= f) v = f () { v with sp := sp } := rfl

end M

@[simp] theorem setSp_def (sp : BitVec 16) (v : Vm) : setSp sp v = (.ok (), { v with sp := sp }) := rfl

/-! ## The stack as a list of frames -/

/-- Only the stack changed. -/
def StackOnly (v v' : Vm) : Prop := v' = { v with stack := v'.stack, sp := v'.sp }

theorem StackOnly.refl (v : Vm) : StackOnly v v := rfl

theorem StackOnly.trans {a b c : Vm} (h1 : StackOnly a b) (h2 : StackOnly b c) : StackOnly a c := by
  unfold StackOnly at *
  rw [h2, h1]

theorem Stk.len {v : Vm} {fs : List Frame} (h : Stk v fs) : fs.length ≤ v.stack.length := by
  have := congrArg List.length h.2.2
  simp only [List.length_take, List.length_map] at this
  omega

theorem Stk.get {v : Vm} {fs : List Frame} (h : Stk v fs) (i : Nat) (hi : i < fs.length) :
    v.stack[i]? = some (some fs[i]) := by
  have h2 := congrArg (·[i]?) h.2.2
  simp only [List.getElem?_take, hi, if_true, List.getElem?_map, List.getElem?_eq_getElem hi, Option.map_some] at h2
  exact h2

theorem putSlot_take {stack : List (Option Frame)} {n : Nat} (f : Frame) (h : n ≤ stack.length) :
    (putSlot stack n f).take (n + 1) = stack.take n ++ [some f] := by
  unfold putSlot
  by_cases hn : n < stack.length
  · rw [if_pos hn]
    rw [List.set_eq_take_append_cons_drop]
    rw [if_pos hn, List.take_append]
    have : (List.take n stack).length = n := by rw [List.length_take]; omega
    rw [this, show n + 1 - n = 1 by omega, List.take_of_length_le (by omega)]
    rfl
  · rw [if_neg hn]
    have : n = stack.length := by omega
    subst this
    simp [List.take_of_length_le]

theorem stackPut_ok {v : Vm} {i : Nat} {f : Frame} (h : i < stackSize) :
    stackPut i f v = (.ok (), { v with stack := putSlot v.stack i f }) := by
  unfold stackPut
  rw [if_neg (by omega)]

theorem stackGet_ok {v : Vm} {i : Nat} {f : Frame} (h : i < stackSize) (hf : v.stack[i]? = some (some f)) :
    stackGet i v = (.ok f, v) := by
  unfold stackGet
  rw [if_neg (by omega), hf]

theorem sp_ne_full {v : Vm} {fs : List Frame} (h : Stk v fs) (hl : fs.length < stackSize) :
    ¬ v.sp = BitVec.ofNat 16 stackSize := by
  intro he
  have := h.1
  rw [he] at this
  simp [stackSize] at this hl
  omega

theorem push_ok {v : Vm} {fs : List Frame} (f : Frame) (h : Stk v fs) (hl : fs.length < stackSize) :
    push f v = (.ok (), { v with stack := putSlot v.stack fs.length f, sp := v.sp + 1 }) ∧
    Stk { v with stack := putSlot v.stack fs.length f, sp := v.sp + 1 } (fs ++ [f]) := by
  have hsp := h.1
  constructor
  · unfold push
    rw [M.get_bind, if_neg (sp_ne_full h hl), M.bind_ok (stackPut_ok (by rw [hsp]; exact hl)), setSp_def, hsp]
  · refine ⟨?_, by simp; omega, ?_⟩
    · rw [BitVec.toNat_add, hsp]
      simp [stackSize] at hl ⊢
      omega
    · simp only [List.length_append, List.length_singleton, List.map_append, List.map_cons, List.map_nil]
      rw [putSlot_take f h.len, h.2.2]

theorem push_full {v : Vm} {fs : List Frame} (f : Frame) (h : Stk v fs) (hl : fs.length = stackSize) :
    push f v = (.error (.throw .daedalusVm), v) := by
  have : v.sp = BitVec.ofNat 16 stackSize := by
    apply BitVec.eq_of_toNat_eq
    rw [h.1, hl]; rfl
  unfold push
  rw [M.get_bind, if_pos this]
  rfl

theorem sp_zero {v : Vm} (h : Stk v []) : v.sp = 0 := by
  apply BitVec.eq_of_toNat_eq
  rw [h.1]; rfl

theorem sp_ne_zero {v : Vm} {fs : List Frame} {f : Frame} (h : Stk v (fs ++ [f])) : ¬ v.sp = 0 := by
  intro he
  have := h.1
  rw [he] at this
  simp at this

theorem putSlot_take_le {stack : List (Option Frame)} {n i : Nat} (f : Frame) (h : n ≤ i) (hl : n ≤ stack.length) :
    (putSlot stack i f).take n = stack.take n := by
  unfold putSlot
  split
  · rw [List.take_set_of_le h]
  · rw [List.append_assoc, List.take_append, show n - stack.length = 0 by omega]
    simp

theorem sp_sub_one {v : Vm} {n : Nat} (h : v.sp.toNat = n + 1) : (v.sp - 1).toNat = n := by
  have := v.sp.isLt
  rw [BitVec.toNat_sub, h]
  simp
  omega

theorem take_ok {v : Vm} {fs : List Frame} {f : Frame} (h : Stk v (fs ++ [f])) :
    take v = (.ok f, { v with stack := putSlot v.stack fs.length f.moved, sp := v.sp - 1 }) ∧
    Stk { v with stack := putSlot v.stack fs.length f.moved, sp := v.sp - 1 } fs := by
  have hsp : v.sp.toNat = fs.length + 1 := by have := h.1; simpa using this
  have hs := sp_sub_one hsp
  have hle := h.2.1
  simp only [List.length_append, List.length_singleton] at hle
  constructor
  · unfold take
    rw [M.get_bind, M.setSp_bind, hs]
    have hg := h.get fs.length (by simp)
    simp only [List.getElem_concat_length] at hg
    rw [M.bind_ok (stackGet_ok (v := { v with sp := v.sp - 1 }) (by omega) hg), M.bind_ok (stackPut_ok (by omega))]
    rfl
  · refine ⟨hs, by omega, ?_⟩
    have hl := h.len
    simp only [List.length_append, List.length_singleton] at hl
    show List.take fs.length (putSlot v.stack fs.length f.moved) = _
    rw [putSlot_take_le _ (Nat.le_refl _) (by omega)]
    have := congrArg (List.take fs.length) h.2.2
    rw [List.take_take, List.map_append, List.take_append] at this
    simp only [List.length_append, List.length_singleton, List.length_map, Nat.sub_self, List.take_zero, List.append_nil]
      at this
    rw [Nat.min_eq_left (by omega)] at this
    rw [this, List.take_of_length_le (by simp)]

/-- `Stk` determines the frames. -/
theorem Stk.unique {v : Vm} {fs gs : List Frame} (h : Stk v fs) (h' : Stk v gs) : fs = gs := by
  have hl : fs.length = gs.length := by rw [← h.1, ← h'.1]
  have := h.2.2
  rw [hl, h'.2.2] at this
  exact ((List.map_inj_right (fun _ _ h => Option.some.inj h)).mp this).symm

/-- `Stk` depends on the stack only. -/
theorem Stk.congr {v w : Vm} {fs : List Frame} (h : Stk v fs) (h1 : w.stack = v.stack) (h2 : w.sp = v.sp) : Stk w fs := by
  unfold Stk
  rw [h1, h2]
  exact h

/-- A prefix of the frames after lowering the stack pointer. -/
theorem Stk.lower {v : Vm} {fs gs : List Frame} (h : Stk v (fs ++ gs)) {sp : BitVec 16} (hsp : sp.toNat = fs.length) :
    Stk { v with sp := sp } fs := by
  have hle := h.2.1
  simp only [List.length_append] at hle
  refine ⟨hsp, by omega, ?_⟩
  have := congrArg (List.take fs.length) h.2.2
  rw [List.take_take, List.map_append, List.take_append] at this
  simp only [List.length_append, List.length_map, Nat.sub_self, List.take_zero, List.append_nil] at this
  rw [Nat.min_eq_left (by omega)] at this
  show v.stack.take fs.length = _
  rw [this, List.take_of_length_le (by simp)]

end Verif.Daedalus
