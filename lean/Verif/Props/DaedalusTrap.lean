import Verif.Lemmas.DaedalusTrap
import Verif.Lemmas.MeshSave

/-!
# Access traps (C109)
-/

namespace Verif.Props

open Verif.Daedalus Verif.Spec.Daedalus

/-! ## Arming -/

/-- One bit more. -/
theorem bit_on {k : Nat} {m : BitVec 32} (hm : ∀ i < 32, m.getLsbD i = decide (i = k)) (f : BitVec 32) {i : Nat} (hi : i ≠ k) :
    (f ||| m).getLsbD i = f.getLsbD i := by
  by_cases h : i < 32
  · rw [BitVec.getLsbD_or, hm i h, decide_eq_false hi, Bool.or_false]
  · rw [BitVec.getLsbD_of_ge _ _ (by omega), BitVec.getLsbD_of_ge _ _ (by omega)]

/-- One bit less. -/
theorem bit_off {k : Nat} {m : BitVec 32} (hm : ∀ i < 32, m.getLsbD i = decide (i = k)) (f : BitVec 32) {i : Nat} (hi : i ≠ k) :
    (f &&& ~~~m).getLsbD i = f.getLsbD i := by
  by_cases h : i < 32
  · rw [BitVec.getLsbD_and, BitVec.getLsbD_not, hm i h, decide_eq_false hi, decide_eq_true h]
    exact Bool.and_true _
  · rw [BitVec.getLsbD_of_ge _ _ (by omega), BitVec.getLsbD_of_ge _ _ (by omega)]

/-- **C109**: the setter changes whether the symbol is trapped and nothing else. -/
theorem c109_enable (b : Bool) (s : Sym) : (s.setAccessTrap b).hasAccessTrap = b ∧
    { s.setAccessTrap b with flags := s.flags } = s ∧
    ∀ i, i ≠ 6 → (s.setAccessTrap b).flags.getLsbD i = s.flags.getLsbD i := by
  have e : ∀ i < 32, (64#32).getLsbD i = decide (i = 6) := by decide
  unfold Sym.setAccessTrap Sym.hasAccessTrap
  cases b
  · exact ⟨by simp, rfl, fun i hi => bit_off e _ hi⟩
  · exact ⟨by simp, rfl, fun i hi => bit_on e _ hi⟩

/-- The same for the flag that makes calls save locals. -/
theorem c109_locals (b : Bool) (s : Sym) : (s.setLocals b).hasLocals = b ∧
    { s.setLocals b with flags := s.flags } = s ∧
    ∀ i, i ≠ 7 → (s.setLocals b).flags.getLsbD i = s.flags.getLsbD i := by
  have e : ∀ i < 32, (128#32).getLsbD i = decide (i = 7) := by decide
  unfold Sym.setLocals Sym.hasLocals
  cases b
  · exact ⟨by simp, rfl, fun i hi => bit_off e _ hi⟩
  · exact ⟨by simp, rfl, fun i hi => bit_on e _ hi⟩

example : ({ flags := 2 } : Sym).setAccessTrap true = { flags := 66 } := rfl

/-! ## Uses of the variable -/

/-- **C109**: where a script names a trapped variable the trap is called with it, and what the trap does is all that happens. -/
theorem c109_called {h : Host} {t : Nat → M Unit} (ht : h.trap = some t) {i : Instr} (hop : i.op = .pushv ∨ i.op = .pushvi)
    {v : Vm} {s : Sym} (hs : v.syms[i.symbol.toNat]? = some s) (hy : s.hasAccessTrap = true) (call : Nat → M Unit) :
    execOp h call i v = (match t i.symbol.toNat v with
      | (.ok _, w) => (.ok .next, w)
      | (.error e, w) => (.error e, w)) := by
  have e : symByIndex i.symbol v = (.ok (i.symbol.toNat, s), v) := by
    unfold symByIndex
    rw [M.get_bind, hs]
    rfl
  have p : pushVar h i.symbol.toNat s = t i.symbol.toNat := by
    unfold pushVar
    rw [ht]
    exact if_pos hy
  unfold execOp
  rcases hop with hop | hop <;> rw [hop] <;> dsimp only <;> rw [M.bind_ok e] <;> dsimp only <;> rw [p, M.bind_def] <;>
    rcases t i.symbol.toNat v with ⟨_ | _, w⟩ <;> rfl

/-- **C109**: any other variable gets on the stack, and so do trapped ones without a trap. -/
theorem c109_plain {h : Host} {i : Instr} (hop : i.op = .pushv ∨ i.op = .pushvi) {v : Vm} {s : Sym}
    (hs : v.syms[i.symbol.toNat]? = some s) (hy : s.hasAccessTrap = false ∨ h.trap = none) (call : Nat → M Unit) :
    execOp h call i v = (match pushRef i.symbol.toNat 0 v with
      | (.ok _, w) => (.ok .next, w)
      | (.error e, w) => (.error e, w)) := by
  have e : symByIndex i.symbol v = (.ok (i.symbol.toNat, s), v) := by
    unfold symByIndex
    rw [M.get_bind, hs]
    rfl
  have p : pushVar h i.symbol.toNat s = pushRef i.symbol.toNat 0 := by
    unfold pushVar
    rcases hy with hy | hy
    · cases h.trap with
      | none => rfl
      | some t => dsimp only; rw [hy]; rfl
    · rw [hy]
  unfold execOp
  rcases hop with hop | hop <;> rw [hop] <;> dsimp only <;> rw [M.bind_ok e] <;> dsimp only <;> rw [p, M.bind_def] <;>
    rcases pushRef i.symbol.toNat 0 v with ⟨_ | _, w⟩ <;> rfl

/-! ## Whole executions -/

/-- **C109** (partial): whatever function is called, however the call ends, scripts by themselves do not change a trapped
variable, and what they do does not depend on its value. Missing: variables the code uses as arrays or as contexts, for which
the claim is false, and locals of functions that save theirs. -/
theorem c109_execution_partial {y : Nat} {h : Host} (hb : HostOff y h) (fuel z : Nat) {v : Vm} (hv : TrappedVar y v)
    (hn : NoRef y v) : (unsafeCall h fuel z v).2.syms[y]? = v.syms[y]? ∧
      ∀ x, unsafeCall h fuel z (withValue y x v) = ((unsafeCall h fuel z v).1, withValue y x (unsafeCall h fuel z v).2) :=
  ⟨(Tr.unsafeCall (x := .ints none) hb fuel z v hv hn).2.1, fun x => (Tr.unsafeCall (x := x) hb fuel z v hv hn).2.2.2⟩

/-- What the script leaves on the stack does not refer to the variable either. -/
theorem c109_references_partial {y : Nat} {h : Host} (hb : HostOff y h) (fuel z : Nat) {v : Vm} (hv : TrappedVar y v)
    (hn : NoRef y v) : NoRef y (unsafeCall h fuel z v).2 :=
  (Tr.unsafeCall (x := .ints none) hb fuel z v hv hn).2.2.1

/-! ### An example -/

/-- The byte an instruction begins with is in the code, or is the zero behind it. -/
theorem opcode_in {text : Bytes} {pos pc : Nat} {i : Instr} {pos' : Nat} (h : instructionAt text pos pc = .ok (i, pos')) :
    ∃ c, (c ∈ text ∨ c = 0) ∧ i.op = Op.ofByte c := by
  unfold instructionAt at h
  split at h
  · rename_i j s hj
    cases h
    obtain ⟨_, s1, h1, hj⟩ := Rd.bind_inv hj
    have hd : s1.data = text := by
      unfold Rd.seek at h1
      dsimp only at h1
      split at h1 <;> cases h1 <;> rfl
    unfold decode at hj
    obtain ⟨c, s2, h2, hj⟩ := Rd.bind_inv hj
    refine ⟨c, ?_, ?_⟩
    · unfold Rd.char at h2
      obtain ⟨bs, s3, h3, h2⟩ := Rd.bind_inv h2
      cases h2
      unfold Rd.readPadded Rd.read at h3
      dsimp only at h3
      cases h3
      rw [hd]
      cases hx : List.take (if s1.pos + 1 > text.length then text.length - s1.pos else 1) (List.drop s1.pos text) with
      | nil => exact Or.inr rfl
      | cons b bs =>
        refine Or.inl (List.mem_of_mem_drop (i := s1.pos) (List.mem_of_mem_take (i := if s1.pos + 1 > text.length then text.length - s1.pos else 1) ?_))
        rw [hx]
        exact List.mem_cons_self
    · generalize Op.ofByte c = op at hj
      cases op
      all_goals first
        | (cases hj; rfl)
        | (obtain ⟨a, s3, h3, hj⟩ := Rd.bind_inv hj; cases hj; rfl)
        | (obtain ⟨a, s3, h3, hj⟩ := Rd.bind_inv hj; obtain ⟨a', s4, h4, hj⟩ := Rd.bind_inv hj; cases hj; rfl)
  · cases h

/-- Code without the two bytes uses nothing as an array or as a context. -/
theorem plain_code {text : Bytes} (h : (80 : Byte) ∉ text) (h' : (245 : Byte) ∉ text) (y : Nat) (pos pc : Nat) (i : Instr) (pos' : Nat)
    (hi : instructionAt text pos pc = .ok (i, pos')) (hop : i.op = .pushvv ∨ i.op = .gmovi) : i.symbol.toNat ≠ y := by
  obtain ⟨c, hc, ho⟩ := opcode_in hi
  have : ∀ c : Byte, Op.ofByte c = .pushvv ∨ Op.ofByte c = .gmovi → c = 245 ∨ c = 80 := by
    intro c
    have h : ∀ n < 256, Op.ofByte (UInt8.ofNat n) = .pushvv ∨ Op.ofByte (UInt8.ofNat n) = .gmovi →
        UInt8.ofNat n = 245 ∨ UInt8.ofNat n = 80 := by decide +kernel
    have := h c.toNat c.toNat_lt
    rwa [UInt8.ofNat_toNat] at this
  rw [ho] at hop
  rcases this c hop with rfl | rfl
  · rcases hc with hc | hc
    · exact absurd hc h'
    · exact absurd hc (by decide)
  · rcases hc with hc | hc
    · exact absurd hc h
    · exact absurd hc (by decide)

/-- A script that assigns to a trapped variable. -/
def trappedScript : Vm where
  syms := [
    { name := b!"MAIN", type := .function, flags := 1, address := 0, index := 0 },
    { name := b!"SECRET", type := .int, flags := 64, index := 1, count := 1, value := .ints (some [some 9]) },
    { name := b!"SHADOW", type := .int, index := 2, count := 1, value := .ints (some [some 0]) },
    { type := .string, count := 1, value := .strs [[]], index := 3 }]
  tmp := 3
  text := assemble { op := .pushi, immediate := 5, size := 5 } ++ assemble { op := .pushv, symbol := 1, size := 5 } ++
    assemble { op := .movi } ++ assemble { op := .rsr }

/-- A host whose trap gives scripts another variable. -/
def shadowHost : Host := { trap := some fun _ => pushRef 2 0 }

example : TrappedVar 1 trappedScript := by
  refine ⟨⟨_, rfl, rfl⟩, by decide, fun z f hz hl => ?_, plain_code (by decide) (by decide) 1⟩
  have : ∀ f ∈ trappedScript.syms, f.hasLocals = false := by decide
  rw [this f (List.mem_of_getElem? hz)] at hl
  cases hl

example : NoRef 1 trappedScript := by
  intro i k p h
  cases h

example : HostOff 1 shadowHost := by
  refine ⟨rfl, fun _ _ h => ?_, fun _ _ h => ?_, fun _ _ h => ?_, fun t z h => ?_, fun _ _ _ h => ?_⟩
  · cases h
  · cases h
  · cases h
  · cases h
    intro v hv hn
    have := fun x => Tr.pushRef (y := 1) (x := x) (show 2 ≠ 1 by decide) 0 v hv hn
    exact ⟨(this (.ints none)).1, (this (.ints none)).2.1, (this (.ints none)).2.2.1, fun x => (this x).2.2.2⟩
  · cases h

example : (unsafeCall shadowHost 10 0 trappedScript).1 = .ok () ∧
    ((unsafeCall shadowHost 10 0 trappedScript).2.syms[2]?).map Sym.value = some (.ints (some [some 5])) := by decide +kernel

/-! ## Ways around the trap -/

/-- The script with the variable as an array. -/
def arrayScript : Vm := { trappedScript with
  text := assemble { op := .pushi, immediate := 5, size := 5 } ++ assemble { op := .pushvv, symbol := 1, size := 6 } ++
    assemble { op := .movi } ++ assemble { op := .rsr } }

/-- **C109**, violated: elements of trapped arrays are read and written without asking the trap. Here the trap refuses everything,
and the script assigns to the variable all the same. -/
theorem c109_elements_violation : (unsafeCall { trap := some fun _ => M.throw .daedalusVm } 10 0 arrayScript).1 = .ok () ∧
    ((unsafeCall { trap := some fun _ => M.throw .daedalusVm } 10 0 arrayScript).2.syms[1]?).map Sym.value =
      some (.ints (some [some 5])) := by decide +kernel

/-- **C109**, violated: members of a trapped instance are reached without asking the trap. -/
theorem c109_context_violation : ∃ (v : Vm) (h : Host) (s : Sym), v.syms[1]? = some s ∧ s.hasAccessTrap = true ∧
    h.trap.isSome = true ∧ (h.trap = some fun _ => M.throw .daedalusVm) ∧ v.instance_ = none ∧
    (exec h (unsafeCall h 10) v).1 = .ok true ∧ (exec h (unsafeCall h 10) v).2.instance_ = some 0 := by
  refine ⟨{ tmp := 2, text := assemble { op := .gmovi, symbol := 1, size := 5 }, syms := [
      { name := b!"MAIN", type := .function, flags := 1, address := 0, index := 0 },
      { name := b!"HERO", type := .instance, flags := 64, index := 1, value := .inst (some 0) },
      { type := .string, count := 1, value := .strs [[]], index := 2 }] },
    { trap := some fun _ => M.throw .daedalusVm },
    { name := b!"HERO", type := .instance, flags := 64, index := 1, value := .inst (some 0) }, rfl, rfl, rfl, rfl, rfl, ?_, ?_⟩
  · decide +kernel
  · decide +kernel

end Verif.Props
