import Verif.Lemmas.DaedalusLook

/-!
# Daedalus: looking at a script does not disturb it (C114)
-/

namespace Verif.Props

open Verif.Daedalus
open Verif.Spec.Daedalus

/-- **C114** — `instruction_at` yields an instruction for every address, raises nothing, and leaves the machine as it was but for the
place of the reader of the code. -/
theorem c114_look (a : BitVec 32) (v : Vm) : ∃ i t, look a v = (.ok i, readerAt t v) := look_total a v

/-- **C114** — for every address in the code it is the instruction decoded from the bytes there, wherever the reader was, so that looking
again yields the same. -/
theorem c114_look_same (a : BitVec 32) (v : Vm) (ha : a.toNat ≤ v.text.length) (t : Nat) :
    look a (readerAt t v) = look a v ∧ ∀ i s, decode ⟨v.text, a.toNat⟩ = .ok (i, s) → (look a v).1 = .ok i := by
  refine ⟨look_same a ha t, fun i s hd => ?_⟩
  unfold look instructionAt
  rw [Rd.bind_ok (Rd.seek_beg ha), hd]

example : ∃ v : Vm, (look 5 v).1 = .ok { op := .bz, address := 15, size := 5 } ∧ (look 5 v).2 = readerAt 10 v :=
  ⟨{ syms := [], tmp := 0, text := assemble { op := .pushv, symbol := 2 } ++ assemble { op := .bz, address := 15 } }, by decide +kernel, by rfl⟩

/-- **C114** — `size` is the number of bytes of the code, and the machine is as it was, the reader too. -/
theorem c114_size (v : Vm) (hv : v.textPos ≤ v.text.length) : codeSize v = (.ok (BitVec.ofNat 32 v.text.length), v) := by
  have h1 : Daedalus.measure ⟨v.text, v.textPos⟩ = .ok (v.text.length, ⟨v.text, v.textPos⟩) := by
    unfold Daedalus.measure
    rw [Rd.bind_ok (show Rd.tell ⟨v.text, v.textPos⟩ = .ok (v.textPos, ⟨v.text, v.textPos⟩) from rfl),
      Rd.bind_ok (Rd.seek_ok (t := v.text.length) (by show (v.text.length : Int) + 0 = _; omega) (Nat.le_refl _)),
      Rd.bind_ok (show Rd.tell ⟨v.text, v.text.length⟩ = .ok (v.text.length, ⟨v.text, v.text.length⟩) from rfl),
      Rd.bind_ok (Rd.seek_beg hv)]
    rfl
  unfold codeSize
  rw [h1]

example : ∃ v : Vm, v.textPos ≤ v.text.length ∧ v.textPos = 3 ∧ (codeSize v).1 = .ok 5 :=
  ⟨{ syms := [], tmp := 0, text := assemble { op := .pushv, symbol := 2 }, textPos := 3 }, by decide +kernel, rfl, by decide +kernel⟩

/-- **C114** — looking before a call: the call has the same outcome and leaves the machine the same, but for the reader. For every
script, however damaged, every host, every argument, every outcome including exceptions and undefined behaviour. -/
theorem c114_before (h : Host) (fuel : Nat) (y : Option Nat) (args : List Arg) (r : RType) (v : Vm) (a : BitVec 32) :
    ∃ t, callFunction h fuel y args r (look a v).2 = ((callFunction h fuel y args r v).1, readerAt t (callFunction h fuel y args r v).2) := by
  obtain ⟨i, t, hl⟩ := look_total a v
  rw [hl]
  cases y with
  | none => exact ⟨t, rfl⟩
  | some y => exact callFunction_alike (unsafeCall_before h fuel y) args r v t

/-- **C114** (partial) — looking during a call: hosts whose functions do the same up to where they leave the reader run a script alike.
Missing: code that control can leave at its end, for which the claim is false; exception handlers. -/
theorem c114_during_partial (h k : Host) (v : Vm) (P : BitVec 32 → Prop) (hh : Prompt h) (ha : AlikeHosts h k) (hP : Closed h v.text P)
    (y : Nat) (f : Sym) (hy : v.syms[y]? = some f) (hf : P f.address) (fuel : Nat) (t : Nat) :
    ∃ t', unsafeCall k fuel y (readerAt t v) = ((unsafeCall h fuel y v).1, readerAt t' (unsafeCall h fuel y v).2) :=
  unsafeCall_look hh ha hP fuel y f hy hf v (Same.refl v) t

/-- **C114** (partial) — in particular hosts that look at an instruction whenever they are asked to do something. -/
theorem c114_looking_partial (h : Host) (a : BitVec 32) (v : Vm) (P : BitVec 32 → Prop) (hh : Prompt h) (ha : AlikeHosts h h)
    (hP : Closed h v.text P) (y : Nat) (f : Sym) (hy : v.syms[y]? = some f) (hf : P f.address) (fuel : Nat) :
    ∃ t', unsafeCall (lookingHost a h) fuel y v = ((unsafeCall h fuel y v).1, readerAt t' (unsafeCall h fuel y v).2) := by
  refine c114_during_partial h (lookingHost a h) v P hh ?_ hP y f hy hf fuel v.textPos
  have key : ∀ {o p : Option (M Unit)}, Option.Rel Alike o p → Option.Rel Alike o (p.map fun p => do let _ ← look a; p) := by
    intro o p hr
    cases hr with
    | some h => exact .some (Rl.looking a h)
    | none => exact .none
  refine ⟨fun y => key (ha.external y), fun b => key (ha.override_ b), ?_, ?_, ha.handler⟩
  · have := ha.default_
    unfold lookingHost
    dsimp only
    generalize h.default_ = d at this ⊢
    cases d with
    | none => exact .none
    | some d => cases this with | some h => exact .some fun y => Rl.looking a (h y)
  · have := ha.trap
    unfold lookingHost
    dsimp only
    generalize h.trap = d at this ⊢
    cases d with
    | none => exact .none
    | some d => cases this with | some h => exact .some fun y => Rl.looking a (h y)

/-- `MAIN` calls the external `E` in a loop as long as it returns something other than zero. -/
def waiting : Vm where
  syms := [
    { name := b!"MAIN", type := .function, flags := 1, address := 0, index := 0 },
    { name := b!"E", type := .function, flags := 9, index := 1, rtype := .int },
    { name := b!"$TMP", type := .string, index := 2, count := 1, value := .strs [[]] }]
  tmp := 2
  text := assemble { op := .be, symbol := 1 } ++ assemble { op := .bz, address := 15 } ++ assemble { op := .b, address := 0 } ++
    assemble { op := .rsr }

/-- An external that returns zero. -/
def zero : Host := { external := fun y => if y = 1 then some (push (.int 0)) else none }

example : Closed zero waiting.text (fun p => p = 0 ∨ p = 5 ∨ p = 10 ∨ p = 15) := by
  intro p hp
  rcases hp with rfl | rfl | rfl | rfl
  all_goals
    refine ⟨by decide +kernel, fun i s hd => ?_⟩
    cases hd
    first
      | exact trivial
      | exact Or.inr (Or.inl (by decide))
      | exact ⟨Or.inr (Or.inr (Or.inl (by decide))), Or.inr (Or.inr (Or.inr (by decide)))⟩
      | exact Or.inl (by decide)

example : AlikeHosts zero zero where
  external y := by
    by_cases h : y = 1
    · subst h; exact .some (Rl.push _)
    · rw [show zero.external y = none from if_neg h]; exact .none
  override_ _ := .none
  default_ := .none
  trap := .none
  handler := ⟨rfl, rfl⟩

example : (unsafeCall zero 9 0 waiting).1 = .ok () ∧ (unsafeCall (lookingHost 3 zero) 9 0 waiting).1 = .ok () ∧
    (look 3 waiting).2.textPos = 4 := by
  decide +kernel

/-! ## Where the claim fails -/

/-- `MAIN`, at the address 2, calls the external `E`; the last byte of the call is missing and nothing follows. -/
def cutOff : Vm where
  syms := [
    { name := b!"MAIN", type := .function, flags := 1, address := 2, index := 0 },
    { name := b!"E", type := .function, flags := 9, index := 1 },
    { name := b!"$TMP", type := .string, index := 2, count := 1, value := .strs [[]] }]
  tmp := 2
  text := [0, 60] ++ assemble { op := .pushv, symbol := 2 } ++ (assemble { op := .be, symbol := 1 }).take 4

/-- An external that does nothing. -/
def idle : Host := { external := fun y => if y = 1 then some (pure ()) else none }

/-- **C114** — a script that runs off the end of its code: whether the host's function looked at an instruction decides what is executed
next. Here the call raises an exception, but returns as if nothing was wrong when `E` looks at the first instruction of the code. -/
theorem c114_end_violation :
    (callFunction idle 9 (some 0) [] .void cutOff).1 = .error (.throw .daedalusType) ∧
      (callFunction (lookingHost 0 idle) 9 (some 0) [] .void cutOff).1 = .ok .none := by
  decide +kernel

end Verif.Props
