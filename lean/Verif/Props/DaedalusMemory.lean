import Verif.Lemmas.DaedalusMemoryHost
import Verif.Lemmas.DaedalusMemoryLoad
import Verif.Props.DaedalusLoad

/-!
# C100: what keeps scripts from doing harm
-/

namespace Verif.Props

open Verif.Daedalus Verif.Spec.Daedalus

/-! ## Calls -/

/-- **C100** — a call of a script function does not leave the memory of the machine: whatever the code is, whatever the functions of
the host do with it in order, there is no undefined behaviour as long as the code sees to four things before each instruction, or until a
billion strings are on the stack. Afterwards, also after an exception, the memory of the machine is in order, so the next call can be made. -/
theorem c100_memory {h : Host} {v : Vm} (ht : TameHost h v) (hg : Good h v) {y : Nat} {f : Sym} (hy : Fits v y)
    (hf : v.syms[y]? = some f) (ha : f.count.toNat ≤ v.sp.toNat) (fuel : Nat) (hc : ∀ x ∈ states h fuel y v, Careful h x) :
    match unsafeCall h fuel y v with
    | (.error .ub, w) => Full w
    | (_, w) => Good h w ∧ TameHost h w ∧ Same v w := by
  have h1 := LvAt.unsafeCall fuel y v ht hg hy (fun g hg' => by rw [hf] at hg'; cases hg'; exact ha) hc
  unfold LvAt at h1
  match hr : unsafeCall h fuel y v with
  | (.ok _, w) => rw [hr] at h1; exact ⟨h1.1, ht.same hg h1.2.1, h1.2.1⟩
  | (.error .ub, w) => rw [hr] at h1; exact h1
  | (.error (.throw e), w) => rw [hr] at h1; exact ⟨h1.1, ht.same hg h1.2.1, h1.2.1⟩
  | (.error .terminate, w) => rw [hr] at h1; exact ⟨h1.1, ht.same hg h1.2.1, h1.2.1⟩
  | (.error .hang, w) => rw [hr] at h1; exact ⟨h1.1, ht.same hg h1.2.1, h1.2.1⟩

/-! ## The functions of the host -/

/-- **C100** — the functions that `register_external` makes are in order if they have as many parameters as the symbol says, which
`register_external` sees to, if none of them is a function, and if the callback is in order. -/
theorem c100_external {h : Host} {y : Nat} {fuel : Nat} {ts : List PType} {cb : List PVal → M XVal} (ht : .func ∉ ts) (hcb : Polite h cb) :
    Leaves h (Entered · y ts.length) (external fuel ts cb) fun _ w => Untouched w := leaves_external ht hcb

/-- **C100** — the function for externals that are not there is in order. -/
theorem c100_default {h : Host} {y : Nat} : Leaves h (HasParams · y) (defaultExternal y) fun _ _ => True := leaves_default

/-- **C100** — the exception handler that comes with the library is in order. -/
theorem c100_lenient {h : Host} {e : Exc} {i : Instr} :
    Leaves h (fun _ => True) (lenient e i) fun s w => s = .return_ → Untouched w := leaves_lenient

/-! ## Scripts from files -/

/-- **C100** — the memory of a machine made for a script is in order, whatever the file of the script is: all symbols have the elements
they claim, unless the file ends within numbers, or there are variables of type function. -/
theorem c100_loaded {st st' : Rs} {sc : Script} (hl : ({ } : Script).load st = .ok (sc, st')) (hw : ∀ s ∈ sc.syms, Whole s.sym)
    (n i : Bool) : Tidy (sc.machine n i) := tidy_machine hl hw n i

/-- The two together: any file, any function of it. -/
theorem c100_script {st st' : Rs} {sc : Script} (hl : ({ } : Script).load st = .ok (sc, st')) (hw : ∀ s ∈ sc.syms, Whole s.sym)
    (n i : Bool) {h : Host} (ht : TameHost h (sc.machine n i)) (hcs : Callables h (sc.machine n i)) {y : Nat} {f : Sym}
    (hy : Fits (sc.machine n i) y) (hf : (sc.machine n i).syms[y]? = some f) (ha : f.count = 0) (fuel : Nat)
    (hc : ∀ x ∈ states h fuel y (sc.machine n i), Careful h x) :
    match unsafeCall h fuel y (sc.machine n i) with
    | (.error .ub, w) => Full w
    | (_, w) => Good h w ∧ TameHost h w ∧ Same (sc.machine n i) w :=
  c100_memory ht ⟨c100_loaded hl hw n i, (fun c hm => by cases hm), hcs⟩ hy hf (by rw [ha]; exact Nat.zero_le _) fuel hc

/-! ## A script -/

/-- `MAIN` calls `F(3)`, which adds four to its argument and keeps it in a local, and passes the result to an external function; then it
calls a function of the host that is not there. -/
def carefulScript : Vm where
  syms := [
    { name := b!"MAIN", type := .function, flags := 1, address := 0, index := 0 },
    { name := b!"F", type := .function, flags := 131, address := 21, index := 1, count := 1, rtype := .int },
    { name := b!"F.X", type := .int, index := 2, count := 1, value := .ints (some [some 0]) },
    { name := b!"F.Y", type := .int, index := 3, count := 1, value := .ints (some [some 0]) },
    { name := b!"SHOW", type := .function, flags := 9, address := 0xFFFFFFFF#32, index := 4, count := 1 },
    { name := b!"SHOW.X", type := .int, index := 5, count := 1, value := .ints (some [some 0]) },
    { name := b!"HIDE", type := .function, flags := 9, address := 0xFFFFFFFF#32, index := 6, count := 1 },
    { name := b!"HIDE.X", type := .int, index := 7, count := 1, value := .ints (some [some 0]) },
    { type := .string, count := 1, value := .strs [[]], index := 8 }]
  tmp := 8
  text :=
    assemble { op := .pushi, immediate := 3, size := 5 } ++ assemble { op := .bl, address := 21, size := 5 } ++
    assemble { op := .be, symbol := 4, size := 5 } ++ assemble { op := .be, symbol := 6, size := 5 } ++ assemble { op := .rsr } ++
    assemble { op := .pushv, symbol := 2, size := 5 } ++ assemble { op := .movi } ++
    assemble { op := .pushi, immediate := 4, size := 5 } ++ assemble { op := .pushv, symbol := 2, size := 5 } ++ assemble { op := .add } ++
    assemble { op := .pushv, symbol := 3, size := 5 } ++ assemble { op := .movi } ++ assemble { op := .pushv, symbol := 3, size := 5 } ++
    assemble { op := .rsr }

/-- The host: one external that takes a number, the function for those that are not there, and the lenient exception handler. -/
def carefulHost : Host where
  external := fun y => if y = 4 then some (external 5 [.int] fun _ => Pure.pure .void) else none
  default_ := some defaultExternal
  handler := some lenient

theorem carefulHost_tame : TameHost carefulHost carefulScript where
  external := fun y p f he hf => by
    unfold carefulHost at he
    dsimp only at he
    split at he
    · rename_i hy
      subst hy
      cases he
      cases hf
      exact c100_external (ts := [.int]) (by decide) fun xs v hg => ⟨hg, Same.refl v, rfl, Nat.le_refl _, by simp, by simp⟩
    · cases he
  override_ := fun a p ha => by cases ha
  default_ := fun d y hd => by cases hd; exact c100_default
  trap := fun t y ht => by cases ht
  handler := fun hd e i hh => by cases hh; exact c100_lenient

theorem carefulScript_good : Good carefulHost carefulScript := by
  obtain ⟨h1, h2⟩ := tidy_of (v := carefulScript) (by decide +kernel)
  exact ⟨h1, (fun c hm => by rw [h2] at hm; cases hm), callables_of (by decide +kernel) fun _ => rfl⟩

-- The script meets the hypotheses of `c100_memory`, and the call runs to its end in two activations.
example : TameHost carefulHost carefulScript ∧ Good carefulHost carefulScript ∧ Fits carefulScript 0 ∧
    (∀ x ∈ states carefulHost 40 0 carefulScript, Careful carefulHost x) ∧
    (states carefulHost 40 0 carefulScript).length = 14 ∧ (unsafeCall carefulHost 40 0 carefulScript).1 = .ok () := by
  refine ⟨carefulHost_tame, carefulScript_good, fits_of (by decide +kernel), ?_, by decide +kernel, by decide +kernel⟩
  have : (states carefulHost 40 0 carefulScript).all (carefulB carefulHost) = true := by decide +kernel
  rw [List.all_eq_true] at this
  exact fun x hx => careful_of (this x hx)

instance (s : Sym) : Decidable (Whole s) := by
  unfold Whole
  match hv : s.value with
  | .ints none => dsimp only; infer_instance
  | .ints (some a) => dsimp only; infer_instance
  | .floats a => dsimp only; infer_instance
  | .strs a => dsimp only; infer_instance
  | .inst p => dsimp only; infer_instance

-- `scriptFile` meets the hypotheses of `c100_script`: the machine for it runs the code of the instance `HERO`.
example : ∃ sc st, ({ } : Script).load ⟨scriptFile.bytes, 0⟩ = .ok (sc, st) ∧ (∀ s ∈ sc.syms, Whole s.sym) ∧
    Callables {} (sc.machine false false) ∧ Fits (sc.machine false false) 3 ∧
    (∀ x ∈ states {} 9 3 (sc.machine false false), Careful {} x) ∧ (states {} 9 3 (sc.machine false false)).length = 1 := by
  have hd : (do
      let (sc, _) ← ({ } : Script).load ⟨scriptFile.bytes, 0⟩
      return (sc.syms.all fun s => decide (Whole s.sym)) && fitsB (sc.machine false false) 3 &&
        (List.range (sc.machine false false).syms.length).all (fun y => match (sc.machine false false).syms[y]? with
          | some s => (!hasCode s && !(({} : Host).external y).isSome) || fitsB (sc.machine false false) y
          | none => true) &&
        (states {} 9 3 (sc.machine false false)).all (carefulB {}) && (states {} 9 3 (sc.machine false false)).length == 1) =
      (.ok true : Except Fail _) := by decide +kernel
  cases hl : ({ } : Script).load ⟨scriptFile.bytes, 0⟩ with
  | error e => rw [hl] at hd; cases hd
  | ok r =>
    rw [hl] at hd
    obtain ⟨sc, st⟩ := r
    replace hd := Except.ok.inj hd
    simp only [Bool.and_eq_true, beq_iff_eq] at hd
    obtain ⟨⟨⟨⟨h1, h2⟩, h3⟩, h4⟩, h5⟩ := hd
    rw [List.all_eq_true] at h1 h4
    exact ⟨sc, st, rfl, fun s hs => of_decide_eq_true (h1 s hs), callables_of h3 fun _ => rfl, fits_of h2,
      fun x hx => careful_of (h4 x hx), h5⟩

-- A host without functions is in order.
example (v : Vm) : TameHost {} v where
  external := fun _ _ _ h => by cases h
  override_ := fun _ _ h => by cases h
  default_ := fun _ _ h => by cases h
  trap := fun _ _ h => by cases h
  handler := fun _ _ _ h => by cases h

end Verif.Props
