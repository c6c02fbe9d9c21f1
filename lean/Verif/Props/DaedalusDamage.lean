import Verif.Lemmas.DaedalusDamage
import Verif.Props.DaedalusMemory

/-! # C103: damaged scripts do no harm -/

namespace Verif.Props

open Verif.Daedalus
open Verif.Spec.Daedalus

/-- **C103** — whatever the bytes are, and whatever was loaded before: loading returns without an exception and without undefined
behaviour; every variable has as many elements as it claims; and if the script has any code, then all numbers are initialised. -/
theorem c103_load (old : Script) (data : Bytes) (pos : Nat) (hp : pos ≤ data.length) :
    ∃ sc pos', old.load ⟨data, pos⟩ = .ok (sc, ⟨data, pos'⟩) ∧ pos' ≤ data.length ∧ (∀ s ∈ sc.syms, Sized s.sym) ∧
      (HasCode sc → ∀ s ∈ sc.syms, Filled s.sym) := by
  obtain ⟨sc, pos', h, hl, hf⟩ := load_total old data pos hp
  exact ⟨sc, pos', h, hl, script_sized h, hf⟩

/-- **C103** — running such a script: with C100, memory stays in order for any file with code, as long as the script has no variables of
type function and keeps the rules of C100 while it runs. -/
theorem c103_run_partial {data : Bytes} {pos : Nat} (hp : pos ≤ data.length) {sc : Script} {st : Rs}
    (hl : ({ } : Script).load ⟨data, pos⟩ = .ok (sc, st)) (hc : HasCode sc)
    (hv : ∀ s ∈ sc.syms, s.sym.isMember = false → s.sym.type = .function → s.sym.isConst = true) (n i : Bool) {h : Host}
    (ht : TameHost h (sc.machine n i)) (hcs : Callables h (sc.machine n i)) {y : Nat} {f : Sym} (hy : Fits (sc.machine n i) y)
    (hf : (sc.machine n i).syms[y]? = some f) (ha : f.count = 0) (fuel : Nat)
    (hcare : ∀ x ∈ states h fuel y (sc.machine n i), Careful h x) :
    match unsafeCall h fuel y (sc.machine n i) with
    | (.error .ub, w) => Full w
    | (_, w) => Good h w ∧ TameHost h w ∧ Same (sc.machine n i) w := by
  obtain ⟨sc', pos', h', -, hfill⟩ := load_total { } data pos hp
  cases h'.symm.trans hl
  exact c100_script hl (fun s hs => whole_of (typed_script hl s hs) (hfill hc s hs) (hv s hs)) n i ht hcs hy hf ha fuel hcare

/-- A function whose parameters are in the table can be asked for them, in any script. -/
theorem c103_parameters_partial (sc : Script) (f : LSym) (h : f.sym.index.toNat + 1 + f.sym.count.toNat ≤ sc.syms.length) :
    ∃ ps, sc.parameters f = .ok ps ∧ ps.length = f.sym.count.toNat ∧
      ∀ k < f.sym.count.toNat, ps[k]? = sc.syms[f.sym.index.toNat + 1 + k]? := by
  refine ⟨_, if_pos h, ?_, fun k hk => ?_⟩
  · rw [List.length_take, List.length_drop]
    omega
  · rw [List.getElem?_take_of_lt hk, List.getElem?_drop]

/-- A script that ends within the numbers of its only symbol. -/
def cutScript : Bytes := [50] ++ encW 4 (1 : BitVec 32) ++ encW 4 (0 : BitVec 32) ++ encW 4 (1 : BitVec 32) ++ b!"X\n" ++ encW 4 (0 : BitVec 32) ++
  encW 4 (0x2002 : BitVec 32) ++ encW 4 (0 : BitVec 32) ++ encW 4 (0 : BitVec 32) ++ encW 4 (0 : BitVec 32) ++ encW 4 (0 : BitVec 32) ++
  encW 4 (0 : BitVec 32) ++ encW 4 (7 : BitVec 32)

/-- Without code numbers may not be initialised: the file ends behind the first number of an array, and reading the second is undefined. -/
theorem c103_numbers_violation :
    (do
      let (sc, _) ← ({ } : Script).load ⟨cutScript, 0⟩
      return (sc.text, sc.syms.map fun s => (s.sym.count, s.sym.getInt 0 none, s.sym.getInt 1 none))) =
      (.ok (some [], [(2, .ok 7, .error .ub)]) : Except Fail _) := by decide +kernel

/-- The last symbol of a file is a function that claims three parameters. -/
def lastFunction : Bytes := [50] ++ encW 4 (1 : BitVec 32) ++ encW 4 (0 : BitVec 32) ++ encW 4 (1 : BitVec 32) ++ b!"F\n" ++ encW 4 (0 : BitVec 32) ++
  encW 4 (0x15003 : BitVec 32) ++ encW 4 (0 : BitVec 32) ++ encW 4 (0 : BitVec 32) ++ encW 4 (0 : BitVec 32) ++ encW 4 (0 : BitVec 32) ++
  encW 4 (0 : BitVec 32) ++ encW 4 (0 : BitVec 32) ++ encW 4 (BitVec.allOnes 32) ++ encW 4 (1 : BitVec 32) ++ [60]

/-- Asking a function for its parameters is undefined if they are not in the file. -/
theorem c103_parameters_violation :
    (do
      let (sc, _) ← ({ } : Script).load ⟨lastFunction, 0⟩
      return (sc.text, sc.syms.map fun s => (s.sym.count, (sc.parameters s).map List.length))) =
      (.ok (some [60], [(3, .error .ub)]) : Except Fail _) := by decide +kernel

/-- Both kinds of files are met: one without code, one with. -/
example : (∃ sc pos', ({ } : Script).load ⟨lastFunction, 0⟩ = .ok (sc, ⟨lastFunction, pos'⟩) ∧ HasCode sc) ∧
    (∃ sc pos', ({ } : Script).load ⟨cutScript, 0⟩ = .ok (sc, ⟨cutScript, pos'⟩) ∧ ¬ HasCode sc) := by
  constructor
  · obtain ⟨sc, pos', h, -⟩ := c103_load { } lastFunction 0 (Nat.zero_le _)
    refine ⟨sc, pos', h, ?_⟩
    have := c103_parameters_violation
    rw [h] at this
    simp only [bind, Except.bind, pure, Except.pure, Except.ok.injEq, Prod.mk.injEq] at this
    exact ⟨60, [], this.1⟩
  · obtain ⟨sc, pos', h, -⟩ := c103_load { } cutScript 0 (Nat.zero_le _)
    refine ⟨sc, pos', h, ?_⟩
    have := c103_numbers_violation
    rw [h] at this
    simp only [bind, Except.bind, pure, Except.pure, Except.ok.injEq, Prod.mk.injEq] at this
    rintro ⟨c, cs, hc⟩
    rw [this.1] at hc
    cases hc

end Verif.Props
