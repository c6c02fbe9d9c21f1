import Verif.Model.InfoChoices

/-!
# C116: the choices of dialogues
-/

namespace Verif.Props

open Verif.Info

/-- The choices that a history adds, oldest first. -/
def added : List Act → List Choice
  | [] => []
  | .add ch :: as => ch :: added as
  | .remove _ :: as => added as

/-- The number of choices that a history removes. -/
def removals (as : List Act) : Nat := as.countP fun | .remove _ => true | .add _ => false

/-- What is removed was there, and the others stay as they are. -/
theorem c116_remove (i : BitVec 64) (cs : List Choice) (hl : cs.length < 2 ^ 63) (hi : i.toNat < cs.length) :
    ∃ front ch back, cs = front ++ ch :: back ∧ front.length = i.toNat ∧ removeChoice i cs = .ok (front ++ back) := by
  have hI : i.toInt = (i.toNat : Int) := BitVec.toInt_eq_toNat_of_lt (by omega)
  refine ⟨cs.take i.toNat, cs[i.toNat], cs.drop (i.toNat + 1), ?_, ?_, ?_⟩
  · rw [← List.drop_eq_getElem_cons hi, List.take_append_drop]
  · rw [List.length_take]; omega
  · unfold removeChoice
    rw [hI, if_pos ⟨by omega, by omega⟩, Int.toNat_natCast, List.eraseIdx_eq_take_drop_succ]

/-- Every other index is undefined behaviour. -/
theorem c116_undefined (i : BitVec 64) (cs : List Choice) (hl : cs.length < 2 ^ 63) :
    removeChoice i cs = .error .ub ↔ cs.length ≤ i.toNat := by
  unfold removeChoice
  rcases Nat.lt_or_ge i.toNat (2 ^ 63) with h | h
  · have hI : i.toInt = (i.toNat : Int) := BitVec.toInt_eq_toNat_of_lt (by omega)
    rw [hI]
    by_cases hc : i.toNat < cs.length
    · rw [if_pos ⟨by omega, by omega⟩]
      exact ⟨fun h => (by cases h), fun h => (by omega)⟩
    · rw [if_neg (by omega)]
      exact ⟨fun _ => by omega, fun _ => rfl⟩
  · have hI : i.toInt < 0 := by rw [BitVec.toInt_neg_iff]; omega
    rw [if_neg (by omega)]
    exact ⟨fun _ => by omega, fun _ => rfl⟩

/-- A choice that was just added is the first, and removing it restores what was there. -/
theorem c116_undo (ch : Choice) (cs : List Choice) : removeChoice 0 (addChoice ch cs) = .ok cs := by
  unfold removeChoice addChoice
  rw [if_pos ⟨by decide, by rw [List.length_cons]; show (0 : Int) < _; omega⟩]
  rfl

/-- After any calls, the choices are some of the ones that were added, the newest first, in front of some of the ones that were there. -/
theorem c116_order (as : List Act) (cs ds : List Choice) (h : acts cs as = .ok ds) :
    List.Sublist ds ((added as).reverse ++ cs) ∧ ds.length + removals as = (added as).length + cs.length := by
  induction as generalizing cs with
  | nil =>
    cases h
    exact ⟨List.Sublist.refl _, by simp [removals, added]⟩
  | cons a as ih =>
    unfold acts at h
    rw [List.foldlM_cons] at h
    cases a with
    | add ch =>
      obtain ⟨h1, h2⟩ := ih (addChoice ch cs) h
      refine ⟨?_, ?_⟩
      · simpa [added, addChoice] using h1
      · simp only [removals, added, addChoice, List.length_cons, List.countP_cons] at h2 ⊢
        simp only [Bool.false_eq_true, if_false]
        omega
    | remove i =>
      cases hr : removeChoice i cs with
      | error e =>
        have : (act cs (.remove i)) = .error e := hr
        rw [this] at h
        cases h
      | ok es =>
        have hh : (act cs (.remove i)) = .ok es := hr
        rw [hh] at h
        obtain ⟨h1, h2⟩ := ih es h
        unfold removeChoice at hr
        split at hr
        · rename_i hc
          cases hr
          refine ⟨h1.trans ((List.eraseIdx_sublist _ _).append_left _), ?_⟩
          rw [List.length_eraseIdx, if_pos (by omega)] at h2
          simp only [removals, added, List.countP_cons, if_true] at h2 ⊢
          omega
        · cases hr

/-- Calls are defined as long as no index is beyond the choices that are there. -/
theorem c116_defined (a : Act) (cs : List Choice) (hl : cs.length < 2 ^ 63) (h : ∀ i, a = .remove i → i.toNat < cs.length) : ∃ ds, act cs a = .ok ds := by
  cases a with
  | add ch => exact ⟨_, rfl⟩
  | remove i =>
    obtain ⟨_, _, _, _, _, e⟩ := c116_remove i cs hl (h i rfl)
    exact ⟨_, e⟩

/-- Three choices, of which the second is taken away and a fourth added. -/
example : acts [] [.add ⟨b!"a", 1⟩, .add ⟨b!"b", 2⟩, .add ⟨b!"c", 3⟩, .remove 1, .add ⟨b!"d", 4⟩] =
    .ok [⟨b!"d", 4⟩, ⟨b!"c", 3⟩, ⟨b!"a", 1⟩] := by decide

example : (1 : BitVec 64).toNat < [Choice.mk b!"a" 1, ⟨b!"b", 2⟩].length ∧ [Choice.mk b!"a" 1, ⟨b!"b", 2⟩].length < 2 ^ 63 := by decide

end Verif.Props
