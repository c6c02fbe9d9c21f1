import Verif.Lemmas.VfsDescriptor

/-!
# C74: memory that a file owns
-/

namespace Verif.Props

open VfsDescriptor

/-- C74, restricted: in every history of making, copying and destroying descriptors, opening them and reading through readers
whose buffer still has a descriptor, nothing undefined happens; afterwards exactly those buffers are freed that were to be
freed and to which no descriptor refers any more; and when no descriptor is left, no counter is left either.
Missing: assignment, and readers that outlive the descriptors (see the violations). -/
theorem c74_owners_partial (os : List Op) (a : Owners) (h : History {} os a) :
    ∃ s, State.run {} os = .ok s ∧
      (∀ m, s.buffers[m]? = some true ↔ a.Alive m) ∧
      ((∀ m, some m ∉ a.vars) → ∀ c ∈ s.counters, c = none) := by
  obtain ⟨s, ms, e, i⟩ := Inv.run h Inv.empty
  refine ⟨s, e, fun m => ?_, fun hv c hc => ?_⟩
  · constructor
    · intro hm
      have hlt := (List.getElem?_eq_some_iff.1 hm).1
      rw [i.len] at hlt
      have ho := List.getElem?_eq_getElem hlt
      cases hb : a.owned[m] with
      | false => exact .inl (by rw [ho, hb])
      | true =>
        rw [hb] at ho
        have := i.buf m ho
        rw [hm] at this
        exact .inr ⟨ho, by simpa using this⟩
    · rintro (g | ⟨g, g2⟩)
      · exact i.plain m g
      · rw [i.buf m g, decide_eq_true g2]
  · obtain ⟨j, hj, e⟩ := List.getElem_of_mem hc
    have hj' : j < ms.length := by rw [i.mlen]; exact hj
    have := i.counter j ms[j] (List.getElem?_eq_getElem hj')
    rw [List.getElem?_eq_getElem hj, e, List.count_eq_zero.2 (hv _)] at this
    exact Option.some.inj this

example : ∃ a, History {} [.make true, .make false, .copy 0, .open_ 2, .destroy 0, .read 0, .destroy 2, .open_ 1, .destroy 1, .read 1] a ∧
    ¬ a.Alive 0 ∧ a.Alive 1 := by
  refine ⟨_, .make _ (.make _ (.copy (m := 0) rfl (.open_ (m := 0) rfl (.destroy (m := 0) rfl (.read (m := 0) rfl (.inr ⟨rfl, by decide⟩)
    (.destroy (m := 0) rfl (.open_ (m := 1) rfl (.destroy (m := 1) rfl (.read (m := 1) rfl (.inl rfl) (.nil _)))))))))), ?_, .inl rfl⟩
  rintro (g | ⟨_, g⟩)
  · simp at g
  · simp at g

/-- C74, the rest of the claim fails: a descriptor that is assigned takes the other's memory without counting it, so the memory
is freed while a descriptor still refers to it, and the destruction of that descriptor is undefined; the memory it had before
is never freed. -/
theorem c74_assign_violation :
    State.run {} [.make true, .make true, .assign 0 1, .destroy 1, .destroy 0] = .error .ub ∧
    State.run {} [.make true, .make false, .assign 0 1, .destroy 1, .destroy 0] =
      .ok { buffers := [true, true], counters := [some 1], descs := [none, none] } := by
  decide

/-- C74, the rest of the claim fails: a reader of a file does not keep its memory; reading after the file was removed is
undefined. -/
theorem c74_reader_violation : State.run {} [.make true, .open_ 0, .destroy 0, .read 0] = .error .ub := by
  decide

end Verif.Props
