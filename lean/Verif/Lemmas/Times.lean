import Verif.Lemmas.Stream

/-! # Loops of reads -/

namespace Verif

/-- A loop of reads. -/
theorem Reads.timesMap {α β} {p : Rd β} {enc : α → Bytes} {f : α → β} (as : List α) (h : ∀ a ∈ as, Reads p (enc a) (f a)) :
    Reads (Rd.times p as.length) (as.map enc).flatten (as.map f) := by
  induction as with
  | nil => exact Reads.pure _
  | cons a as ih =>
    exact (h a (by simp)).bind ((ih fun b hb => h b (List.mem_cons_of_mem _ hb)).bind_pure (f := fun bs => f a :: bs))

end Verif
