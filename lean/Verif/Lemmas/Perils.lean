import Verif.Lemmas.ObjMild
import Verif.Spec.Damaged

/-! # The names of the classes whose `load` is not safe -/

namespace Verif

open Verif.Obj

theorem tableFind_mem {α β} [BEq α] [LawfulBEq α] {t : List (α × β)} {n : α} {x : β} (h : tableFind t n = some x) : (n, x) ∈ t := by
  unfold tableFind at h
  induction t with
  | nil => cases h
  | cons y t ih =>
    rw [List.lookup_cons] at h
    split at h
    · rename_i he
      cases h
      rw [eq_of_beq he]
      exact .head _
    · exact .tail _ (ih h)

theorem touchy_named {cls : Bytes} {k : ObjClass} (h : classFor cls = some k) (ht : touchy k.type = true) : ∃ n ∈ Spec.perils, n <:+: cls := by
  have key : (objectsTable.all fun x => match x.2.make with
      | none => true
      | some k => !touchy k.type || Spec.perils.any fun p => decide (p <:+: x.1)) = true := by decide +kernel
  unfold classFor at h
  split at h
  · rename_i t hf
    have := List.all_eq_true.mp key _ (tableFind_mem hf)
    dsimp only at this
    rw [h] at this
    simpa [ht] using this
  · cases h

/-- In a file without the words no object has one of these classes. -/
theorem harmless_names {data : Bytes} (hh : Spec.Harmless data) (cls : Bytes) (k : ObjClass) (h : classFor cls = some k) (hi : cls <:+: data) :
    touchy k.type = false := by
  cases ht : touchy k.type with
  | false => rfl
  | true =>
    obtain ⟨n, hn, hc⟩ := touchy_named h ht
    exact absurd (hc.trans hi) (hh n hn)

end Verif
