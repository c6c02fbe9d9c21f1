import Verif.Model.ArchiveClasses

/-! # Properties of the class tables: C18 -/

namespace Verif.Props

/-- C18: every type that can be written is loaded back as that type, as an object that says so itself. -/
theorem c18_round_trip (t : ObjectType) (name : Bytes) (h : tableFind classNamesTable t = some name) :
    ∃ c, classFor name = some c ∧ c.type = t := by
  revert name
  cases t <;> decide +kernel

/-- C18: exactly the types `ignored` and `unknown` cannot be written. -/
theorem c18_total (t : ObjectType) : (tableFind classNamesTable t).isSome ↔ t ≠ .ignored ∧ t ≠ .unknown := by
  cases t <;> decide +kernel

/-- C18: no two types share a class name. -/
theorem c18_injective (t u : ObjectType) (name : Bytes) (ht : tableFind classNamesTable t = some name)
    (hu : tableFind classNamesTable u = some name) : t = u := by
  obtain ⟨c, hc, rfl⟩ := c18_round_trip t name ht
  obtain ⟨d, hd, rfl⟩ := c18_round_trip u name hu
  rw [hc] at hd
  rw [Option.some.inj hd]

theorem objects_mem : ∀ p ∈ objectsTable, (p.2 ≠ .ignored ∧ p.2 ≠ .unknown) ∧ tableFind classNamesTable p.2 = some p.1 := by
  decide +kernel

theorem lookup_mem {α β} [BEq α] [LawfulBEq α] : ∀ (l : List (α × β)) (k : α) (v : β), l.lookup k = some v → (k, v) ∈ l := by
  intro l k v
  induction l with
  | nil => intro h; simp at h
  | cons p l ih =>
    obtain ⟨a, b⟩ := p
    intro h
    rw [List.lookup_cons] at h
    split at h
    · rename_i he
      have : k = a := by simpa using he
      subst this
      cases h
      exact .head _
    · exact .tail _ (ih h)

/-- C18, the other direction: an object loaded from any class name is written with that class name again. -/
theorem c18_load_save (name : Bytes) (c : ObjClass) (h : classFor name = some c) :
    tableFind classNamesTable c.type = some name := by
  unfold classFor at h
  cases hf : tableFind objectsTable name with
  | none => rw [hf] at h; cases h
  | some t =>
    rw [hf] at h
    have hm := objects_mem _ (lookup_mem _ _ _ hf)
    obtain ⟨d, hd, hdt⟩ := c18_round_trip t name hm.2
    have : classFor name = t.make := by unfold classFor; rw [hf]
    rw [this] at hd
    change t.make = some c at h
    rw [h] at hd
    cases hd
    rw [hdt]
    exact hm.2

/-- C18: no class name is one of the marks for references and null objects, or empty. -/
theorem c18_names (t : ObjectType) (name : Bytes) (h : tableFind classNamesTable t = some name) :
    name ≠ [0xA7] ∧ name ≠ b!"%" ∧ name ≠ [] := by
  revert name
  cases t <;> decide +kernel

/-- C18: the unchecked cast to `VirtualObject` (`src/Archive.cc:511-515`) is only ever applied to virtual objects, and every virtual
object gets its type. -/
theorem c18_vobject (t : ObjectType) (c : ObjClass) (h : t.make = some c) :
    t.isVobject = ObjClass.VirtualObject.isBaseOf 5 c := by
  revert c
  cases t <;> decide +kernel

example : tableFind classNamesTable .oCMobDoor = some b!"oCMobDoor:oCMobInter:oCMOB:zCVob" ∧
    classFor b!"oCMobDoor:oCMobInter:oCMOB:zCVob" = some .VDoor := by decide +kernel

end Verif.Props
