import Verif.Lemmas.DaedalusMember
import Verif.Spec.ScriptClasses

/-!
# Registering the classes of the game scripts
-/

namespace Verif.ScriptClasses

open Verif.Daedalus Verif.Spec.Daedalus Verif.Spec.ScriptClasses

/-! ## The table -/

def allNames (cs : List ScriptClass) : List Bytes := cs.flatMap fun c => c.regs.map fun r => (c.member r.member).map toupper

/-- Whether no number occurs twice. -/
def distinct : List Nat → Bool
  | [] => true
  | a :: l => l.all (fun b => !(Nat.beq a b)) && distinct l

theorem distinct_nodup {l : List Nat} (h : distinct l = true) : l.Nodup := by
  induction l with
  | nil => exact List.nodup_nil
  | cons a l ih =>
    unfold distinct at h
    rw [Bool.and_eq_true, List.all_eq_true] at h
    refine List.nodup_cons.mpr ⟨fun hm => ?_, ih h.2⟩
    have := h.1 a hm
    simp at this

theorem nodup_of_map {α β} (f : α → β) {l : List α} (h : (l.map f).Nodup) : l.Nodup := by
  induction l with
  | nil => exact List.nodup_nil
  | cons a l ih =>
    rw [List.map_cons, List.nodup_cons] at h
    exact List.nodup_cons.mpr ⟨fun hm => h.1 (List.mem_map_of_mem hm), ih h.2⟩

set_option maxRecDepth 100000 in
theorem names_distinct : distinct ((allNames scriptClasses).map leNat) = true := by decide +kernel

theorem names_nodup : (allNames scriptClasses).Nodup := nodup_of_map leNat (distinct_nodup names_distinct)

set_option maxRecDepth 100000 in
theorem symbols_distinct : distinct ((scriptClasses.map fun c => c.symbol.map toupper).map leNat) = true := by decide +kernel

/-- Every registration names a field of its class. -/
def resolves (c : ScriptClass) : Bool := c.regs.all fun r => c.fields.any fun d => d.name == r.field

set_option maxRecDepth 100000 in
theorem resolves_all : scriptClasses.all resolves = true := by decide +kernel

theorem findIdx_some {α} {p : α → Bool} {l : List α} {k : Nat} (h : l.findIdx? p = some k) : ∃ a, l[k]? = some a ∧ p a = true := by
  rw [List.findIdx?_eq_some_iff_getElem] at h
  obtain ⟨hk, hp, -⟩ := h
  exact ⟨l[k], List.getElem?_eq_getElem hk, hp⟩

theorem field_some {place : Nat → Nat → Nat} {i : Nat} {c : ScriptClass} {name : Bytes} {f : Field}
    (h : c.field place i name = some f) : Compiled place i c name f := by
  unfold ScriptClass.field at h
  split at h
  · cases h
  · rename_i k hk
    obtain ⟨d, hd, hp⟩ := findIdx_some hk
    rw [hd] at h
    cases h
    exact ⟨k, d, hd, by simpa using hp, rfl⟩

theorem field_exists (place : Nat → Nat → Nat) (i : Nat) {c : ScriptClass} (hc : c ∈ scriptClasses) {r : Reg} (hr : r ∈ c.regs) :
    ∃ f, c.field place i r.field = some f := by
  have h := List.all_eq_true.mp (List.all_eq_true.mp resolves_all c hc) r hr
  unfold ScriptClass.field
  cases hk : c.fields.findIdx? (fun d => d.name == r.field) with
  | none =>
    rw [List.findIdx?_eq_none_iff] at hk
    rw [List.any_eq_true] at h
    obtain ⟨d, hd, he⟩ := h
    rw [hk d hd] at he
    cases he
  | some k =>
    obtain ⟨d, hd, -⟩ := findIdx_some hk
    dsimp only
    rw [hd]
    exact ⟨_, rfl⟩

/-! ## The calls -/

/-- The calls of a `register_`. -/
def callsOf (place : Nat → Nat → Nat) (i : Nat) (c : ScriptClass) (syms : List Sym) (regs : List Reg) : List (Bytes × Field) :=
  regs.filterMap fun r =>
    if r.guard.all (fun g => present syms (c.member g)) then (c.field place i r.field).map fun f => (c.member r.member, f) else none

/-- The calls of `register_all_script_classes`. -/
def callsFrom (place : Nat → Nat → Nat) (syms : List Sym) : Nat → List ScriptClass → List (Bytes × Field)
  | _, [] => []
  | i, c :: rest => (if present syms c.symbol then callsOf place i c syms c.regs else []) ++ callsFrom place syms (i + 1) rest

/-- Every call of a history succeeds. -/
def AllOk : List (Bytes × Field) → List Sym → Prop
  | [], _ => True
  | (name, f) :: rest, syms => (registerMember syms name f).1 = .ok () ∧ AllOk rest (registerMember syms name f).2

theorem registrations_append (a b : List (Bytes × Field)) (syms : List Sym) :
    registrations (a ++ b) syms = registrations b (registrations a syms) := by
  induction a generalizing syms with
  | nil => rfl
  | cons x a ih => exact ih _

theorem allOk_append {a b : List (Bytes × Field)} {syms : List Sym} :
    AllOk (a ++ b) syms ↔ AllOk a syms ∧ AllOk b (registrations a syms) := by
  induction a generalizing syms with
  | nil => simp [AllOk, registrations]
  | cons x a ih =>
    show _ ∧ AllOk (a ++ b) _ ↔ (_ ∧ AllOk a _) ∧ AllOk b _
    rw [ih, and_assoc]
    rfl

/-! ## What the calls bind -/

theorem findByName_name {syms : List Sym} {name : Bytes} {y : Nat} (h : findByName syms name = some y) :
    ∃ s, syms[y]? = some s ∧ s.name = name.map toupper := by
  obtain ⟨s, hs, hn⟩ := lastIndex_some h
  exact ⟨s, hs, by simpa using hn⟩

theorem findByName_inj {syms : List Sym} {a b : Bytes} {y : Nat} (ha : findByName syms a = some y) (hb : findByName syms b = some y) :
    a.map toupper = b.map toupper := by
  obtain ⟨s, hs, h1⟩ := findByName_name ha
  obtain ⟨r, hr, h2⟩ := findByName_name hb
  rw [hs] at hr
  cases hr
  rw [← h1, h2]

/-! ## Names of calls -/

theorem callsOf_names (place : Nat → Nat → Nat) (i : Nat) (c : ScriptClass) (syms : List Sym) (regs : List Reg) :
    ((callsOf place i c syms regs).map fun x => x.1.map toupper).Sublist (regs.map fun r => (c.member r.member).map toupper) := by
  induction regs with
  | nil => exact List.Sublist.slnil
  | cons r rest ih =>
    unfold callsOf
    rw [List.filterMap_cons, List.map_cons]
    split
    · exact List.Sublist.cons _ ih
    · rename_i x hx
      split at hx
      · cases hf : c.field place i r.field with
        | none => rw [hf] at hx; cases hx
        | some f =>
          rw [hf] at hx
          cases hx
          exact List.Sublist.cons_cons _ ih
      · cases hx

theorem callsFrom_names (place : Nat → Nat → Nat) (syms : List Sym) (cs : List ScriptClass) (i : Nat) :
    ((callsFrom place syms i cs).map fun x => x.1.map toupper).Sublist (allNames cs) := by
  induction cs generalizing i with
  | nil => exact List.Sublist.slnil
  | cons c rest ih =>
    unfold callsFrom allNames
    rw [List.map_append, List.flatMap_cons]
    refine List.Sublist.append ?_ (ih (i + 1))
    split
    · exact callsOf_names place i c syms c.regs
    · exact List.nil_sublist _

theorem mem_callsOf {place : Nat → Nat → Nat} {i : Nat} {c : ScriptClass} {syms : List Sym} {regs : List Reg} {x : Bytes × Field} :
    x ∈ callsOf place i c syms regs ↔ ∃ r ∈ regs, (∀ g, r.guard = some g → present syms (c.member g) = true) ∧
      c.field place i r.field = some x.2 ∧ x.1 = c.member r.member := by
  unfold callsOf
  rw [List.mem_filterMap]
  constructor
  · rintro ⟨r, hr, h⟩
    split at h
    · rename_i hg
      cases hf : c.field place i r.field with
      | none => rw [hf] at h; cases h
      | some f =>
        rw [hf] at h
        cases h
        refine ⟨r, hr, fun g hgu => ?_, hf, rfl⟩
        rw [hgu] at hg
        exact hg
    · cases h
  · rintro ⟨r, hr, hg, hf, hx⟩
    refine ⟨r, hr, ?_⟩
    have : (r.guard.all fun g => present syms (c.member g)) = true := by
      cases hgu : r.guard with
      | none => rfl
      | some g => exact hg g hgu
    rw [if_pos this, hf]
    obtain ⟨a, f⟩ := x
    dsimp only at hx
    rw [hx]
    rfl

theorem mem_callsFrom {place : Nat → Nat → Nat} {syms : List Sym} {x : Bytes × Field} (cs : List ScriptClass) (i : Nat) :
    x ∈ callsFrom place syms i cs ↔ ∃ j c, cs[j]? = some c ∧ present syms c.symbol = true ∧ x ∈ callsOf place (i + j) c syms c.regs := by
  induction cs generalizing i with
  | nil => simp [callsFrom]
  | cons c rest ih =>
    unfold callsFrom
    rw [List.mem_append, ih]
    constructor
    · rintro (h | ⟨j, d, hd, hp, hx⟩)
      · split at h
        · exact ⟨0, c, rfl, by assumption, h⟩
        · cases h
      · exact ⟨j + 1, d, hd, hp, by rwa [Nat.add_right_comm, Nat.add_assoc] at hx⟩
    · rintro ⟨j, d, hd, hp, hx⟩
      cases j with
      | zero =>
        cases hd
        left
        rw [if_pos hp]
        exact hx
      | succ j =>
        right
        exact ⟨j, d, hd, hp, by rwa [Nat.add_right_comm, Nat.add_assoc]⟩

/-! ## Scripts that declare what the classes need -/

theorem symbol_inj {syms : List Sym} {t u : Nat} {c d : ScriptClass} {q : Nat} (hc : scriptClasses[t]? = some c)
    (hd : scriptClasses[u]? = some d) (h1 : findByName syms c.symbol = some q) (h2 : findByName syms d.symbol = some q) : t = u := by
  have hn := nodup_of_map leNat (distinct_nodup symbols_distinct)
  have he := findByName_inj h1 h2
  have ht := (List.getElem?_eq_some_iff.mp hc)
  have hu := (List.getElem?_eq_some_iff.mp hd)
  obtain ⟨ht, hc⟩ := ht
  obtain ⟨hu, hd⟩ := hu
  have := (List.getElem_inj (h₀ := by rw [List.length_map]; exact ht) (h₁ := by rw [List.length_map]; exact hu) hn).mp (by
    rw [List.getElem_map, List.getElem_map, hc, hd]; exact he)
  exact this

end Verif.ScriptClasses
