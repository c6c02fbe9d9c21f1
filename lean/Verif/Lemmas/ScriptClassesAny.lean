import Verif.Lemmas.ScriptClasses
import Verif.Lemmas.Mds

/-!
# Registering with any script

The lemmas of `Lemmas/ScriptClasses` for scripts whose members belong to whatever symbols.
-/

namespace Verif.ScriptClasses

open Verif.Daedalus Verif.Spec.Daedalus

/-- A symbol without what it is registered to. -/
def bare (s : Sym) : Sym := { s with registeredTo := none, memberOffset := 0 }

/-- The same table, apart from what the symbols are registered to. -/
def SameTable (a b : List Sym) : Prop := a.map bare = b.map bare

theorem SameTable.symm {a b : List Sym} (h : SameTable a b) : SameTable b a := Eq.symm h

theorem SameTable.trans {a b c : List Sym} (h : SameTable a b) (g : SameTable b c) : SameTable a c := Eq.trans h g

theorem lastIndex_bare (p : Sym → Bool) (hp : ∀ s, p (bare s) = p s) (l : List Sym) : lastIndex p (l.map bare) = lastIndex p l := by
  induction l with
  | nil => rfl
  | cons s l ih => rw [List.map_cons, lastIndex, lastIndex, ih, hp]

theorem findByName_bare (l : List Sym) (n : Bytes) : findByName (l.map bare) n = findByName l n :=
  lastIndex_bare _ (fun _ => rfl) l

theorem SameTable.find {a b : List Sym} (h : SameTable a b) (n : Bytes) : findByName a n = findByName b n := by
  rw [← findByName_bare a, ← findByName_bare b, h]

theorem SameTable.present {a b : List Sym} (h : SameTable a b) (n : Bytes) : present a n = present b n := by
  unfold ScriptClasses.present
  rw [h.find]

theorem SameTable.get {a b : List Sym} (h : SameTable a b) {i : Nat} {s : Sym} (hs : a[i]? = some s) :
    ∃ t, b[i]? = some t ∧ bare t = bare s := by
  have : (a.map bare)[i]? = (b.map bare)[i]? := by rw [h]
  rw [List.getElem?_map, List.getElem?_map, hs] at this
  cases hb : b[i]? with
  | none => rw [hb] at this; cases this
  | some t => rw [hb] at this; exact ⟨t, rfl, (Option.some.inj this).symm⟩

theorem bare_fields {s t : Sym} (h : bare s = bare t) : s.name = t.name ∧ s.isMember = t.isMember ∧ s.count = t.count ∧
    s.parent = t.parent ∧ s.type = t.type := by
  have hf : s.flags = t.flags := by have := congrArg Sym.flags h; exact this
  have hn : s.name = t.name := by have := congrArg Sym.name h; exact this
  have hc : s.count = t.count := by have := congrArg Sym.count h; exact this
  have hp : s.parent = t.parent := by have := congrArg Sym.parent h; exact this
  have ht : s.type = t.type := by have := congrArg Sym.type h; exact this
  refine ⟨hn, ?_, hc, hp, ht⟩
  unfold Sym.isMember
  rw [hf]

theorem modify_at {l : List Sym} {i : Nat} {s : Sym} (g : Sym → Sym) (h : l[i]? = some s) : (l.modify i g)[i]? = some (g s) := by
  rw [List.getElem?_modify, h]
  simp

theorem modify_off {l : List Sym} {i k : Nat} (g : Sym → Sym) (h : i ≠ k) : (l.modify i g)[k]? = l[k]? := by
  rw [List.getElem?_modify]
  cases l[k]? <;> simp [h]

theorem modify_same (l : List Sym) (i : Nat) (g : Sym → Sym) (hg : ∀ s, bare (g s) = bare s) : SameTable (l.modify i g) l := by
  unfold SameTable
  apply List.ext_getElem?
  intro k
  rw [List.getElem?_map, List.getElem?_map, List.getElem?_modify]
  cases l[k]? with
  | none => rfl
  | some s => by_cases h : i = k <;> simp [h, hg]

theorem check_same (syms : List Sym) (name : Bytes) (f : Field) : SameTable (checkMember syms name f).2 syms := by
  unfold checkMember
  split
  · rfl
  split
  · rfl
  split
  · rfl
  split
  · rfl
  split
  · rfl
  split
  · rfl
  dsimp only
  split <;> exact modify_same _ _ _ fun _ => rfl

theorem register_same (syms : List Sym) (name : Bytes) (f : Field) : SameTable (registerMember syms name f).2 syms := by
  have h := check_same syms name f
  unfold registerMember
  split
  · rename_i e t he; rw [he] at h; exact h
  · rename_i y t he
    rw [he] at h
    exact SameTable.trans (b := t) (modify_same t y
      (fun s => { s with memberOffset := BitVec.ofNat 32 f.addr, registeredTo := some f.cls }) fun _ => rfl) h

theorem registrations_same (calls : List (Bytes × Field)) (syms : List Sym) : SameTable (registrations calls syms) syms := by
  induction calls generalizing syms with
  | nil => rfl
  | cons x calls ih => exact (ih _).trans (register_same _ _ _)

/-- What a successful call does. -/
theorem register_ok_any {syms : List Sym} {name : Bytes} {f : Field} (h : (registerMember syms name f).1 = .ok ()) :
    ∃ y s p, findByName syms name = some y ∧ syms[y]? = some s ∧ s.isMember = true ∧ s.count.toNat ≤ f.elems ∧
      holdsKind (fieldKind f) s.type = true ∧ syms[s.parent.toNat]? = some p ∧
      (p.registeredTo = none ∨ p.registeredTo = some f.cls) ∧
      (registerMember syms name f).2 = (syms.modify s.parent.toNat fun p => { p with registeredTo := some f.cls }).modify y
        fun s => { s with memberOffset := BitVec.ofNat 32 f.addr, registeredTo := some f.cls } := by
  unfold registerMember at h ⊢
  cases hc : checkMember syms name f with
  | mk r t =>
    rw [hc] at h
    cases r with
    | error e => cases h
    | ok y =>
      unfold checkMember at hc
      split at hc
      · cases hc
      rename_i y' hy
      split at hc
      · cases hc
      rename_i s hs
      split at hc
      · cases hc
      rename_i hm
      split at hc
      · cases hc
      rename_i hcn
      split at hc
      · cases hc
      rename_i p hp
      split at hc
      · cases hc
      rename_i hr
      dsimp only at hc
      split at hc
      · rename_i hk
        cases hc
        refine ⟨y, s, p, hy, hs, by simpa using hm, by omega, by rw [← matches_iff]; exact hk, hp, ?_, rfl⟩
        by_cases h1 : p.registeredTo = none
        · exact Or.inl h1
        · right
          by_cases h2 : p.registeredTo = some f.cls
          · exact h2
          · exact absurd ⟨h1, h2⟩ hr
      · cases hc

/-- A `register_` returns exactly if its calls succeed, and does nothing else. -/
theorem registerRegs_any {base : List Sym} (place : Nat → Nat → Nat) (i : Nat) {c : ScriptClass} (regs : List Reg)
    (hr : ∀ r ∈ regs, ∃ f, c.field place i r.field = some f) (syms : List Sym) (hb : SameTable syms base) :
    ((registerRegs place i c regs syms).1 = .ok () ↔ AllOk (callsOf place i c base regs) syms) ∧
    ((registerRegs place i c regs syms).1 = .ok () →
      (registerRegs place i c regs syms).2 = registrations (callsOf place i c base regs) syms) := by
  induction regs generalizing syms with
  | nil => simp [registerRegs, callsOf, AllOk, registrations]
  | cons r rest ih =>
    obtain ⟨f, hf⟩ := hr r (by simp)
    have hrest := ih (fun r' h => hr r' (List.mem_cons_of_mem _ h))
    unfold registerRegs callsOf
    rw [hf]
    dsimp only
    have hg : (r.guard.all fun g => present syms (c.member g)) = r.guard.all fun g => present base (c.member g) := by
      cases r.guard with
      | none => rfl
      | some g => exact hb.present _
    rw [hg]
    cases hgu : (r.guard.all fun g => present base (c.member g)) with
    | false =>
      rw [List.filterMap_cons, hgu]
      exact hrest syms hb
    | true =>
      rw [List.filterMap_cons, hgu, hf]
      simp only [if_true, Option.map_some]
      have h2 := register_same syms (c.member r.member) f
      unfold AllOk registrations
      cases h1 : registerMember syms (c.member r.member) f with
      | mk x t =>
        rw [h1] at h2
        have ihb := hrest t (SameTable.trans h2 hb)
        cases x with
        | error e => simp
        | ok u =>
          dsimp only
          simp only [true_and]
          exact ihb

theorem registerFrom_any {base : List Sym} (place : Nat → Nat → Nat) (cs : List ScriptClass) (i : Nat)
    (hr : ∀ c ∈ cs, ∀ i, ∀ r ∈ c.regs, ∃ f, c.field place i r.field = some f) (syms : List Sym) (hb : SameTable syms base) :
    ((registerFrom place i cs syms).1 = .ok () ↔ AllOk (callsFrom place base i cs) syms) ∧
    ((registerFrom place i cs syms).1 = .ok () →
      (registerFrom place i cs syms).2 = registrations (callsFrom place base i cs) syms) := by
  induction cs generalizing i syms with
  | nil => simp [registerFrom, callsFrom, AllOk, registrations]
  | cons c rest ih =>
    have hrest := ih (i + 1) (fun c' h => hr c' (List.mem_cons_of_mem _ h))
    unfold registerFrom callsFrom
    rw [hb.present]
    cases hp : present base c.symbol with
    | false => simp only [Bool.false_eq_true, if_false, List.nil_append]; exact hrest syms hb
    | true =>
      simp only [if_true]
      rw [allOk_append, registrations_append]
      obtain ⟨h1, h2⟩ := registerRegs_any (base := base) place i c.regs (hr c (by simp) i) syms hb
      cases hx : registerRegs place i c c.regs syms with
      | mk x t =>
        rw [hx] at h1 h2
        cases x with
        | error e =>
          dsimp only at h1 ⊢
          have hn : ¬ AllOk (callsOf place i c base c.regs) syms := fun h => by have := h1.mpr h; cases this
          exact ⟨⟨fun h => (by cases h), fun h => absurd h.1 hn⟩, fun h => (by cases h)⟩
        | ok u =>
          have ht := h2 rfl
          dsimp only at ht ⊢
          subst ht
          have ihb := hrest (registrations (callsOf place i c base c.regs) syms) ((registrations_same (callsOf place i c base c.regs) syms).trans hb)
          rw [ihb.1]
          exact ⟨⟨fun h => ⟨h1.mp rfl, h⟩, fun h => h.2⟩, fun h => ihb.2 (ihb.1.mpr h)⟩

/-! ## What stays bound -/

/-- The symbol is bound to the field. -/
def BoundTo (f : Field) (s : Sym) : Prop :=
  s.isMember = true ∧ s.registeredTo = some f.cls ∧ s.memberOffset = BitVec.ofNat 32 f.addr ∧ s.count.toNat ≤ f.elems ∧
    holdsKind (fieldKind f) s.type = true

theorem boundTo_new {syms : List Sym} {name : Bytes} {f : Field} (h : (registerMember syms name f).1 = .ok ()) :
    ∃ y s, findByName syms name = some y ∧ (registerMember syms name f).2[y]? = some s ∧ BoundTo f s := by
  obtain ⟨y, s, p, hy, hs, hm, hc, hk, hp, -, he⟩ := register_ok_any h
  rw [he]
  by_cases hpy : s.parent.toNat = y
  · refine ⟨y, _, hy, modify_at _ (by rw [hpy]; exact modify_at _ hs), ?_⟩
    exact ⟨hm, rfl, rfl, hc, hk⟩
  · refine ⟨y, _, hy, modify_at _ (by rw [modify_off _ hpy]; exact hs), ?_⟩
    exact ⟨hm, rfl, rfl, hc, hk⟩

theorem boundTo_stays {syms : List Sym} {name : Bytes} {f g : Field} (h : (registerMember syms name f).1 = .ok ()) {z : Nat} {u : Sym}
    (hz : findByName syms name ≠ some z) (hu : syms[z]? = some u) (hb : BoundTo g u) :
    ∃ s, (registerMember syms name f).2[z]? = some s ∧ BoundTo g s := by
  obtain ⟨y, s, p, hy, hs, hm, hc, hk, hp, hr, he⟩ := register_ok_any h
  rw [he]
  have hyz : y ≠ z := fun h => hz (by rw [hy, h])
  by_cases hpz : s.parent.toNat = z
  · rw [hpz, hu] at hp
    cases hp
    have hcls : f.cls = g.cls := by
      rw [hb.2.1] at hr
      rcases hr with hr | hr
      · cases hr
      · exact (Option.some.inj hr).symm
    refine ⟨{ u with registeredTo := some f.cls }, ?_, ?_⟩
    · rw [modify_off _ hyz, hpz]; exact modify_at _ hu
    · exact ⟨hb.1, by rw [hcls], hb.2.2⟩
  · refine ⟨u, ?_, hb⟩
    rw [modify_off _ hyz, modify_off _ hpz]; exact hu

theorem boundTo_kept (calls : List (Bytes × Field)) {syms : List Sym} (h : AllOk calls syms) {g : Field} {z : Nat} {u : Sym}
    (hz : ∀ x ∈ calls, findByName syms x.1 ≠ some z) (hu : syms[z]? = some u) (hb : BoundTo g u) :
    ∃ s, (registrations calls syms)[z]? = some s ∧ BoundTo g s := by
  induction calls generalizing syms u with
  | nil => exact ⟨u, hu, hb⟩
  | cons x calls ih =>
    obtain ⟨name, f⟩ := x
    obtain ⟨s, hs, hb'⟩ := boundTo_stays h.1 (hz (name, f) (List.mem_cons_self ..)) hu hb
    refine ih h.2 (fun x hx => ?_) hs hb'
    rw [(register_same _ _ _).find]
    exact hz x (List.mem_cons_of_mem _ hx)

/-- If all calls succeed, each member is bound to its field afterwards. -/
theorem all_bound_any (calls : List (Bytes × Field)) {syms : List Sym} (h : AllOk calls syms)
    (hn : (calls.map fun x => x.1.map toupper).Nodup) (name : Bytes) (f : Field) (hm : (name, f) ∈ calls) :
    ∃ y s, findByName syms name = some y ∧ (registrations calls syms)[y]? = some s ∧ BoundTo f s := by
  induction calls generalizing syms with
  | nil => cases hm
  | cons x calls ih =>
    rw [List.map_cons, List.nodup_cons] at hn
    rcases List.mem_cons.mp hm with rfl | hm
    · obtain ⟨y, s, hy, hs, hb⟩ := boundTo_new h.1
      have hsame := register_same syms name f
      have hother : ∀ c ∈ calls, findByName (registerMember syms name f).2 c.1 ≠ some y := by
        intro c hc hcy
        rw [hsame.find] at hcy
        exact hn.1 (List.mem_map.mpr ⟨c, hc, (findByName_inj hy hcy).symm⟩)
      obtain ⟨s', hs', hb'⟩ := boundTo_kept calls h.2 hother hs hb
      exact ⟨y, s', hy, hs', hb'⟩
    · obtain ⟨y, s, hy, hs, hb⟩ := ih h.2 hn.2 hm
      rw [(register_same _ _ _).find] at hy
      exact ⟨y, s, hy, hs, hb⟩

/-! ## Scripts that declare what the classes need -/

theorem upper_dot (n : Bytes) : (46 : Byte) ∈ n.map toupper ↔ (46 : Byte) ∈ n := by
  have h : ∀ c : Byte, toupper c = 46 ↔ c = 46 := fun c => by
    have := Verif.Mds.byte_all (fun c => decide (toupper c = 46 ↔ c = 46)) (by decide +kernel) c
    simpa using this
  rw [List.mem_map]
  constructor
  · rintro ⟨c, hc, he⟩
    rw [h] at he
    exact he ▸ hc
  · intro hm
    exact ⟨46, hm, by decide⟩

set_option maxRecDepth 100000 in
theorem symbols_plain : scriptClasses.all (fun c => !c.symbol.contains 46) = true := by decide +kernel

/-- Symbols are bound to their own classes, or have the name of a member. -/
def OwnedAny (base syms : List Sym) : Prop :=
  ∀ q s t, syms[q]? = some s → s.registeredTo = some t →
    (∃ c, scriptClasses[t]? = some c ∧ findByName base c.symbol = some q) ∨ (46 : Byte) ∈ s.name

theorem allOk_of_declared_any {base : List Sym} (calls : List (Bytes × Field)) (syms : List Sym) (hb : SameTable syms base)
    (ho : OwnedAny base syms) (hd : ∀ x ∈ calls, (46 : Byte) ∈ x.1)
    (h : ∀ x ∈ calls, ∃ y s c, findByName base x.1 = some y ∧ base[y]? = some s ∧ s.isMember = true ∧ s.count.toNat ≤ x.2.elems ∧
      holdsKind (fieldKind x.2) s.type = true ∧ scriptClasses[x.2.cls]? = some c ∧ findByName base c.symbol = some s.parent.toNat) :
    AllOk calls syms := by
  induction calls generalizing syms with
  | nil => trivial
  | cons x rest ih =>
    obtain ⟨name, f⟩ := x
    obtain ⟨y, s0, c, hy, hs0, hm, hc, hk, hcls, hq⟩ := h (name, f) (by simp)
    dsimp only at hy hc hk hcls
    obtain ⟨s, hs, hsb⟩ := hb.symm.get hs0
    obtain ⟨hn, hm', hc', hp', ht'⟩ := bare_fields hsb
    obtain ⟨p0, hp0, hpn0⟩ := findByName_name hq
    obtain ⟨p, hp, hpb⟩ := hb.symm.get hp0
    have hpn := (bare_fields hpb).1
    have hplain : (46 : Byte) ∉ p.name := by
      rw [hpn, hpn0, upper_dot]
      have := List.all_eq_true.mp symbols_plain c (List.mem_of_getElem? hcls)
      simpa using this
    have hreg : ¬ (p.registeredTo ≠ none ∧ p.registeredTo ≠ some f.cls) := by
      rintro ⟨h1, h2⟩
      cases ht : p.registeredTo with
      | none => exact h1 ht
      | some t =>
        rcases ho _ p t hp ht with ⟨d, hd, hdq⟩ | hdot
        · rw [ht, symbol_inj hd hcls hdq hq] at h2
          exact h2 rfl
        · exact hplain hdot
    have hok : (registerMember syms name f).1 = .ok () := by
      unfold registerMember checkMember
      rw [hb.find, hy]
      dsimp only
      rw [hs]
      dsimp only
      rw [hm', hm, hp', hp, hc']
      simp only [Bool.not_true, Bool.false_eq_true, if_false]
      rw [if_neg (by omega), if_neg hreg, matches_iff, ht', hk]
      rfl
    refine ⟨hok, ih _ ((register_same _ _ _).trans hb) ?_ (fun x hx => hd x (List.mem_cons_of_mem _ hx))
      fun x hx => h x (List.mem_cons_of_mem _ hx)⟩
    obtain ⟨y', s', p', hy', hs', -, -, -, -, -, he⟩ := register_ok_any hok
    rw [hb.find, hy] at hy'; cases hy'
    rw [hs] at hs'; cases hs'
    rw [he]
    intro q u t hu ht
    rw [List.getElem?_modify, List.getElem?_modify] at hu
    cases hx : syms[q]? with
    | none => rw [hx] at hu; cases hu
    | some w =>
      rw [hx] at hu
      by_cases hyq : y = q
      · right
        subst q
        rw [hs] at hx; cases hx
        have hun : u.name = s.name := by
          by_cases hpq : s.parent.toNat = y <;> simp [hpq] at hu <;> rw [← hu]
        rw [hun, hn]
        obtain ⟨s1, hs1, hn1⟩ := findByName_name hy
        rw [hs0] at hs1; cases hs1
        rw [hn1, upper_dot]
        exact hd _ (List.mem_cons_self ..)
      · by_cases hpq : s.parent.toNat = q
        · left
          have : t = f.cls := by
            simp [hyq, hpq] at hu
            rw [← hu] at ht
            exact (Option.some.inj ht).symm
          subst this
          exact ⟨c, hcls, by rw [← hpq, hp']; exact hq⟩
        · simp [hyq, hpq] at hu
          rw [← hu] at ht ⊢
          exact ho q w t hx ht

end Verif.ScriptClasses
