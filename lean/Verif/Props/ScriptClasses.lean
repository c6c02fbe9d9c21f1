import Verif.Lemmas.ScriptClasses
import Verif.Lemmas.ScriptClassesAny
import Verif.Props.DaedalusMember

/-!
# The classes of the game scripts (C92)
-/

namespace Verif.Props

open Verif.Daedalus Verif.ScriptClasses Verif.Spec.Daedalus Verif.Spec.ScriptClasses

/-! ## The table -/

set_option maxRecDepth 100000 in
/-- **C92**: every member is registered with the field of the same name, apart from underscores and the case of letters; there are
four exceptions. -/
theorem c92_names : ∀ c ∈ scriptClasses, ∀ r ∈ c.regs,
    squash r.member = squash r.field ∨ (c.symbol, r.member, r.field) ∈ renamed := by
  have h : (scriptClasses.all fun c => c.regs.all fun r =>
      squash r.member == squash r.field || renamed.contains (c.symbol, r.member, r.field)) = true := by decide +kernel
  intro c hc r hr
  have := List.all_eq_true.mp (List.all_eq_true.mp h c hc) r hr
  rw [Bool.or_eq_true] at this
  rcases this with h | h
  · exact Or.inl (by simpa using h)
  · exact Or.inr (by simpa using h)

set_option maxRecDepth 100000 in
theorem table_fields : (scriptClasses.all fun c => (c.fields.all fun d => c.regs.any fun r => d.name == r.field) &&
    distinct (c.fields.map fun d => leNat d.name) && distinct (c.regs.map fun r => leNat r.field)) = true := by decide +kernel

/-- **C92**: every field of every class is registered, once. -/
theorem c92_fields : ∀ c ∈ scriptClasses, (c.regs.map Reg.field).Nodup ∧ (c.fields.map FieldDecl.name).Nodup ∧
    ∀ name, name ∈ c.regs.map Reg.field ↔ name ∈ c.fields.map FieldDecl.name := by
  intro c hc
  have h := List.all_eq_true.mp table_fields c hc
  simp only [Bool.and_eq_true] at h
  obtain ⟨⟨hl, hf⟩, hr⟩ := h
  have hf : (c.fields.map FieldDecl.name).Nodup := nodup_of_map leNat (by rw [List.map_map]; exact distinct_nodup hf)
  have hr : (c.regs.map Reg.field).Nodup := nodup_of_map leNat (by rw [List.map_map]; exact distinct_nodup hr)
  refine ⟨hr, hf, fun n => ⟨fun hn => ?_, fun hn => ?_⟩⟩
  · obtain ⟨r, hr, rfl⟩ := List.mem_map.mp hn
    have h := List.all_eq_true.mp (List.all_eq_true.mp resolves_all c hc) r hr
    rw [List.any_eq_true] at h
    obtain ⟨d, hd, he⟩ := h
    exact List.mem_map.mpr ⟨d, hd, by simpa using he⟩
  · obtain ⟨d, hd, rfl⟩ := List.mem_map.mp hn
    have h := List.all_eq_true.mp hl d hd
    rw [List.any_eq_true] at h
    obtain ⟨r, hr, he⟩ := h
    exact List.mem_map.mpr ⟨r, hr, (beq_iff_eq.mp he).symm⟩

/-- **C92**: no two calls are about the same member, in whatever case its name is written. -/
theorem c92_members : (scriptClasses.flatMap fun c => c.regs.map fun r => (c.symbol ++ b!"." ++ r.member).map toupper).Nodup :=
  names_nodup

set_option maxRecDepth 100000 in
/-- **C92**: the arrays have room for all elements the scripts of the games have. -/
theorem c92_elements : ∀ c ∈ scriptClasses, ∀ d ∈ c.fields, d.elems = elements c.symbol d.name := by
  have h : (scriptClasses.all fun c => c.fields.all fun d => d.elems == elements c.symbol d.name) = true := by decide +kernel
  intro c hc d hd
  simpa using List.all_eq_true.mp (List.all_eq_true.mp h c hc) d hd

/-! ## What is bound -/

/-- The calls `register_all_script_classes` makes. -/
def allCalls (place : Nat → Nat → Nat) (syms : List Sym) : List (Bytes × Field) := callsFrom place syms 0 scriptClasses

theorem registerAll_eq (syms : List Sym) (place : Nat → Nat → Nat) :
    ((registerAll place syms).1 = .ok () ↔ AllOk (allCalls place syms) syms) ∧
    ((registerAll place syms).1 = .ok () → (registerAll place syms).2 = registrations (allCalls place syms) syms) :=
  registerFrom_any place scriptClasses 0 (fun _ hc i _ hr => field_exists place i hc hr) syms rfl

theorem asked_call {place : Nat → Nat → Nat} {syms : List Sym} {i : Nat} {c : ScriptClass} {r : Reg} (h : Asked syms i c r) :
    ∃ f, Compiled place i c r.field f ∧ (c.symbol ++ b!"." ++ r.member, f) ∈ allCalls place syms := by
  obtain ⟨hc, hs, hr, hg⟩ := h
  obtain ⟨f, hf⟩ := field_exists place i (List.mem_of_getElem? hc) hr
  refine ⟨f, field_some hf, ?_⟩
  unfold allCalls
  rw [mem_callsFrom]
  refine ⟨i, c, hc, hs, ?_⟩
  rw [Nat.zero_add, mem_callsOf]
  exact ⟨r, hr, fun g h => hg g h, hf, rfl⟩

theorem call_asked {place : Nat → Nat → Nat} {syms : List Sym} {x : Bytes × Field} (h : x ∈ allCalls place syms) :
    ∃ i c r, Asked syms i c r ∧ Compiled place i c r.field x.2 ∧ x.1 = c.symbol ++ b!"." ++ r.member := by
  unfold allCalls at h
  rw [mem_callsFrom] at h
  obtain ⟨j, c, hc, hs, hx⟩ := h
  rw [Nat.zero_add, mem_callsOf] at hx
  obtain ⟨r, hr, hg, hf, hn⟩ := hx
  exact ⟨j, c, r, ⟨hc, hs, hr, hg⟩, field_some hf, hn⟩

/-- If all classes could be registered, every member of the table that the script has is bound to its field. -/
theorem all_asked {syms : List Sym} {place : Nat → Nat → Nat} (h : (registerAll place syms).1 = .ok ()) {i : Nat} {c : ScriptClass}
    {r : Reg} (ha : Asked syms i c r) :
    ∃ y s f, findByName syms (c.symbol ++ b!"." ++ r.member) = some y ∧ (registerAll place syms).2[y]? = some s ∧
      Compiled place i c r.field f ∧ BoundTo f s := by
  obtain ⟨h1, h2⟩ := registerAll_eq syms place
  obtain ⟨f, hc, hm⟩ := asked_call (place := place) ha
  have hn : ((allCalls place syms).map fun x => x.1.map toupper).Nodup :=
    (callsFrom_names place syms scriptClasses 0).nodup names_nodup
  obtain ⟨y, s, hy, hs, hb⟩ := all_bound_any (allCalls place syms) (h1.mp h) hn _ f hm
  exact ⟨y, s, f, hy, by rw [h2 h]; exact hs, hc, hb⟩

set_option maxRecDepth 100000 in
theorem elements_few : (scriptClasses.all fun c => c.fields.all fun d => decide (d.elems < 256)) = true := by decide +kernel

/-- Bound symbols have less than 256 elements. -/
theorem bound_few {place : Nat → Nat → Nat} {i : Nat} {c : ScriptClass} {name : Bytes} {f : Field} {s : Sym}
    (hc : scriptClasses[i]? = some c) (hf : Compiled place i c name f) (hb : BoundTo f s) : s.count.toNat < 256 := by
  obtain ⟨k, d, hk, -, rfl⟩ := hf
  have := List.all_eq_true.mp (List.all_eq_true.mp elements_few c (List.mem_of_getElem? hc)) d (List.mem_of_getElem? hk)
  have h := hb.2.2.2.1
  simp only [decide_eq_true_eq] at this
  dsimp only at h
  omega

/-- **C92**: if all classes could be registered with a script, then a script reads from an object of the game, with every member of
the table that it has, what the program put into the field of that name, wherever the compiler puts the fields. -/
theorem c92_read {syms : List Sym} (place : Nat → Nat → Nat)
    (h : (registerAll place syms).1 = .ok ()) {i : Nat} {c : ScriptClass} {r : Reg} (ha : Asked syms i c r) {v : Vm}
    (hv : v.syms = (registerAll place syms).2) {p : Option Nat} {n : Inst} (hn : instAt v p = some n) (ht : n.type = some i)
    (hh : ∀ f, Compiled place i c r.field f → HasField n f) :
    ∃ y s f, findByName syms (c.symbol ++ b!"." ++ r.member) = some y ∧ v.syms[y]? = some s ∧ Compiled place i c r.field f ∧
      ∀ k < s.count.toNat, ∃ x, readVar (fieldKind f) y k p v = (.ok x, v) ∧ cellAt n.cells (fieldAt f k) = some x := by
  obtain ⟨y, s, f, hy, hs, hc, hb⟩ := all_asked h ha
  have hcls : f.cls = i := by obtain ⟨k, d, -, -, rfl⟩ := hc; rfl
  rw [← hv] at hs
  refine ⟨y, s, f, hy, hs, hc, fun k hk => ?_⟩
  have hfew := bound_few ha.1 hc hb
  obtain ⟨hm, hr, ho, hcn, hkd⟩ := hb
  obtain ⟨x, h1, h2⟩ := read_field hm ho hr (by rw [ht, hcls]) hkd hcn (hh f hc) hk (fun _ => by omega)
  refine ⟨x, ?_, h2⟩
  rw [readVar_fst _ _ _ _ _ hs, hn, h1]

/-- **C92**: and what it writes is put into that field, and nowhere else. -/
theorem c92_write {syms : List Sym} (place : Nat → Nat → Nat)
    (h : (registerAll place syms).1 = .ok ()) {i : Nat} {c : ScriptClass} {r : Reg} (ha : Asked syms i c r) {v : Vm}
    (hv : v.syms = (registerAll place syms).2) {a : Nat} {n : Inst} (hn : v.heap[a]? = some n) (ht : n.type = some i)
    (hh : ∀ f, Compiled place i c r.field f → HasField n f) :
    ∃ y s f, findByName syms (c.symbol ++ b!"." ++ r.member) = some y ∧ v.syms[y]? = some s ∧ Compiled place i c r.field f ∧
      ∀ k < s.count.toNat, ∀ x, kindOf x = fieldKind f → writeVar x y k (some a) v =
        (.ok (), { v with heap := v.heap.set a { n with cells := setCell n.cells (fieldAt f k) x } }) := by
  obtain ⟨y, s, f, hy, hs, hc, hb⟩ := all_asked h ha
  have hcls : f.cls = i := by obtain ⟨k, d, -, -, rfl⟩ := hc; rfl
  rw [← hv] at hs
  refine ⟨y, s, f, hy, hs, hc, fun k hk x hx => ?_⟩
  obtain ⟨hm, hr, ho, hcn, hkd⟩ := hb
  have hw := write_field (c := x) hm ho hr (by rw [ht, hcls]) hkd hx hcn (hh f hc) hk
  have hi : instAt v (some a) = some n := hn
  rw [writeVar_eq, hs]
  dsimp only
  rw [hi, hw]
  show (Except.ok (), { v with syms := v.syms.set y s, heap := v.heap.set a _ }) = _
  have : v.syms.set y s = v.syms := by
    obtain ⟨hlt, he⟩ := List.getElem?_eq_some_iff.mp hs
    rw [← he, List.set_getElem_self]
  rw [this]

theorem nodup_at {α β} {f : α → β} {l : List α} (h : (l.map f).Nodup) {a b : α} (ha : a ∈ l) (hb : b ∈ l) (he : f a = f b) : a = b := by
  induction l with
  | nil => cases ha
  | cons x l ih =>
    rw [List.map_cons, List.nodup_cons] at h
    rcases List.mem_cons.mp ha with ha | ha <;> rcases List.mem_cons.mp hb with hb | hb
    · rw [ha, hb]
    · subst a; exact absurd (List.mem_map.mpr ⟨b, hb, he.symm⟩) h.1
    · subst b; exact absurd (List.mem_map.mpr ⟨a, ha, he⟩) h.1
    · exact ih h.2 ha hb

theorem nodup_part {α β} {f : α → List β} {l : List α} (h : (l.flatMap f).Nodup) {a : α} (ha : a ∈ l) : (f a).Nodup := by
  induction l with
  | nil => cases ha
  | cons x l ih =>
    rw [List.flatMap_cons, List.nodup_append] at h
    rcases List.mem_cons.mp ha with rfl | ha
    · exact h.1
    · exact ih h.2.1 ha

/-- **C92**: different members of a class are different symbols, and they are bound to different fields. -/
theorem c92_apart {syms : List Sym} (place : Nat → Nat → Nat)
    (h : (registerAll place syms).1 = .ok ()) {i : Nat} {c : ScriptClass} {r t : Reg} (ha : Asked syms i c r)
    (hb : Asked syms i c t) (hne : r ≠ t) :
    ∃ (y z k l : Nat), findByName syms (c.symbol ++ b!"." ++ r.member) = some y ∧
      findByName syms (c.symbol ++ b!"." ++ t.member) = some z ∧ y ≠ z ∧ k ≠ l ∧
      (c.fields[k]?).map FieldDecl.name = some r.field ∧ (c.fields[l]?).map FieldDecl.name = some t.field := by
  obtain ⟨y, -, f, hy, -, ⟨k, d, hk, hdn, -⟩, -⟩ := all_asked h ha
  obtain ⟨z, -, g, hz, -, ⟨l, e, hl, hen, -⟩, -⟩ := all_asked h hb
  have hc := List.mem_of_getElem? ha.1
  refine ⟨y, z, k, l, hy, hz, ?_, ?_, by rw [hk, ← hdn]; rfl, by rw [hl, ← hen]; rfl⟩
  · rintro rfl
    have := findByName_inj hy hz
    have hn := nodup_part c92_members hc
    exact hne (nodup_at hn ha.2.2.1 hb.2.2.1 this)
  · rintro rfl
    rw [hk] at hl
    cases hl
    exact hne (nodup_at (c92_fields c hc).1 ha.2.2.1 hb.2.2.1 (by rw [← hdn, hen]))

/-- **C92**: a script that declares the members of its classes as they are needed can be registered with. -/
theorem c92_success {syms : List Sym} (hf : Fresh syms) (hw : WellDeclared syms)
    (place : Nat → Nat → Nat) : (registerAll place syms).1 = .ok () := by
  rw [(registerAll_eq syms place).1]
  refine allOk_of_declared_any (allCalls place syms) syms rfl (fun q s t hs h => ?_) (fun x hx => ?_) ?_
  · rw [hf s (List.mem_of_getElem? hs)] at h; cases h
  · obtain ⟨i, c, r, -, -, hx1⟩ := call_asked hx
    rw [hx1]
    exact List.mem_append_left _ (List.mem_append_right _ (List.mem_cons_self ..))
  · intro x hx
    obtain ⟨i, c, r, ha, ⟨k, d, hk, hn, hf⟩, hx1⟩ := call_asked hx
    obtain ⟨y, q, s, d', hy, hq, hd', hn', hs, hm, hpar, hc, ht⟩ := hw i c r ha
    have hdd : d' = d := by
      have hnd := (c92_fields c (List.mem_of_getElem? ha.1)).2.1
      obtain ⟨k', hk'⟩ := List.getElem?_of_mem hd'
      obtain ⟨h1, e1⟩ := List.getElem?_eq_some_iff.mp hk
      obtain ⟨h2, e2⟩ := List.getElem?_eq_some_iff.mp hk'
      have := (List.getElem_inj (h₀ := by rw [List.length_map]; exact h1) (h₁ := by rw [List.length_map]; exact h2) hnd).mp (by
        rw [List.getElem_map, List.getElem_map, e1, e2, hn, hn'])
      subst this
      rw [hk] at hk'
      cases hk'
      rfl
    subst d'
    refine ⟨y, s, c, by rw [hx1]; exact hy, hs, hm, ?_, ?_, ?_, by rw [hpar]; exact hq⟩
    · rw [hf]; exact hc
    · rw [hf]
      unfold fieldKind
      dsimp only
      cases hty : d.type <;> rw [hty] at ht <;> dsimp only at ht ⊢ <;> unfold holdsKind
      · simp [ht]
      · simp [ht]
      · rcases ht with h | h <;> simp [h]
    · rw [hf]; exact ha.1

/-! ## A script with one class -/

/-- `class C_FIGHTAI { var int MOVE[6]; }` and a class the library does not know. -/
def fightScript : List Sym :=
  [{ name := b!"C_FIGHTAI", type := .class_ }, { name := b!"C_FIGHTAI.MOVE", type := .int, count := 6, flags := 4, parent := 0 },
   { name := b!"C_OTHER", type := .class_ }, { name := b!"C_OTHER.X", type := .float, count := 1, flags := 4, parent := 2 }]

theorem fight_fresh : Fresh fightScript := by
  intro s hs
  simp only [fightScript, List.mem_cons, List.not_mem_nil, or_false] at hs
  rcases hs with rfl | rfl | rfl | rfl <;> rfl

set_option maxRecDepth 100000 in
theorem fight_classes : (List.range 21).all (fun i => (scriptClasses[i]?.map fun c => present fightScript c.symbol) == some (i == 18)) = true := by
  decide +kernel

/-- The script declares what is needed. -/
theorem fight_declared : WellDeclared fightScript := by
  intro i c r ha
  obtain ⟨hc, hs, hr, -⟩ := ha
  have hi := (List.getElem?_eq_some_iff.mp hc).1
  have hi : i < 21 := hi
  have h := List.all_eq_true.mp fight_classes i (List.mem_range.mpr hi)
  rw [hc] at h
  have hs : present fightScript c.symbol = true := hs
  rw [Option.map_some, hs] at h
  have hi18 : i = 18 := by simpa using h
  subst i
  have : c = iFightAi := (Option.some.inj hc).symm
  subst c
  have : r = reg b!"MOVE" b!"move" := by simpa [iFightAi] using hr
  subst r
  exact ⟨1, 0, _, int b!"move" 6, by decide +kernel, by decide +kernel, by simp [iFightAi], rfl, rfl, rfl, rfl, by decide, Or.inl rfl⟩

example : ∃ c r, Asked fightScript 18 c r := ⟨iFightAi, reg b!"MOVE" b!"move", rfl, by decide +kernel, by simp [iFightAi], by simp [reg]⟩

/-- Registering succeeds, and the member is bound. -/
example (place : Nat → Nat → Nat) : (registerAll place fightScript).1 = .ok () :=
  c92_success fight_fresh fight_declared place

/-- An object of the class, with the moves 10 to 15 at the offset 16. -/
def fighter : Inst := ⟨some 18, 0, (List.range 6).map fun k => (16 + 4 * k, .int (BitVec.ofNat 32 (10 + k)))⟩

example : ∀ f, Compiled (fun _ _ => 16) 18 iFightAi b!"move" f → HasField fighter f := by
  rintro f ⟨k, d, hk, -, rfl⟩
  have h0 : k = 0 := by
    have := (List.getElem?_eq_some_iff.mp hk).1
    have h1 : iFightAi.fields.length = 1 := rfl
    omega
  subst k
  cases hk
  refine ⟨by decide, fun k hk => ?_⟩
  have hk : k < 6 := hk
  have : k = 0 ∨ k = 1 ∨ k = 2 ∨ k = 3 ∨ k = 4 ∨ k = 5 := by omega
  rcases this with rfl | rfl | rfl | rfl | rfl | rfl <;> exact ⟨_, rfl, rfl⟩

end Verif.Props
