import Verif.Lemmas.DaedalusMember
import Verif.Props.DaedalusStore

/-!
# Members of script classes and fields of C++ classes (C91)
-/

namespace Verif.Props

open Verif.Daedalus Verif.Spec.Daedalus

/-- **C91** (partial): whatever is registered with a loaded script, in any order and whether the calls fail or not: a script class
is bound to the first C++ class a member of it was registered with, a member to the last field that was registered for it and
fits, and nothing else changes. Missing: scripts in which the class of a member is a member itself, for which the claim is
false. -/
theorem c91_history_partial {syms : List Sym} (hf : Fresh syms) (hp : PlainParents syms) (calls : List (Bytes × Field)) :
    registrations calls syms = syms.mapIdx (Spec.Daedalus.bind (Binding.all syms {} calls)) := by
  have := registrations_bind hp calls {}
  rwa [fresh_bind hf] at this

/-- **C91**: a call succeeds exactly if there is a member with the name, it has no more elements than the field and the same type,
and its script class is not bound to another C++ class. -/
theorem c91_accepts_partial {syms : List Sym} (hp : PlainParents syms) (b : Binding) (name : Bytes) (f : Field) :
    (registerMember (syms.mapIdx (Spec.Daedalus.bind b)) name f).1 = .ok () ↔
      ∃ y s, findByName syms name = some y ∧ syms[y]? = some s ∧ s.isMember = true ∧ s.count.toNat ≤ f.elems ∧
        s.parent.toNat < syms.length ∧ holdsKind (fieldKind f) s.type = true ∧
        (b.classes s.parent.toNat = none ∨ b.classes s.parent.toNat = some f.cls) := 
  accepts_iff hp b name f

/-- A symbol of the table after a history, together with what it is bound to. -/
theorem bound_at {syms : List Sym} (hf : Fresh syms) (hp : PlainParents syms) (calls : List (Bytes × Field)) {y : Nat} {s : Sym}
    (hs : (registrations calls syms)[y]? = some s) (hm : s.isMember = true) :
    (s.registeredTo = none ∧ (Binding.all syms {} calls).fields y = none) ∨
    ∃ name f, (name, f) ∈ calls ∧ (Binding.all syms {} calls).fields y = some f ∧ findByName syms name = some y ∧
      s.registeredTo = some f.cls ∧ s.memberOffset = BitVec.ofNat 32 f.addr ∧ s.count.toNat ≤ f.elems ∧
      holdsKind (fieldKind f) s.type = true ∧ (Binding.all syms {} calls).classes s.parent.toNat = some f.cls := by
  rw [c91_history_partial hf hp, mapIdx_get] at hs
  cases hx : syms[y]? with
  | none => rw [hx] at hs; cases hs
  | some x =>
    rw [hx] at hs
    cases hs
    rw [bind_member] at hm
    cases hb : (Binding.all syms {} calls).fields y with
    | none =>
      left
      refine ⟨?_, rfl⟩
      unfold Spec.Daedalus.bind
      rw [hm, hb]
      exact hf x (List.mem_of_getElem? hx)
    | some f =>
      right
      obtain ⟨name, hn, hy, z, hz, -, hc, hk, hcl⟩ := (sound_all syms calls).field y f hb
      rw [hx] at hz
      cases hz
      rw [bind_count, bind_type, bind_parent]
      refine ⟨name, f, hn, rfl, hy, ?_, ?_, hc, hk, hcl⟩ <;>
      · unfold Spec.Daedalus.bind
        rw [hm, hb]
        rfl

/-- **C91** (partial): after any such history a script that reads an element of a member of an object gets the element of the field
the member is bound to, in the same place of the array. Missing: elements of `float` members behind the 255th (see **C37**). -/
theorem c91_read_partial {syms : List Sym} (hf : Fresh syms) (hp : PlainParents syms) (calls : List (Bytes × Field)) {v : Vm}
    (hv : v.syms = registrations calls syms) {y k : Nat} {s : Sym} {f : Field} {p : Option Nat} {n : Inst}
    (hs : v.syms[y]? = some s) (hm : s.isMember = true) (hb : (Binding.all syms {} calls).fields y = some f)
    (hn : instAt v p = some n) (ht : n.type = some f.cls) (hh : HasField n f) (hk : k < s.count.toNat)
    (h256 : fieldKind f = .float → k < 256) :
    ∃ c, readVar (fieldKind f) y k p v = (.ok c, v) ∧ cellAt n.cells (fieldAt f k) = some c := by
  rw [hv] at hs
  obtain ⟨-, h⟩ | ⟨name, g, -, hg, -, hr, ho, hc, hkd, -⟩ := bound_at hf hp calls hs hm
  · rw [h] at hb; cases hb
  rw [hg] at hb; cases hb
  obtain ⟨c, h1, h2⟩ := read_field hm ho hr ht hkd hc hh hk h256
  refine ⟨c, ?_, h2⟩
  rw [readVar_fst _ _ _ _ _ (by rw [hv]; exact hs), hn, h1]

/-- **C91**: writing an element of a member puts the value into that element of the field, and changes nothing else. -/
theorem c91_write_partial {syms : List Sym} (hf : Fresh syms) (hp : PlainParents syms) (calls : List (Bytes × Field)) {v : Vm}
    (hv : v.syms = registrations calls syms) {y k : Nat} {s : Sym} {f : Field} {a : Nat} {n : Inst} {c : Cell}
    (hs : v.syms[y]? = some s) (hm : s.isMember = true) (hb : (Binding.all syms {} calls).fields y = some f)
    (hn : v.heap[a]? = some n) (ht : n.type = some f.cls) (hh : HasField n f) (hk : k < s.count.toNat)
    (hc : kindOf c = fieldKind f) :
    writeVar c y k (some a) v =
      (.ok (), { v with heap := v.heap.set a { n with cells := setCell n.cells (fieldAt f k) c } }) := by
  have hs' := hs
  rw [hv] at hs
  obtain ⟨-, h⟩ | ⟨name, g, -, hg, -, hr, ho, hcn, hkd, -⟩ := bound_at hf hp calls hs hm
  · rw [h] at hb; cases hb
  rw [hg] at hb; cases hb
  have hw := write_field (c := c) hm ho hr ht hkd hc hcn hh hk
  have hi : instAt v (some a) = some n := hn
  rw [writeVar_eq, hs']
  dsimp only
  rw [hi, hw]
  show (Except.ok (), { v with syms := v.syms.set y s, heap := v.heap.set a _ }) = _
  have : v.syms.set y s = v.syms := by
    apply List.ext_getElem?
    intro i
    rw [List.getElem?_set]
    split
    · rename_i e
      subst e
      rw [if_pos (List.getElem?_eq_some_iff.mp hs').1, hs']
    · rfl
  rw [this]

/-- **C91**: after any history, reading any element of any member of an object that has the fields of its class is defined: it
gives a value or raises. -/
theorem c91_defined_partial {syms : List Sym} (hf : Fresh syms) (hp : PlainParents syms) (calls : List (Bytes × Field)) {v : Vm}
    (hv : v.syms = registrations calls syms) {y k : Nat} {s : Sym} {p : Option Nat} {n : Inst} {t : Nat} (kd : VKind)
    (hs : v.syms[y]? = some s) (hm : s.isMember = true) (hn : instAt v p = some n) (ht : n.type = some t)
    (hh : ∀ name f, (name, f) ∈ calls → f.cls = t → HasField n f) :
    (readVar kd y k p v).1 ≠ .error .ub := by
  rw [readVar_fst _ _ _ _ _ hs]
  rw [hv] at hs
  dsimp only
  rw [hn]
  unfold Sym.read
  split
  · intro h; cases h
  rename_i hkd
  split
  · intro h; cases h
  rename_i hk
  obtain ⟨hr, -⟩ | ⟨name, f, hmem, hg, -, hr, ho, hc, hkf, -⟩ := bound_at hf hp calls hs hm
  · unfold readMember Sym.memberOff
    dsimp only
    rw [hr]
    intro h; cases h
  · by_cases hcls : f.cls = t
    · have he : kd = fieldKind f := kind_unique (by simpa using hkd) hkf
      subst he
      have hlt : getterIndex (fieldKind f) k < s.count.toNat := by
        unfold getterIndex
        split
        · exact Nat.lt_of_le_of_lt (Nat.mod_le _ _) (by omega)
        · omega
      have h256 : fieldKind f = .float → getterIndex (fieldKind f) k < 256 := by
        intro h
        unfold getterIndex
        rw [if_pos h]
        exact Nat.mod_lt _ (by omega)
      obtain ⟨c, h1, -⟩ := read_field hm ho hr (by rw [ht, hcls]) hkf hc (hh name f hmem hcls) hlt h256
      unfold Sym.read at h1
      rw [if_neg (by simp [hkf]), if_neg (by omega), if_pos hm, getterIndex_eq h256] at h1
      rw [h1]
      intro h; cases h
    · unfold readMember Sym.memberOff
      dsimp only
      rw [hr, ht]
      dsimp only
      rw [if_pos hcls]
      intro h; cases h

/-- **C91**: so is writing. -/
theorem c91_defined_write_partial {syms : List Sym} (hf : Fresh syms) (hp : PlainParents syms) (calls : List (Bytes × Field)) {v : Vm}
    (hv : v.syms = registrations calls syms) {y k : Nat} {s : Sym} {p : Option Nat} {n : Inst} {t : Nat} (c : Cell)
    (hs : v.syms[y]? = some s) (hm : s.isMember = true) (hn : instAt v p = some n) (ht : n.type = some t)
    (hh : ∀ name f, (name, f) ∈ calls → f.cls = t → HasField n f) :
    (writeVar c y k p v).1 ≠ .error .ub := by
  rw [writeVar_eq, hs]
  rw [hv] at hs
  dsimp only
  rw [hn]
  unfold Sym.write
  split
  · rename_i h'
    split at h'
    · cases h'
    split at h'
    · cases h'
    intro h; cases h
  · rename_i e h'
    split at h'
    · cases h'; intro h; cases h
    rename_i hkd
    split at h'
    · cases h'; intro h; cases h
    rename_i hk
    obtain ⟨hr, -⟩ | ⟨name, f, hmem, hg, -, hr, ho, hc, hkf, -⟩ := bound_at hf hp calls hs hm
    · unfold writeMember Sym.memberOff at h'
      dsimp only at h'
      rw [hr] at h'
      cases h'
      intro h; cases h
    · by_cases hcls : f.cls = t
      · have he : kindOf c = fieldKind f := kind_unique (by simpa using hkd) hkf
        have h1 := write_field hm ho hr (by rw [ht, hcls]) hkf he hc (hh name f hmem hcls) (k := k) (by omega)
        unfold Sym.write at h1
        rw [if_neg (by simpa using hkd), if_neg hk, if_pos hm] at h1
        rw [h1] at h'
        cases h'
      · unfold writeMember Sym.memberOff at h'
        dsimp only at h'
        rw [hr, ht] at h'
        dsimp only at h'
        rw [if_pos hcls] at h'
        cases h'
        intro h; cases h

/-- Fields that share no byte. -/
def Apart (f g : Field) : Prop :=
  f.addr + f.elems * kindSize (fieldKind f) ≤ g.addr ∨ g.addr + g.elems * kindSize (fieldKind g) ≤ f.addr

/-- **C91**: a value written to a member does not show up in members that are bound to other fields. -/
theorem c91_apart_partial {syms : List Sym} (hf : Fresh syms) (hp : PlainParents syms) (calls : List (Bytes × Field)) {v w : Vm}
    (hv : v.syms = registrations calls syms) {y z k j : Nat} {s r : Sym} {f g : Field} {p q : Option Nat} {n : Inst} {c : Cell}
    (hs : v.syms[y]? = some s) (hm : s.isMember = true) (hb : (Binding.all syms {} calls).fields y = some f)
    (hr : v.syms[z]? = some r) (hrm : r.isMember = true) (hbr : (Binding.all syms {} calls).fields z = some g)
    (hfn : HasField n f) (hgn : HasField n g) (hyz : z ≠ y) (hap : Apart f g) (hj : j < r.count.toNat)
    (h : writeVar c y k p v = (.ok (), w)) :
    (readVar (fieldKind g) z j q w).1 = (readVar (fieldKind g) z j q v).1 := by
  refine c37_other_symbol h hyz (fieldKind g) ?_
  intro s' r' hs' hr' _ _ _
  rw [hs] at hs'; cases hs'
  rw [hr] at hr'; cases hr'
  obtain ⟨s1, s2, n2, h1, hw, -⟩ := writeVar_inv h
  rw [hs] at h1; cases h1
  obtain ⟨hkc, hk, -⟩ := write_inv hw
  rw [hv] at hs hr
  obtain ⟨-, h'⟩ | ⟨-, f', -, hf', -, -, ho, hc, hkf, -⟩ := bound_at hf hp calls hs hm
  · rw [h'] at hb; cases hb
  rw [hf'] at hb; cases hb
  obtain ⟨-, h'⟩ | ⟨-, g', -, hg', -, -, ho', hc', hkg, -⟩ := bound_at hf hp calls hr hrm
  · rw [h'] at hbr; cases hbr
  rw [hg'] at hbr; cases hbr
  have he : kindOf c = fieldKind f := kind_unique hkc hkf
  rw [he]
  unfold elementAt
  rw [ho, ho', ← BitVec.ofNat_add, ← BitVec.ofNat_add]
  intro e
  have e := congrArg BitVec.toNat e
  rw [BitVec.toNat_ofNat, BitVec.toNat_ofNat] at e
  have h1 := hfn.1
  have h2 := hgn.1
  have hj' : (if fieldKind g = .float then j % 256 else j) < g.elems := by
    split
    · exact Nat.lt_of_le_of_lt (Nat.mod_le _ _) (by omega)
    · omega
  generalize (if fieldKind g = .float then j % 256 else j) = j' at e hj'
  have hszf : 1 ≤ kindSize (fieldKind f) := by cases fieldKind f <;> decide
  have hszg : 1 ≤ kindSize (fieldKind g) := by cases fieldKind g <;> decide
  have l1 : (k + 1) * kindSize (fieldKind f) ≤ f.elems * kindSize (fieldKind f) := Nat.mul_le_mul_right _ (by omega)
  have l2 : (j' + 1) * kindSize (fieldKind g) ≤ g.elems * kindSize (fieldKind g) := Nat.mul_le_mul_right _ (by omega)
  rw [Nat.succ_mul] at l1 l2
  rw [Nat.mod_eq_of_lt (by omega), Nat.mod_eq_of_lt (by omega)] at e
  unfold Apart at hap
  omega

/-- **C91**: all members of one script class are bound to the same C++ class. -/
theorem c91_one_class_partial {syms : List Sym} (hf : Fresh syms) (hp : PlainParents syms) (calls : List (Bytes × Field)) {y z : Nat}
    {s r : Sym} (hs : (registrations calls syms)[y]? = some s) (hr : (registrations calls syms)[z]? = some r)
    (hm : s.isMember = true) (hrm : r.isMember = true) (hpar : s.parent = r.parent) {t u : Nat} (ht : s.registeredTo = some t)
    (hu : r.registeredTo = some u) : t = u := by
  obtain ⟨h, -⟩ | ⟨-, f, -, -, -, h1, -, -, -, c1⟩ := bound_at hf hp calls hs hm
  · rw [ht] at h; cases h
  obtain ⟨h, -⟩ | ⟨-, g, -, -, -, h2, -, -, -, c2⟩ := bound_at hf hp calls hr hrm
  · rw [hu] at h; cases h
  rw [ht] at h1; cases h1
  rw [hu] at h2; cases h2
  rw [hpar, c2] at c1
  exact (Option.some.inj c1).symm

/-! ## A script class with two members -/

/-- `class C { var int A[2]; var string B; }`. -/
def pairScript : List Sym :=
  [{ name := b!"C", type := .class_ }, { name := b!"C.A", type := .int, count := 2, flags := 4, parent := 0 },
   { name := b!"C.B", type := .string, count := 1, flags := 4, parent := 0 }]

/-- `struct C : DaedalusInstance { int32_t a[3]; std::string b; }`: 32 bytes belong to `DaedalusInstance`. -/
def pairA : Field := ⟨7, .int, 3, 32⟩
def pairB : Field := ⟨7, .string, 1, 48⟩

/-- An object of the class. -/
def pairObject : Inst :=
  ⟨some 7, 0, [(32, .int 1), (36, .int 2), (40, .int 3), (48, .str b!"x")]⟩

def pairCalls : List (Bytes × Field) := [(b!"C.A", pairA), (b!"C.X", pairA), (b!"c.b", pairA), (b!"c.b", pairB)]

example : Fresh pairScript ∧ PlainParents pairScript := by
  constructor
  · intro s hs
    simp only [pairScript, List.mem_cons, List.not_mem_nil, or_false] at hs
    rcases hs with rfl | rfl | rfl <;> rfl
  · intro s hs h p hp
    simp only [pairScript, List.mem_cons, List.not_mem_nil, or_false] at hs
    rcases hs with rfl | rfl | rfl
    · cases h
    · cases hp; rfl
    · cases hp; rfl

example : (Binding.all pairScript {} pairCalls).fields 1 = some pairA ∧
    (Binding.all pairScript {} pairCalls).fields 2 = some pairB ∧ Apart pairA pairB := by
  refine ⟨by decide +kernel, by decide +kernel, Or.inl (by decide)⟩

example : HasField pairObject pairA ∧ HasField pairObject pairB := by
  constructor
  · refine ⟨by decide, fun k hk => ?_⟩
    have hk : k < 3 := hk
    match k, hk with
    | 0, _ => exact ⟨_, rfl, rfl⟩
    | 1, _ => exact ⟨_, rfl, rfl⟩
    | 2, _ => exact ⟨_, rfl, rfl⟩
  · refine ⟨by decide, fun k hk => ?_⟩
    have hk : k < 1 := hk
    match k, hk with
    | 0, _ => exact ⟨_, rfl, rfl⟩

/-- The script reads `a[1]` and `b`, and a third element it did not declare is out of its reach. -/
example : (registrations pairCalls pairScript)[1]?.map (fun s => s.getInt 1 (some pairObject)) = some (.ok 2) ∧
    (registrations pairCalls pairScript)[2]?.map (fun s => s.getString 0 (some pairObject)) = some (.ok b!"x") ∧
    (registrations pairCalls pairScript)[1]?.map (fun s => s.getInt 2 (some pairObject)) =
      some (.error (.throw .daedalusIndex)) := by decide +kernel

/-! ## Where the claims are false -/

/-- A call that fails because of the type binds the script class all the same: the right C++ class is turned away afterwards. -/
theorem c91_failed_call_violation :
    ∃ syms name f g, (registerMember syms name f).1 = .error (.throw .daedalusMember) ∧ (registerMember syms name f).2 ≠ syms ∧
      (registerMember syms name g).1 = .ok () ∧
      (registerMember (registerMember syms name f).2 name g).1 = .error (.throw .daedalusMember) :=
  ⟨pairScript, b!"C.A", ⟨8, .float, 3, 32⟩, pairA, by decide +kernel, by decide +kernel, by decide +kernel, by decide +kernel⟩

/-- A script in which a member belongs to another member: registering the one makes the other readable, at an offset that was never
set. -/
theorem c91_member_parent_violation :
    ∃ (syms : List Sym) (calls : List (Bytes × Field)) (y : Nat) (n : Inst), Fresh syms ∧
      (∀ name f, (name, f) ∈ calls → HasField n f) ∧
      ((registrations calls syms)[y]?.map fun s => s.getInt 0 (some n)) = some (.error .ub) := by
  refine ⟨[{ name := b!"C", type := .int, count := 1, flags := 4 }, { name := b!"C.A", type := .int, count := 1, flags := 4, parent := 0 }],
    [(b!"C.A", ⟨7, .int, 1, 32⟩)], 0, ⟨some 7, 0, [(32, .int 1)]⟩, ?_, ?_, by decide +kernel⟩
  · intro s hs
    simp only [List.mem_cons, List.not_mem_nil, or_false] at hs
    rcases hs with rfl | rfl <;> rfl
  · intro name f h
    simp only [List.mem_singleton] at h
    cases h
    refine ⟨by decide, fun k hk => ?_⟩
    have hk : k < 1 := hk
    match k, hk with
    | 0, _ => exact ⟨_, rfl, rfl⟩

/-- `struct C : Other, DaedalusInstance { int32_t a; int32_t pad[3]; int32_t b; }` with 16 bytes in `Other`: the registered address
counts from the start of the object, `data()` from its `DaedalusInstance`. A script that reads `a` gets `b`. -/
theorem c91_second_base_violation :
    ∃ (a : Field) (base : Nat) (n : Inst), cellAt n.cells (a.addr - base) = some (.int 1) ∧
      ((registerMember pairScript b!"C.A" a).2[1]?.map fun s => s.getInt 0 (some n)) = some (.ok 5) :=
  ⟨⟨7, .int, 2, 48⟩, 16, ⟨some 7, 0, [(32, .int 1), (36, .int 2), (40, .int 3), (44, .int 4), (48, .int 5)]⟩,
    by decide +kernel, by decide +kernel⟩

end Verif.Props
