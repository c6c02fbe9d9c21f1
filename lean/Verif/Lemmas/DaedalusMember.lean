import Verif.Lemmas.DaedalusStore
import Verif.Spec.DaedalusMember

/-!
# Registering fields
-/

namespace Verif.Daedalus

open Verif.Spec.Daedalus

theorem matches_iff (f : Field) (d : DType) : f.type.matches d = holdsKind (fieldKind f) d := by
  unfold FieldType.matches fieldKind
  cases f.type <;> rfl

theorem lastIndex_map (p : Sym → Bool) (g : Nat → Sym → Sym) (hp : ∀ i s, p (g i s) = p s) (syms : List Sym) :
    lastIndex p (syms.mapIdx g) = lastIndex p syms := by
  induction syms generalizing g with
  | nil => rfl
  | cons s rest ih =>
    rw [List.mapIdx_cons]
    unfold lastIndex
    rw [ih (fun i => g (i + 1)) (fun i s => hp _ _), hp]

theorem bind_name (b : Binding) (i : Nat) (s : Sym) : (bind b i s).name = s.name := by
  unfold Spec.Daedalus.bind
  split
  · split <;> rfl
  · rfl

theorem bind_member (b : Binding) (i : Nat) (s : Sym) : (bind b i s).isMember = s.isMember := by
  unfold Spec.Daedalus.bind
  split
  · split <;> rfl
  · rfl

theorem bind_count (b : Binding) (i : Nat) (s : Sym) : (bind b i s).count = s.count := by
  unfold Spec.Daedalus.bind
  split
  · split <;> rfl
  · rfl

theorem bind_parent (b : Binding) (i : Nat) (s : Sym) : (bind b i s).parent = s.parent := by
  unfold Spec.Daedalus.bind
  split
  · split <;> rfl
  · rfl

theorem bind_type (b : Binding) (i : Nat) (s : Sym) : (bind b i s).type = s.type := by
  unfold Spec.Daedalus.bind
  split
  · split <;> rfl
  · rfl

theorem bind_class (b : Binding) (i : Nat) {s : Sym} (h : s.isMember = false) : (bind b i s).registeredTo = b.classes i := by
  unfold Spec.Daedalus.bind; rw [h]; rfl

theorem findByName_bind (b : Binding) (syms : List Sym) (name : Bytes) :
    findByName (syms.mapIdx (bind b)) name = findByName syms name :=
  lastIndex_map _ _ (fun i s => by rw [bind_name]) syms

theorem mapIdx_get (b : Binding) (syms : List Sym) (i : Nat) : (syms.mapIdx (bind b))[i]? = (syms[i]?).map (bind b i) := by
  rw [List.getElem?_mapIdx]

/-- A call does what the specification says. -/
theorem registerMember_bind {syms : List Sym} (hp : PlainParents syms) (b : Binding) (name : Bytes) (f : Field) :
    (registerMember (syms.mapIdx (bind b)) name f).2 = syms.mapIdx (bind (b.register syms name f)) := by
  unfold registerMember checkMember Binding.register declared
  rw [findByName_bind]
  cases hy : findByName syms name with
  | none => rfl
  | some y =>
    dsimp only
    rw [mapIdx_get]
    cases hs : syms[y]? with
    | none => rfl
    | some s =>
      dsimp only [Option.map_some]
      rw [bind_member, bind_count, bind_parent, bind_type, matches_iff]
      cases hm : s.isMember with
      | false => simp
      | true =>
        by_cases hc : f.elems < s.count.toNat
        · simp only [Bool.not_true, Bool.false_eq_true, if_false, if_pos hc]
          rw [if_neg (by omega)]
        · simp only [Bool.not_true, Bool.false_eq_true, if_false, if_neg hc]
          rw [mapIdx_get]
          cases hq : syms[s.parent.toNat]? with
          | none =>
            have hno : ¬ (True ∧ s.count.toNat ≤ f.elems ∧ s.parent.toNat < syms.length) := by
              rw [List.getElem?_eq_none_iff] at hq
              omega
            rw [if_neg hno]
            rfl
          | some p =>
            have hlt := (List.getElem?_eq_some_iff.mp hq).1
            have hpm := hp s (List.mem_of_getElem? hs) hm p hq
            dsimp only [Option.map_some]
            have hyes : True ∧ s.count.toNat ≤ f.elems ∧ s.parent.toNat < syms.length := ⟨trivial, by omega, hlt⟩
            rw [if_pos hyes]
            dsimp only
            rw [bind_class b _ hpm]
            by_cases hcls : b.classes s.parent.toNat = none ∨ b.classes s.parent.toNat = some f.cls
            · rw [if_neg (by rintro ⟨h1, h2⟩; rcases hcls with h | h <;> contradiction), if_pos hcls]
              have hft : fitsType syms f y = holdsKind (fieldKind f) s.type := by unfold fitsType; rw [hs]
              have key : ∀ i : Nat, ∀ x, syms[i]? = some x → x.isMember = true → i ≠ s.parent.toNat := by
                rintro i x hx hxm rfl
                rw [hq] at hx; cases hx
                rw [hpm] at hxm; cases hxm
              cases hk : holdsKind (fieldKind f) s.type with
              | false =>
                simp only [Bool.false_eq_true, if_false]
                apply List.ext_getElem?
                intro i
                rw [List.getElem?_modify, mapIdx_get, mapIdx_get]
                cases hx : syms[i]? with
                | none => rfl
                | some x =>
                  rw [hft, hk]
                  simp only [Option.map_some, Option.map_eq_map, Bool.false_eq_true, and_false, if_false]
                  cases hxm : x.isMember with
                  | true =>
                    have := key i x hx hxm
                    unfold Spec.Daedalus.bind
                    rw [if_neg (Ne.symm this)]
                    simp [hxm]
                  | false =>
                    unfold Spec.Daedalus.bind
                    by_cases hi : s.parent.toNat = i
                    · subst i; simp [hxm]
                    · rw [if_neg hi]; simp [hxm, Ne.symm hi]
              | true =>
                simp only [if_true]
                apply List.ext_getElem?
                intro i
                rw [List.getElem?_modify, List.getElem?_modify, mapIdx_get, mapIdx_get]
                cases hx : syms[i]? with
                | none => rfl
                | some x =>
                  rw [hft, hk]
                  simp only [Option.map_some, Option.map_eq_map, and_true]
                  cases hxm : x.isMember with
                  | true =>
                    have := key i x hx hxm
                    unfold Spec.Daedalus.bind
                    rw [if_neg (Ne.symm this)]
                    by_cases hi : y = i
                    · subst i
                      simp only [hxm, if_true]
                      split <;> rfl
                    · rw [if_neg hi]; simp [hxm, Ne.symm hi]
                  | false =>
                    have hi : y ≠ i := by
                      rintro rfl
                      rw [hs] at hx; cases hx
                      rw [hm] at hxm; cases hxm
                    rw [if_neg hi]
                    unfold Spec.Daedalus.bind
                    by_cases hi : s.parent.toNat = i
                    · subst i; simp [hxm]
                    · rw [if_neg hi]; simp [hxm, Ne.symm hi]
            · rw [if_pos (by constructor <;> intro h <;> exact hcls (by simp [h])), if_neg hcls]

/-- When a call succeeds. -/
theorem accepts_iff {syms : List Sym} (hp : PlainParents syms) (b : Binding) (name : Bytes) (f : Field) :
    (registerMember (syms.mapIdx (bind b)) name f).1 = .ok () ↔
      ∃ y s, findByName syms name = some y ∧ syms[y]? = some s ∧ s.isMember = true ∧ s.count.toNat ≤ f.elems ∧
        s.parent.toNat < syms.length ∧ holdsKind (fieldKind f) s.type = true ∧
        (b.classes s.parent.toNat = none ∨ b.classes s.parent.toNat = some f.cls) := by
  unfold registerMember checkMember
  rw [findByName_bind]
  cases hy : findByName syms name with
  | none => simp
  | some y =>
    dsimp only
    rw [mapIdx_get]
    cases hs : syms[y]? with
    | none =>
      simp only [Option.map_none]
      constructor
      · intro h; cases h
      · rintro ⟨y', s, h, hs', -⟩
        cases h
        rw [hs] at hs'; cases hs'
    | some s =>
      have inv : (∃ y_1 s_1, some y = some y_1 ∧ syms[y_1]? = some s_1 ∧ s_1.isMember = true ∧ s_1.count.toNat ≤ f.elems ∧
          s_1.parent.toNat < syms.length ∧ holdsKind (fieldKind f) s_1.type = true ∧
          (b.classes s_1.parent.toNat = none ∨ b.classes s_1.parent.toNat = some f.cls)) ↔
          (s.isMember = true ∧ s.count.toNat ≤ f.elems ∧ s.parent.toNat < syms.length ∧ holdsKind (fieldKind f) s.type = true ∧
          (b.classes s.parent.toNat = none ∨ b.classes s.parent.toNat = some f.cls)) := by
        constructor
        · rintro ⟨y', s', h, hs', r⟩
          cases h
          rw [hs] at hs'; cases hs'
          exact r
        · intro r; exact ⟨y, s, rfl, hs, r⟩
      rw [inv]
      dsimp only [Option.map_some]
      rw [bind_member, bind_count, bind_parent, bind_type, matches_iff]
      cases hm : s.isMember with
      | false => simp
      | true =>
        simp only [Bool.not_true, Bool.false_eq_true, if_false]
        by_cases hc : f.elems < s.count.toNat
        · rw [if_pos hc]
          constructor
          · intro h; cases h
          · rintro ⟨-, h, -⟩; omega
        · rw [if_neg hc, mapIdx_get]
          cases hq : syms[s.parent.toNat]? with
          | none =>
            simp only [Option.map_none]
            constructor
            · intro h; cases h
            · rintro ⟨-, -, h, -⟩
              rw [List.getElem?_eq_none_iff] at hq
              omega
          | some p =>
            have hlt := (List.getElem?_eq_some_iff.mp hq).1
            have hpm := hp s (List.mem_of_getElem? hs) hm p hq
            dsimp only [Option.map_some]
            rw [bind_class b _ hpm]
            by_cases hcls : b.classes s.parent.toNat = none ∨ b.classes s.parent.toNat = some f.cls
            · rw [if_neg (by rintro ⟨h1, h2⟩; rcases hcls with h | h <;> contradiction)]
              cases hk : holdsKind (fieldKind f) s.type with
              | false => simp
              | true => simp [hcls, hlt, Nat.le_of_not_lt hc]
            · rw [if_pos (by constructor <;> intro h <;> exact hcls (by simp [h]))]
              constructor
              · intro h; cases h
              · rintro ⟨-, -, -, -, h⟩; exact absurd h hcls

theorem registrations_bind {syms : List Sym} (hp : PlainParents syms) (calls : List (Bytes × Field)) (b : Binding) :
    registrations calls (syms.mapIdx (bind b)) = syms.mapIdx (bind (b.all syms calls)) := by
  induction calls generalizing b with
  | nil => rfl
  | cons c rest ih =>
    obtain ⟨name, f⟩ := c
    unfold registrations Binding.all
    rw [registerMember_bind hp, ih]

theorem fresh_bind {syms : List Sym} (h : Fresh syms) : syms.mapIdx (bind {}) = syms := by
  apply List.ext_getElem?
  intro i
  rw [mapIdx_get]
  cases hx : syms[i]? with
  | none => rfl
  | some x =>
    have := h x (List.mem_of_getElem? hx)
    dsimp only [Option.map_some]
    unfold Spec.Daedalus.bind
    split
    · rfl
    · obtain ⟨⟩ := x
      simp_all

/-- What is bound fits, and belongs to the class its script class is bound to. -/
structure Sound (syms : List Sym) (calls : List (Bytes × Field)) (b : Binding) : Prop where
  field : ∀ y f, b.fields y = some f → ∃ name, (name, f) ∈ calls ∧ findByName syms name = some y ∧
    ∃ s, syms[y]? = some s ∧ s.isMember = true ∧ s.count.toNat ≤ f.elems ∧ holdsKind (fieldKind f) s.type = true ∧
      b.classes s.parent.toNat = some f.cls

theorem Sound.register {syms : List Sym} {calls : List (Bytes × Field)} {b : Binding} (h : Sound syms calls b) (name : Bytes)
    (f : Field) : Sound syms (calls ++ [(name, f)]) (b.register syms name f) := by
  have weak : ∀ b' : Binding, b'.fields = b.fields → b'.classes = b.classes → Sound syms (calls ++ [(name, f)]) b' := by
    intro b' e1 e2
    refine ⟨fun y g hg => ?_⟩
    rw [e1] at hg
    obtain ⟨n, hn, r⟩ := h.field y g hg
    rw [e2]
    exact ⟨n, List.mem_append_left _ hn, r⟩
  unfold Binding.register
  split
  · exact weak _ rfl rfl
  · rename_i y q hd
    split
    · rename_i hc
      unfold declared at hd
      split at hd
      · cases hd
      rename_i y' hy
      split at hd
      · cases hd
      rename_i s hs
      split at hd
      · rename_i hcond
        cases hd
        refine ⟨fun z g hg => ?_⟩
        dsimp only at hg ⊢
        split at hg
        · rename_i hz
          cases hg
          obtain ⟨rfl, hf⟩ := hz
          unfold fitsType at hf
          rw [hs] at hf
          exact ⟨name, by simp, hy, s, hs, hcond.1, hcond.2.1, hf, by simp⟩
        · obtain ⟨n, hn, hy', s', hs', hm', hc', hk', hcl⟩ := h.field z g hg
          refine ⟨n, List.mem_append_left _ hn, hy', s', hs', hm', hc', hk', ?_⟩
          split
          · rename_i hq
            rw [hq] at hcl
            rw [hcl] at hc
            simp at hc
            rw [hc]
          · exact hcl
      · cases hd
    · exact weak _ rfl rfl

theorem Sound.all {syms : List Sym} {calls : List (Bytes × Field)} {b : Binding} (h : Sound syms calls b)
    (rest : List (Bytes × Field)) : Sound syms (calls ++ rest) (b.all syms rest) := by
  induction rest generalizing calls b with
  | nil => rw [List.append_nil]; exact h
  | cons c rest ih =>
    obtain ⟨name, f⟩ := c
    have := ih (h.register name f)
    rw [List.append_assoc] at this
    exact this

theorem sound_all (syms : List Sym) (calls : List (Bytes × Field)) : Sound syms calls (Binding.all syms {} calls) :=
  Sound.all (calls := []) ⟨fun _ _ h => by cases h⟩ calls

/-- Reading and writing an element of a bound member. -/
theorem read_field {s : Sym} {f : Field} {n : Inst} {k : Nat} (hm : s.isMember = true) (ho : s.memberOffset = BitVec.ofNat 32 f.addr)
    (hr : s.registeredTo = some f.cls) (hn : n.type = some f.cls) (hk : holdsKind (fieldKind f) s.type = true)
    (hc : s.count.toNat ≤ f.elems) (hf : HasField n f) (hi : k < s.count.toNat) (h256 : fieldKind f = .float → k < 256) :
    ∃ c, s.read (fieldKind f) k (some n) = .ok c ∧ cellAt n.cells (fieldAt f k) = some c := by
  obtain ⟨hb, hcells⟩ := hf
  obtain ⟨c, hcell, hkc⟩ := hcells k (by omega)
  have hsz : 1 ≤ kindSize (fieldKind f) := by cases fieldKind f <;> decide
  have hle : (k + 1) * kindSize (fieldKind f) ≤ f.elems * kindSize (fieldKind f) := Nat.mul_le_mul_right _ (by omega)
  rw [Nat.succ_mul] at hle
  have hoff : s.memberOff k (kindSize (fieldKind f)) n = .ok (fieldAt f k) := by
    unfold Sym.memberOff fieldAt
    rw [hr, hn, ho]
    simp only [ne_eq, not_true, if_false]
    congr 1
    rw [← BitVec.ofNat_add, BitVec.toNat_ofNat, Nat.mod_eq_of_lt (by omega)]
  refine ⟨c, ?_, hcell⟩
  unfold Sym.read
  rw [if_neg (by simp [hk]), if_neg (by omega), if_pos hm, getterIndex_eq h256]
  unfold readMember
  dsimp only
  rw [hoff]
  dsimp only
  rw [hcell]
  dsimp only
  rw [if_pos hkc]

theorem write_field {s : Sym} {f : Field} {n : Inst} {k : Nat} {c : Cell} (hm : s.isMember = true)
    (ho : s.memberOffset = BitVec.ofNat 32 f.addr) (hr : s.registeredTo = some f.cls) (hn : n.type = some f.cls)
    (hk : holdsKind (fieldKind f) s.type = true) (hkc : kindOf c = fieldKind f)
    (hc : s.count.toNat ≤ f.elems) (hf : HasField n f) (hi : k < s.count.toNat) :
    s.write c k (some n) = .ok (s, some { n with cells := setCell n.cells (fieldAt f k) c }) := by
  obtain ⟨hb, hcells⟩ := hf
  obtain ⟨d, hcell, hkd⟩ := hcells k (by omega)
  have hsz : 1 ≤ kindSize (fieldKind f) := by cases fieldKind f <;> decide
  have hle : (k + 1) * kindSize (fieldKind f) ≤ f.elems * kindSize (fieldKind f) := Nat.mul_le_mul_right _ (by omega)
  rw [Nat.succ_mul] at hle
  have hoff : s.memberOff k (kindSize (fieldKind f)) n = .ok (fieldAt f k) := by
    unfold Sym.memberOff fieldAt
    rw [hr, hn, ho]
    simp only [ne_eq, not_true, if_false]
    congr 1
    rw [← BitVec.ofNat_add, BitVec.toNat_ofNat, Nat.mod_eq_of_lt (by omega)]
  unfold Sym.write
  rw [hkc, if_neg (by simp [hk]), if_neg (by omega), if_pos hm]
  unfold writeMember
  dsimp only
  rw [hkc, hoff]
  dsimp only
  rw [hcell]
  dsimp only
  rw [if_pos hkd]

end Verif.Daedalus
