import Verif.Lemmas.DaedalusString

/-!
# Temporary strings (C36)
-/

namespace Verif.Props

open Verif.Daedalus Verif.Spec.Daedalus

/-- A machine as its constructor leaves it: nothing on the stack, one temporary string, which is free. -/
structure FreshStrings (v : Vm) (t : Sym) : Prop where
  sp : v.sp = 0
  sym : v.syms[v.tmp]? = some t
  type : t.type = .string
  count : t.count = 1
  member : t.isMember = false
  value : ∃ s, t.value = .strs [s]
  free : v.free = [0]

theorem FreshStrings.tmpOk {v : Vm} {t : Sym} (h : FreshStrings v t) : ∃ a, TmpOk v t a [] := by
  obtain ⟨s, hs⟩ := h.value
  refine ⟨[s], h.sym, h.type, h.member, hs, ?_, ?_, ?_, by simp⟩
  · rw [h.count]; rfl
  · rw [h.count]; decide
  · rw [h.count, h.free]
    exact List.Perm.refl _

/-- **C36** (partial): in every history of pushes and pops of strings and numbers with at most 243 strings on the stack at the
same time, every pop gives what was pushed. Missing: more strings, for which the claim is false. -/
theorem c36_history_partial {v : Vm} {t : Sym} (hv : FreshStrings v t) (os : List SOp) {as : List SAns} {st : List SItem}
    (h : sRun 243 [] os = some (as, st)) : ∃ w, sRequests os v = (.ok as, w) := by
  obtain ⟨a, ht⟩ := hv.tmpOk
  obtain ⟨w, _, _, _, _, h, _⟩ := sRun_ok os .nil ht ⟨by rw [hv.sp]; rfl, by simp, by simp⟩ h
  exact ⟨w, h⟩

/-- In the middle of an execution: whatever is below on the stack and whatever temporary strings are in use, a string that was
pushed comes back when it is popped, and the strings in use keep their contents. -/
theorem c36_pair_partial {v : Vm} {t : Sym} {a : List Bytes} {live : List (Nat × Bytes)} (ht : TmpOk v t a live)
    (hn : live.length < 243) {fs : List Frame} (hs : Stk v fs) (hl : fs.length < stackSize) (s : Bytes) :
    ∃ w t' a', (do pushString s; popString : M Bytes) v = (.ok s, w) ∧ Stk w fs ∧ TmpOk w t' a' live := by
  obtain ⟨i, w, t', a', h1, ho, h2, -, h3⟩ := pushString_ok ht hn hs hl s
  have htmp : w.tmp = v.tmp := by obtain ⟨_, ho⟩ := ho; rw [ho]
  rw [← htmp] at h2
  obtain ⟨w', h4, -, -, h5, h6⟩ := popString_tmp (l1 := []) h3 h2
  exact ⟨w', t', a', by rw [M.bind_ok h1]; exact h4, h5, h6⟩

/-- A machine without any script. -/
def blank : Vm where
  syms := [{ type := .string, count := 1, value := .strs [[]], index := 0 }]
  tmp := 0

theorem blank_fresh : FreshStrings blank { type := .string, count := 1, value := .strs [[]], index := 0 } :=
  ⟨rfl, rfl, rfl, rfl, rfl, ⟨[], rfl⟩, rfl⟩

/-- **C36** (negation, for every machine): when 243 strings are in use, a string that is pushed and popped again is lost, and a
string that is in use comes instead. -/
theorem c36_full_violation {v : Vm} {t : Sym} {a : List Bytes} {live : List (Nat × Bytes)} (ht : TmpOk v t a live)
    (hn : live.length = 243) {fs : List Frame} (hs : Stk v fs) (hl : fs.length < stackSize) (s : Bytes) :
    ∃ w i s', (i, s') ∈ live ∧ (do pushString s; popString : M Bytes) v = (.ok s', w) :=
  pushString_wrong ht hn hs hl s

/-- 243 strings, another one, and then a pop. -/
def manyStrings : List SOp := List.replicate 243 (.pushStr b!"a") ++ [.pushStr b!"b", .popStr]

theorem sRun_many (l n : Nat) : ∀ st : List SItem, strings st + n ≤ l → st.length + n ≤ 2048 →
    sRun l st (List.replicate n (.pushStr b!"a")) = some (List.replicate n .done, List.replicate n (.str b!"a") ++ st) := by
  induction n with
  | zero => intro st _ _; rfl
  | succ n ih =>
    intro st h1 h2
    rw [List.replicate_succ, sRun, sStep_pushStr, if_pos ⟨by omega, by omega⟩]
    dsimp only
    rw [ih _ (by simp only [strings]; omega) (by simp only [List.length_cons]; omega)]
    dsimp only
    rw [show List.replicate (n + 1) (SItem.str b!"a") ++ st = List.replicate n (SItem.str b!"a") ++ SItem.str b!"a" :: st by
      rw [List.replicate_succ', List.append_assoc, List.singleton_append]]
    rfl

theorem sRun_append (l : Nat) (os1 os2 : List SOp) : ∀ {st st1 as}, sRun l st os1 = some (as, st1) →
    ∀ {st2 bs}, sRun l st1 os2 = some (bs, st2) → sRun l st (os1 ++ os2) = some (as ++ bs, st2) := by
  induction os1 with
  | nil =>
    intro st st1 as h st2 bs h2
    cases h
    exact h2
  | cons o os ih =>
    intro st st1 as h st2 bs h2
    rw [List.cons_append]
    unfold sRun at h ⊢
    split at h
    · cases h
    · split at h
      · cases h
      · rename_i e'
        cases h
        rw [ih e' h2]
        rfl

theorem strings_many (n : Nat) (s : Bytes) : strings (List.replicate n (.str s) ++ []) = n := by
  induction n with
  | zero => rfl
  | succ n ih => rw [List.replicate_succ, List.cons_append, strings, ih]

theorem length_many (n : Nat) (s : SItem) : (List.replicate n s ++ []).length = n := by
  rw [List.append_nil, List.length_replicate]

/-- **C36** (negation): a history in which a pop does not give what was pushed. There are never more than 244 of the 2048 values
the stack can hold. -/
theorem c36_violation :
    ∃ v t os as st w bs, FreshStrings v t ∧ sRun 2048 [] os = some (as, st) ∧ sRequests os v = (.ok bs, w) ∧ bs ≠ as := by
  have hm := sRun_many 2048 243 [] (by simp [strings]) (by simp)
  have hr : sRun 2048 [] manyStrings = some (List.replicate 243 .done ++ [.done, .str b!"b"], List.replicate 243 (.str b!"a") ++ []) := by
    refine sRun_append 2048 _ _ hm ?_
    unfold sRun
    rw [sStep_pushStr, if_pos ⟨by rw [strings_many]; decide, by rw [length_many]; decide⟩]
    rfl
  obtain ⟨a, ht⟩ := blank_fresh.tmpOk
  have hs : Stk blank ([] : List Frame).reverse := ⟨rfl, by simp, by simp⟩
  obtain ⟨w, t', a', fs', live', e1, e2, e3, e4⟩ := sRun_ok _ .nil ht hs (sRun_many 243 243 [] (by decide) (by decide))
  have hall : ∀ {st : List SItem} {fs live}, Holds w.tmp st fs live → (∀ x ∈ st, x = .str b!"a") → ∀ p ∈ live, p.2 = b!"a" := by
    intro st fs live hh
    induction hh with
    | nil => simp
    | str s i p _ ih =>
      intro hx q hq
      rcases List.mem_cons.mp hq with rfl | hq
      · have := hx (.str s) (by simp)
        cases this
        rfl
      · exact ih (fun x hxm => hx x (List.mem_cons_of_mem _ hxm)) q hq
    | num x _ ih =>
      intro hx
      have := hx (.num x) (by simp)
      cases this
  obtain ⟨u, i, s', hm', e5⟩ := c36_full_violation e3 (by rw [e2.strings, strings_many]) e4 (by rw [List.length_reverse, e2.len, length_many]; decide)
    b!"b"
  have hs' : s' = b!"a" := hall e2 (by intro x hx; rw [List.append_nil] at hx; exact (List.mem_replicate.mp hx).2) _ hm'
  subst s'
  obtain ⟨_, u1, e6, e7⟩ := M.bind_inv e5
  have e8 : sRequests [.pushStr b!"b", .popStr] w = (.ok [.done, .str b!"a"], u) := by
    simp only [sRequests, sRequest]
    have p1 : (do pushString b!"b"; return .done : M SAns) w = (.ok .done, u1) := by rw [M.bind_ok e6]; rfl
    have p2 : (do return .str (← popString) : M SAns) u1 = (.ok (.str b!"a"), u) := by rw [M.bind_ok e7]; rfl
    rw [M.bind_ok p1]
    have p3 : (do let a ← (do return .str (← popString) : M SAns); let as ← (return [] : M (List SAns)); return a :: as : M (List SAns)) u1 =
      (.ok [.str b!"a"], u) := by rw [M.bind_ok p2]; rfl
    rw [M.bind_ok p3]
    rfl
  refine ⟨blank, _, manyStrings, _, _, u, _, blank_fresh, hr, sRequests_append _ _ e1 e8, ?_⟩
  intro h
  have := List.append_cancel_left h
  revert this
  decide

example : sRun 243 [] [.pushStr b!"a", .pushNum 7, .pushStr b!"b", .popStr, .popNum, .popStr] =
    some ([.done, .done, .done, .str b!"b", .num 7, .str b!"a"], []) := rfl

example : ∃ w, sRequests [.pushStr b!"a", .pushNum 7, .pushStr b!"b", .popStr, .popNum, .popStr] blank =
    (.ok [.done, .done, .done, .str b!"b", .num 7, .str b!"a"], w) :=
  c36_history_partial blank_fresh _ rfl

/-- 243 strings fit. -/
example : ∃ r, sRun 243 [] (List.replicate 243 (.pushStr b!"a")) = some r :=
  ⟨_, sRun_many 243 243 [] (by simp [strings]) (by simp)⟩

end Verif.Props
