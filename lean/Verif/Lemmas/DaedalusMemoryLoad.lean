import Verif.Model.DaedalusStart
import Verif.Lemmas.DaedalusMemoryExec
import Verif.Lemmas.MeshSave
import Verif.Lemmas.DaedalusLoad

/-!
# Lemmas about the memory of the machine (C100): loaded scripts
-/

namespace Verif.Daedalus

open Verif.Spec.Daedalus

/-- What a symbol that was loaded into an empty one holds. -/
def Typed (s : Sym) : Prop :=
  match s.value with
  | .ints none => s.isMember = true ∨ s.type ≠ .int ∧ s.type ≠ .float ∧ s.type ≠ .string
  | .ints (some a) => s.isMember = false ∧ (s.type = .int ∧ a.length = s.count.toNat ∨ s.type = .function ∧ s.isConst = false)
  | .floats a => s.isMember = false ∧ s.type = .float ∧ a.length = s.count.toNat
  | .strs a => s.isMember = false ∧ s.type = .string ∧ a.length = s.count.toNat
  | .inst p => p = none

theorem times_length {α} {p : Rd α} : ∀ {n : Nat} {st st' : Rs} {xs : List α}, Rd.times p n st = .ok (xs, st') → xs.length = n
  | 0, st, st', xs, h => by cases h; rfl
  | n + 1, st, st', xs, h => by
    unfold Rd.times at h
    obtain ⟨x, s1, -, h⟩ := Rd.bind_inv h
    obtain ⟨ys, s2, h2, h⟩ := Rd.bind_inv h
    cases h
    rw [List.length_cons, times_length h2]

theorem typed_loadValue {s s' : LSym} {st st' : Rs} (hm : s.sym.isMember = false) (hv : s.sym.value = .ints none)
    (h : s.loadValue st = .ok (s', st')) : Typed s'.sym := by
  unfold LSym.loadValue at h
  dsimp only at h
  cases ht : s.sym.type <;> rw [ht] at h <;> dsimp only at h
  case void => cases h; unfold Typed; rw [hv]; exact .inr ⟨by rw [ht]; simp, by rw [ht]; simp, by rw [ht]; simp⟩
  case float =>
    obtain ⟨bs, s1, h1, h⟩ := Rd.bind_inv h
    cases h
    exact ⟨hm, rfl, by simp [wordsOf]⟩
  case int =>
    obtain ⟨bs, s1, h1, h⟩ := Rd.bind_inv h
    cases h
    exact ⟨hm, .inl ⟨rfl, by simp [wordsOf]⟩⟩
  case string =>
    obtain ⟨ls, s1, h1, h⟩ := Rd.bind_inv h
    cases h
    exact ⟨hm, rfl, times_length h1⟩
  case class_ =>
    obtain ⟨o, s1, h1, h⟩ := Rd.bind_inv h
    cases h
    unfold Typed
    dsimp only
    rw [hv]; exact .inr ⟨by rw [ht]; simp, by rw [ht]; simp, by rw [ht]; simp⟩
  case function =>
    obtain ⟨o, s1, h1, h⟩ := Rd.bind_inv h
    cases h
    unfold Typed
    dsimp only
    by_cases hc : s.sym.isConst = true
    · rw [if_pos hc, hv]
      exact .inr ⟨by simp, by simp, by simp⟩
    · rw [if_neg hc]
      exact ⟨hm, .inr ⟨rfl, Bool.eq_false_iff.mpr hc⟩⟩
  case prototype =>
    obtain ⟨o, s1, h1, h⟩ := Rd.bind_inv h
    cases h
    unfold Typed
    dsimp only
    rw [hv]; exact .inr ⟨by simp, by simp, by simp⟩
  case «instance» =>
    obtain ⟨o, s1, h1, h⟩ := Rd.bind_inv h
    cases h
    exact rfl
  all_goals
    cases h; unfold Typed; rw [hv]; exact .inr ⟨by rw [ht]; simp, by rw [ht]; simp, by rw [ht]; simp⟩

theorem loadName_value {s s' : LSym} {st st' : Rs} (h : s.loadName st = .ok (s', st')) : s'.sym.value = s.sym.value := by
  unfold LSym.loadName at h
  obtain ⟨has, s1, -, h⟩ := Rd.bind_inv h
  split at h
  · cases h; rfl
  · obtain ⟨n, s2, -, h⟩ := Rd.bind_inv h
    cases h
    unfold LSym.setName
    split <;> rfl

theorem loadProps_value {s s' : LSym} {st st' : Rs} (h : s.loadProps st = .ok (s', st')) : s'.sym.value = s.sym.value := by
  unfold LSym.loadProps at h
  obtain ⟨a, s1, -, h⟩ := Rd.bind_inv h
  obtain ⟨b, s2, -, h⟩ := Rd.bind_inv h
  cases h
  unfold LSym.setProps
  dsimp only
  split
  · rfl
  · split
    · rfl
    · split <;> rfl

theorem loadPlace_sym {s s' : LSym} {st st' : Rs} (h : s.loadPlace st = .ok (s', st')) : s'.sym = s.sym := by
  unfold LSym.loadPlace at h
  obtain ⟨a, s1, -, h⟩ := Rd.bind_inv h
  obtain ⟨b, s2, -, h⟩ := Rd.bind_inv h
  obtain ⟨c, s3, -, h⟩ := Rd.bind_inv h
  obtain ⟨d, s4, -, h⟩ := Rd.bind_inv h
  obtain ⟨e, s5, -, h⟩ := Rd.bind_inv h
  cases h
  rfl

theorem loadParent_sym {s s' : LSym} {st st' : Rs} (h : s.loadParent st = .ok (s', st')) : ∃ p, s'.sym = { s.sym with parent := p } := by
  unfold LSym.loadParent at h
  obtain ⟨p, s1, -, h⟩ := Rd.bind_inv h
  split at h
  · obtain ⟨q, s2, -, h⟩ := Rd.bind_inv h
    cases h
    exact ⟨q, rfl⟩
  · cases h
    exact ⟨p, rfl⟩

theorem typed_load {s : LSym} {st st' : Rs} (h : ({ } : LSym).load st = .ok (s, st')) : Typed s.sym := by
  unfold LSym.load at h
  obtain ⟨a, s1, h1, h⟩ := Rd.bind_inv h
  obtain ⟨b, s2, h2, h⟩ := Rd.bind_inv h
  obtain ⟨c, s3, h3, h⟩ := Rd.bind_inv h
  obtain ⟨d, s4, h4, h⟩ := Rd.bind_inv h
  have hv : c.sym.value = .ints none := by rw [loadPlace_sym h3, loadProps_value h2, loadName_value h1]
  have hd : Typed d.sym := by
    split at h4
    · rename_i hm
      cases h4
      unfold Typed
      rw [hv]
      exact .inl hm
    · rename_i hm
      exact typed_loadValue (by simpa using hm) hv h4
  obtain ⟨p, hp⟩ := loadParent_sym h
  rw [hp]
  exact hd

theorem typed_loadSyms : ∀ (olds : List LSym), (∀ o ∈ olds, o = { }) → ∀ (sc : Script) (i : Nat) (st : Rs) (sc' : Script) (st' : Rs),
    (∀ s ∈ sc.syms, Typed s.sym) → sc.loadSyms i olds st = .ok (sc', st') → ∀ s ∈ sc'.syms, Typed s.sym := by
  intro olds
  induction olds with
  | nil => intro _ sc i st sc' st' hs h; cases h; exact hs
  | cons o olds ih =>
    intro ho sc i st sc' st' hs h
    unfold Script.loadSyms at h
    obtain ⟨s, s1, h1, h⟩ := Rd.bind_inv h
    rw [ho o List.mem_cons_self] at h1
    refine ih (fun x hx => ho x (List.mem_cons_of_mem _ hx)) _ _ _ _ _ ?_ h
    intro t ht
    unfold Script.enter at ht
    rcases List.mem_append.mp ht with ht | ht
    · exact hs t ht
    · rw [List.mem_singleton] at ht
      subst ht
      exact (typed_load h1 : Typed s.sym)

theorem typed_script {st st' : Rs} {sc : Script} (h : ({ } : Script).load st = .ok (sc, st')) : ∀ s ∈ sc.syms, Typed s.sym := by
  unfold Script.load at h
  obtain ⟨v, s1, -, h⟩ := Rd.bind_inv h
  obtain ⟨n, s2, -, h⟩ := Rd.bind_inv h
  obtain ⟨_, s3, -, h⟩ := Rd.bind_inv h
  obtain ⟨sc1, s4, h4, h⟩ := Rd.bind_inv h
  obtain ⟨k, s5, -, h⟩ := Rd.bind_inv h
  obtain ⟨c, s6, -, h⟩ := Rd.bind_inv h
  cases h
  show ∀ s ∈ sc1.syms, Typed s.sym
  refine typed_loadSyms _ ?_ _ _ _ _ _ ?_ h4
  · intro o ho
    unfold resized at ho
    rw [List.take_nil, List.nil_append] at ho
    exact (List.mem_replicate.mp ho).2
  · simp

/-- The machine of a loaded script. -/
theorem tidy_machine {st st' : Rs} {sc : Script} (h : ({ } : Script).load st = .ok (sc, st')) (hd : ∀ s ∈ sc.syms, Whole s.sym) (n i : Bool) :
    Tidy (sc.machine n i) := by
  have ht := typed_script h
  have look : ∀ (y : Nat) (s : Sym), (sc.machine n i).syms[y]? = some s →
      (Typed s ∧ Whole s) ∨ y = sc.syms.length ∧ s = tempSym sc.syms.length := by
    intro y s hy
    unfold Script.machine at hy
    dsimp only at hy
    rcases Nat.lt_or_ge y (sc.syms.map LSym.sym).length with hlt | hge
    · rw [List.getElem?_append_left hlt] at hy
      have hm := List.mem_of_getElem? hy
      obtain ⟨l, hl, rfl⟩ := List.mem_map.mp hm
      exact .inl ⟨ht l hl, hd l hl⟩
    · rw [List.getElem?_append_right hge, List.length_map] at hy
      rw [List.length_map] at hge
      match hz : y - sc.syms.length, hy with
      | 0, hy =>
        refine .inr ⟨by omega, ?_⟩
        exact (Option.some.inj hy).symm
  have hheap : (sc.machine n i).heap = [] := rfl
  refine ⟨?_, ?_, ?_, ?_, Nat.zero_le _, ?_, ?_⟩
  · intro y s hy
    rcases look y s hy with ⟨h1, h2⟩ | ⟨-, rfl⟩
    · intro hm
      unfold Typed at h1
      unfold Whole at h2
      replace h2 := h2 hm
      match hv : s.value with
      | .ints none => trivial
      | .ints (some a) =>
        rw [hv] at h1 h2
        intro _
        rcases h1.2 with ⟨-, hl⟩ | ⟨k1, k2⟩
        · exact ⟨by omega, h2.2⟩
        · have := h2.1 k1
          rw [k2] at this
          cases this
      | .floats a => rw [hv] at h1 h2; exact fun _ => ⟨by omega, h2.2⟩
      | .strs a => rw [hv] at h1; exact fun _ => by omega
      | .inst _ => trivial
    · intro _ _
      exact Nat.le_refl 1
  · refine ⟨tempSym sc.syms.length, [[]], ?_, rfl, (by simp [tempSym, Sym.isMember]), rfl, (by show (1 : BitVec 32) ≠ 0; decide)⟩
    show (sc.syms.map LSym.sym ++ [tempSym sc.syms.length])[sc.syms.length]? = _
    rw [List.getElem?_append_right (by simp)]
    simp
  · intro a m hm
    rw [hheap] at hm
    cases hm
  · intro y s a hy hv
    rcases look y s hy with ⟨h1, -⟩ | ⟨-, rfl⟩
    · unfold Typed at h1
      rw [hv] at h1
      cases h1
    · cases hv
  · intro j hj
    cases hj
  · intro j f hf
    cases hf


/-! ## A test -/

instance (op : Op) (a b : Int) : Decidable (OpDefined op a b) := by
  unfold OpDefined InInt
  cases op <;> dsimp only <;> infer_instance

instance (op : Op) (a b : BitVec 32) : Decidable (Calculable op a b) := by
  unfold Calculable
  infer_instance

instance (s : Sym) : Decidable (Hollow s) := by
  unfold Hollow
  infer_instance

/-- Whether a pair of numbers passes a test, if there is one. -/
def passes {α} (o : Option α) (t : α → Bool) : Bool :=
  match o with
  | some a => t a
  | none => true

theorem passes_some {α} {o : Option α} {t : α → Bool} (h : passes o t = true) {a : α} (ha : o = some a) : t a = true := by
  rw [ha] at h
  exact h

/-- A test of `Careful`. -/
def carefulB (h : Host) (v : Vm) : Bool :=
  (match v.calls with
    | c :: _ => decide (c.sp.toNat ≤ v.sp.toNat)
    | [] => true) &&
  match fetch v with
  | (.ok i, w) =>
    match i.op with
    | .add | .sub | .mul | .div | .mod | .lsl | .lsr => passes (operands w) fun p => decide (Calculable i.op p.1 p.2)
    | .negate => match popInt w with
      | (.ok a, _) => decide (a.toInt ≠ -2147483648)
      | _ => true
    | .addmovi => passes (assigned w) fun p => decide (Calculable .add p.1 p.2)
    | .submovi => passes (assigned w) fun p => decide (Calculable .sub p.1 p.2)
    | .mulmovi => passes (assigned w) fun p => decide (Calculable .mul p.1 p.2)
    | .divmovi => passes (assigned w) fun p => decide (Calculable .div p.1 p.2)
    | .pushv | .pushvi | .pushvv => passes v.syms[i.symbol.toNat]? fun s => decide (¬ Hollow s)
    | .bl => passes (callee h v) fun y => passes v.syms[y]? fun f => decide (f.count.toNat ≤ v.sp.toNat)
    | .be => passes v.syms[i.symbol.toNat]? fun f => decide (f.index.toNat + f.count.toNat < v.syms.length) &&
        (!(h.external i.symbol.toNat).isSome || decide (f.count.toNat ≤ v.sp.toNat))
    | _ => true
  | _ => true

theorem careful_of {h : Host} {v : Vm} (hc : carefulB h v = true) : Careful h v := by
  unfold carefulB at hc
  rw [Bool.and_eq_true] at hc
  obtain ⟨h1, h2⟩ := hc
  refine ⟨fun c rest e => ?_, fun i w hf => ?_⟩
  · rw [e] at h1
    exact of_decide_eq_true h1
  · rw [hf] at h2
    dsimp only at h2
    split <;> first
      | (rename_i ho; rw [ho] at h2; dsimp only at h2; try rw [ho])
      | trivial
    case h_8 =>
      intro a w' hp
      rw [hp] at h2
      exact of_decide_eq_true h2
    all_goals first
      | exact fun a b e => of_decide_eq_true (passes_some h2 e)
      | exact fun s e => of_decide_eq_true (passes_some h2 e)
      | exact fun y f e k => of_decide_eq_true (passes_some (passes_some h2 e) k)
      | trivial
      | skip
    intro f e
    have := passes_some h2 e
    rw [Bool.and_eq_true, Bool.or_eq_true] at this
    refine ⟨⟨f, e, of_decide_eq_true this.1⟩, fun k => ?_⟩
    rcases this.2 with t | t
    · rw [k] at t; cases t
    · exact of_decide_eq_true t

instance (t : DType) : Decidable (isValue t) := by
  cases t <;> unfold isValue <;> infer_instance

instance (s : Sym) : Decidable (Stored s) := by
  unfold Stored
  match hv : s.value with
  | .ints none => exact inferInstanceAs (Decidable (_ → True))
  | .ints (some a) => dsimp only; infer_instance
  | .floats a => dsimp only; infer_instance
  | .strs a => dsimp only; infer_instance
  | .inst p => dsimp only; infer_instance

/-- A test of `Fits`. -/
def fitsB (v : Vm) (y : Nat) : Bool :=
  match v.syms[y]? with
  | some f => decide (y ≠ v.tmp) && decide (f.index.toNat + f.count.toNat < v.syms.length) &&
      (!f.hasLocals || ((!f.hasReturn || decide (isValue f.rtype)) && decide (slotsOf v (localsOf v f) < 2 ^ 31) &&
        (localsOf v f).all fun l => decide (l ≠ v.tmp) && passes v.syms[l]? fun s => decide (¬ Hollow s)))
  | none => false

theorem fits_of {v : Vm} {y : Nat} (h : fitsB v y = true) : Fits v y := by
  unfold fitsB at h
  split at h
  · rename_i f hf
    simp only [Bool.and_eq_true, Bool.or_eq_true, decide_eq_true_eq, List.all_eq_true, Bool.not_eq_true'] at h
    obtain ⟨⟨h1, h2⟩, h3⟩ := h
    refine ⟨f, hf, h1, h2, fun hl => ?_⟩
    rcases h3 with h3 | ⟨⟨h3, h4⟩, h5⟩
    · rw [hl] at h3; cases h3
    · refine ⟨fun hr => ?_, h4, fun l hm => ?_⟩
      · rcases h3 with h3 | h3
        · rw [hr] at h3; cases h3
        · exact h3
      · obtain ⟨k1, k2⟩ := h5 l hm
        exact ⟨k1, fun s hs => of_decide_eq_true (passes_some k2 hs)⟩
  · cases h

/-- A machine that has not been used. -/
def freshB (v : Vm) : Bool :=
  v.heap.isEmpty && v.stack.isEmpty && v.calls.isEmpty && v.sp == 0 &&
  (v.syms.all fun s => decide (Stored s) && match s.value with | .inst (some _) => false | _ => true) &&
  match v.syms[v.tmp]? with
  | some s => decide (s.type = .string) && !s.isMember && (match s.value with | .strs _ => true | _ => false) && decide (s.count ≠ 0)
  | none => false

theorem tidy_of {v : Vm} (h : freshB v = true) : Tidy v ∧ v.calls = [] := by
  unfold freshB at h
  simp only [Bool.and_eq_true, List.isEmpty_iff, beq_iff_eq, List.all_eq_true, decide_eq_true_eq] at h
  obtain ⟨⟨⟨⟨⟨h1, h2⟩, h3⟩, h4⟩, h5⟩, h6⟩ := h
  refine ⟨⟨fun y s hy => (h5 s (List.mem_of_getElem? hy)).1, ?_, fun a n hn => ?_, fun y s a hy hv => ?_, ?_, fun i hi => ?_, fun i f hf => ?_⟩, h3⟩
  · split at h6
    · rename_i s hs
      simp only [Bool.and_eq_true, decide_eq_true_eq, Bool.not_eq_true'] at h6
      obtain ⟨⟨⟨k1, k2⟩, k3⟩, k4⟩ := h6
      split at k3
      · rename_i a ha
        exact ⟨s, a, hs, k1, k2, ha, k4⟩
      · cases k3
    · cases h6
  · rw [h1] at hn; cases hn
  · have := (h5 s (List.mem_of_getElem? hy)).2
    rw [hv] at this
    cases this
  · rw [h4]; exact Nat.zero_le _
  · rw [h4] at hi; cases hi
  · rw [h2] at hf; cases hf

/-- What a fresh machine can call. -/
theorem callables_of {h : Host} {v : Vm} (hv : (List.range v.syms.length).all (fun y => match v.syms[y]? with
      | some s => (!hasCode s && !(h.external y).isSome) || fitsB v y
      | none => true) = true) (ho : ∀ a, h.override_ a = none) : Callables h v := by
  rw [List.all_eq_true] at hv
  refine ⟨fun a y hy => ?_, fun y he hlt => ?_, fun a ha => by rw [ho a] at ha; cases ha⟩
  · obtain ⟨s, k1, k2⟩ := lastIndex_some hy
    have := hv y (List.mem_range.mpr (List.getElem?_eq_some_iff.mp k1).1)
    rw [k1] at this
    simp only [Bool.or_eq_true, Bool.and_eq_true, Bool.not_eq_true'] at this k2
    rcases this with t | t
    · rw [k2.1] at t; cases t.1
    · exact fits_of t
  · have := hv y (List.mem_range.mpr hlt)
    rw [List.getElem?_eq_getElem hlt] at this
    simp only [Bool.or_eq_true, Bool.and_eq_true, Bool.not_eq_true'] at this
    rcases this with t | t
    · rw [he] at t; cases t.2
    · exact fits_of t

end Verif.Daedalus
