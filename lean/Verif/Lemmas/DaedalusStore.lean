import Verif.Lemmas.DaedalusString
import Verif.Spec.DaedalusStore

/-!
# Getters and setters of symbols
-/

namespace Verif.Daedalus

open Verif.Spec.Daedalus

/-! ## The common form -/

/-- The index a getter uses for a member. -/
def getterIndex (k : VKind) (i : Nat) : Nat := if k = .float then i % 256 else i

def readGlobal (k : VKind) (a : SymVal) (i : Nat) : Except Fail Cell :=
  match k, a with
  | .int, .ints (some a) =>
    match a[i]? with
    | some (some v) => .ok (.int v)
    | _ => .error .ub
  | .int, .ints none => .error .ub
  | .float, .floats a =>
    match a[i]? with
    | some (some v) => .ok (.float v)
    | _ => .error .ub
  | .str, .strs a =>
    match a[i]? with
    | some v => .ok (.str v)
    | none => .error .ub
  | _, _ => .error (.throw .badVariantAccess)

def writeGlobal (c : Cell) (a : SymVal) (i : Nat) : Except Fail SymVal :=
  match c, a with
  | .int v, .ints (some a) => if i < a.length then .ok (.ints (some (a.set i (some v)))) else .error .ub
  | .int _, .ints none => .error .ub
  | .float v, .floats a => if i < a.length then .ok (.floats (a.set i (some v))) else .error .ub
  | .str v, .strs a => if i < a.length then .ok (.strs (a.set i v)) else .error .ub
  | _, _ => .error (.throw .badVariantAccess)

def readMember (s : Sym) (k : VKind) (i : Nat) (ctx : Option Inst) : Except Fail Cell :=
  match ctx with
  | none => .error (.throw .daedalusNoContext)
  | some n =>
    match s.memberOff i (kindSize k) n with
    | .error e => .error e
    | .ok off =>
      match cellAt n.cells off with
      | some c => if kindOf c = k then .ok c else .error .ub
      | none => .error .ub

def writeMember (s : Sym) (c : Cell) (i : Nat) (ctx : Option Inst) : Except Fail (Option Inst) :=
  match ctx with
  | none => .error (.throw .daedalusNoContext)
  | some n =>
    match s.memberOff i (kindSize (kindOf c)) n with
    | .error e => .error e
    | .ok off =>
      match cellAt n.cells off with
      | some d => if kindOf d = kindOf c then .ok (some { n with cells := setCell n.cells off c }) else .error .ub
      | none => .error .ub

def Sym.read (s : Sym) (k : VKind) (i : Nat) (ctx : Option Inst) : Except Fail Cell :=
  if holdsKind k s.type = false then .error (.throw .daedalusType)
  else if s.count.toNat ≤ i then .error (.throw .daedalusIndex)
  else if s.isMember then readMember s k (getterIndex k i) ctx
  else readGlobal k s.value i

def Sym.write (s : Sym) (c : Cell) (i : Nat) (ctx : Option Inst) : Except Fail (Sym × Option Inst) :=
  if holdsKind (kindOf c) s.type = false then .error (.throw .daedalusType)
  else if s.count.toNat ≤ i then .error (.throw .daedalusIndex)
  else if s.isMember then
    match writeMember s c i ctx with
    | .ok n => .ok (s, n)
    | .error e => .error e
  else
    match writeGlobal c s.value i with
    | .ok a => .ok ({ s with value := a }, ctx)
    | .error e => .error e

theorem readVar_eq (k : VKind) (y i : Nat) (p : Option Nat) (v : Vm) :
    readVar k y i p v =
      match v.syms[y]? with
      | none => (.error .ub, v)
      | some s => (s.read k i (instAt v p), v) := by
  cases hs : v.syms[y]? with
  | none =>
    have : symAt y v = (.error .ub, v) := by rw [symAt_eq, hs]
    cases k
    · show (symGetInt y i p >>= fun x => (Pure.pure (Cell.int x) : M Cell)) v = _
      rw [M.bind_err (show symGetInt y i p v = (.error .ub, v) by unfold symGetInt; rw [M.bind_err this])]
    · show (symGetFloat y i p >>= fun x => (Pure.pure (Cell.float x) : M Cell)) v = _
      rw [M.bind_err (show symGetFloat y i p v = (.error .ub, v) by unfold symGetFloat; rw [M.bind_err this])]
    · show (symGetString y i p >>= fun x => (Pure.pure (Cell.str x) : M Cell)) v = _
      rw [M.bind_err (show symGetString y i p v = (.error .ub, v) by unfold symGetString; rw [M.bind_err this])]
  | some s =>
    have hsym := symAt_some hs
    dsimp only
    cases k
    · have h1 : symGetInt y i p v = (s.getInt i (instAt v p), v) := by
        unfold symGetInt; rw [M.bind_ok hsym, M.get_bind]; rfl
      have h2 : s.read .int i (instAt v p) = (s.getInt i (instAt v p)).map Cell.int := by
        unfold Sym.read Sym.getInt readMember readGlobal
        simp only [holdsKind, getterIndex, kindSize]
        cases ht : s.type <;> simp <;> try rfl
        all_goals
          split
          · rfl
          · split
            · cases instAt v p with
              | none => rfl
              | some n =>
                dsimp only
                cases s.memberOff i 4 n with
                | error e => rfl
                | ok off =>
                  dsimp only
                  cases cellAt n.cells off with
                  | none => rfl
                  | some c => cases c <;> rfl
            · cases s.value with
              | ints a =>
                cases a with
                | none => rfl
                | some a =>
                  dsimp only
                  rcases a[i]? with _ | _ | x <;> rfl
              | floats a => rfl
              | strs a => rfl
              | inst a => rfl
      show (symGetInt y i p >>= fun x => (Pure.pure (Cell.int x) : M Cell)) v = _
      rw [h2]
      cases h3 : s.getInt i (instAt v p) with
      | ok x => rw [h3] at h1; rw [M.bind_ok h1]; rfl
      | error e => rw [h3] at h1; rw [M.bind_err h1]; rfl
    · have h1 : symGetFloat y i p v = (s.getFloat i (instAt v p), v) := by
        unfold symGetFloat; rw [M.bind_ok hsym, M.get_bind]; rfl
      have h2 : s.read .float i (instAt v p) = (s.getFloat i (instAt v p)).map Cell.float := by
        unfold Sym.read Sym.getFloat readMember readGlobal
        simp only [holdsKind, getterIndex, kindSize]
        cases ht : s.type <;> simp <;> try rfl
        all_goals
          split
          · rfl
          · split
            · cases instAt v p with
              | none => rfl
              | some n =>
                dsimp only
                cases s.memberOff (i % 256) 4 n with
                | error e => rfl
                | ok off =>
                  dsimp only
                  cases cellAt n.cells off with
                  | none => rfl
                  | some c => cases c <;> rfl
            · cases s.value with
              | ints a => rfl
              | floats a =>
                  dsimp only
                  rcases a[i]? with _ | _ | x <;> rfl
              | strs a => rfl
              | inst a => rfl
      show (symGetFloat y i p >>= fun x => (Pure.pure (Cell.float x) : M Cell)) v = _
      rw [h2]
      cases h3 : s.getFloat i (instAt v p) with
      | ok x => rw [h3] at h1; rw [M.bind_ok h1]; rfl
      | error e => rw [h3] at h1; rw [M.bind_err h1]; rfl
    · have h1 : symGetString y i p v = (s.getString i (instAt v p), v) := by
        unfold symGetString; rw [M.bind_ok hsym, M.get_bind]; rfl
      have h2 : s.read .str i (instAt v p) = (s.getString i (instAt v p)).map Cell.str := by
        unfold Sym.read Sym.getString readMember readGlobal
        simp only [holdsKind, getterIndex, kindSize, Sym.strSize]
        cases ht : s.type <;> simp <;> try rfl
        all_goals
          split
          · rfl
          · split
            · cases instAt v p with
              | none => rfl
              | some n =>
                dsimp only
                cases s.memberOff i 32 n with
                | error e => rfl
                | ok off =>
                  dsimp only
                  cases cellAt n.cells off with
                  | none => rfl
                  | some c => cases c <;> rfl
            · cases s.value with
              | ints a => rfl
              | floats a => rfl
              | strs a =>
                  dsimp only
                  rcases a[i]? with _ | x <;> rfl
              | inst a => rfl
      show (symGetString y i p >>= fun x => (Pure.pure (Cell.str x) : M Cell)) v = _
      rw [h2]
      cases h3 : s.getString i (instAt v p) with
      | ok x => rw [h3] at h1; rw [M.bind_ok h1]; rfl
      | error e => rw [h3] at h1; rw [M.bind_err h1]; rfl

theorem writeVar_eq (c : Cell) (y i : Nat) (p : Option Nat) (v : Vm) :
    writeVar c y i p v =
      match v.syms[y]? with
      | none => (.error .ub, v)
      | some s =>
        match s.write c i (instAt v p) with
        | .ok (s', n) => storeSym y p s' n v
        | .error e => (.error e, v) := by
  cases hs : v.syms[y]? with
  | none =>
    have : symAt y v = (.error .ub, v) := by rw [symAt_eq, hs]
    cases c
    · show symSetInt y _ i p v = _
      unfold symSetInt; rw [M.bind_err this]
    · show symSetFloat y _ i p v = _
      unfold symSetFloat; rw [M.bind_err this]
    · show symSetString y _ i p v = _
      unfold symSetString; rw [M.bind_err this]
  | some s =>
    have hsym := symAt_some hs
    dsimp only
    cases c with
    | int x =>
      have h2 : s.write (.int x) i (instAt v p) = s.setInt x i (instAt v p) := by
        unfold Sym.write Sym.setInt writeMember writeGlobal
        simp only [holdsKind, kindSize, kindOf]
        cases ht : s.type <;> simp <;> try rfl
        all_goals
          split
          · rfl
          · split
            · cases instAt v p with
              | none => rfl
              | some n =>
                dsimp only
                cases s.memberOff i 4 n with
                | error e => rfl
                | ok off =>
                  dsimp only
                  cases cellAt n.cells off with
                  | none => rfl
                  | some c => cases c <;> rfl
            · cases s.value with
              | ints a =>
                cases a with
                | none => rfl
                | some a => by_cases hl : i < a.length <;> simp only [hl, if_true, if_false]
              | floats a => rfl
              | strs a => rfl
              | inst a => rfl
      show symSetInt y x i p v = _
      unfold symSetInt
      rw [h2, M.bind_ok hsym, M.get_bind]
      cases h3 : s.setInt x i (instAt v p) with
      | ok r => rfl
      | error e => rfl
    | float x =>
      have h2 : s.write (.float x) i (instAt v p) = s.setFloat x i (instAt v p) := by
        unfold Sym.write Sym.setFloat writeMember writeGlobal
        simp only [holdsKind, kindSize, kindOf]
        cases ht : s.type <;> simp <;> try rfl
        all_goals
          split
          · rfl
          · split
            · cases instAt v p with
              | none => rfl
              | some n =>
                dsimp only
                cases s.memberOff i 4 n with
                | error e => rfl
                | ok off =>
                  dsimp only
                  cases cellAt n.cells off with
                  | none => rfl
                  | some c => cases c <;> rfl
            · cases s.value with
              | ints a => rfl
              | floats a => by_cases hl : i < a.length <;> simp only [hl, if_true, if_false]
              | strs a => rfl
              | inst a => rfl
      show symSetFloat y x i p v = _
      unfold symSetFloat
      rw [h2, M.bind_ok hsym, M.get_bind]
      cases h3 : s.setFloat x i (instAt v p) with
      | ok r => rfl
      | error e => rfl
    | str x =>
      have h2 : s.write (.str x) i (instAt v p) = s.setString x i (instAt v p) := by
        unfold Sym.write Sym.setString writeMember writeGlobal
        simp only [holdsKind, kindSize, kindOf, Sym.strSize]
        cases ht : s.type <;> simp <;> try rfl
        all_goals
          split
          · rfl
          · split
            · cases instAt v p with
              | none => rfl
              | some n =>
                dsimp only
                cases s.memberOff i 32 n with
                | error e => rfl
                | ok off =>
                  dsimp only
                  cases cellAt n.cells off with
                  | none => rfl
                  | some c => cases c <;> rfl
            · cases s.value with
              | ints a => rfl
              | floats a => rfl
              | strs a => by_cases hl : i < a.length <;> simp only [hl, if_true, if_false]
              | inst a => rfl
      show symSetString y x i p v = _
      unfold symSetString
      rw [h2, M.bind_ok hsym, M.get_bind]
      cases h3 : s.setString x i (instAt v p) with
      | ok r => rfl
      | error e => rfl

/-! ## Cells -/

theorem cellAt_set_self {cells : List (Nat × Cell)} {off : Nat} {c d : Cell} (h : cellAt cells off = some d) :
    cellAt (setCell cells off c) off = some c := by
  induction cells with
  | nil => cases h
  | cons x xs ih =>
    obtain ⟨o, e⟩ := x
    unfold cellAt at h
    unfold setCell
    by_cases ho : o = off
    · rw [if_pos ho]
      unfold cellAt
      rw [if_pos ho]
    · rw [if_neg ho] at h ⊢
      unfold cellAt
      rw [if_neg ho]
      exact ih h

theorem cellAt_set_ne {cells : List (Nat × Cell)} {off off' : Nat} (c : Cell) (h : off ≠ off') :
    cellAt (setCell cells off c) off' = cellAt cells off' := by
  induction cells with
  | nil => rfl
  | cons x xs ih =>
    obtain ⟨o, e⟩ := x
    unfold setCell
    by_cases ho : o = off
    · rw [if_pos ho]
      unfold cellAt
      rw [if_neg (by omega), if_neg (by omega)]
    · rw [if_neg ho]
      unfold cellAt
      rw [ih]

theorem setCell_offs (cells : List (Nat × Cell)) (off : Nat) (c : Cell) : (setCell cells off c).map Prod.fst = cells.map Prod.fst := by
  induction cells with
  | nil => rfl
  | cons x xs ih =>
    obtain ⟨o, e⟩ := x
    unfold setCell
    split
    · rfl
    · simp [ih]

/-! ## One symbol -/

theorem memberOff_eq {s : Sym} {k : VKind} {i : Nat} {n : Inst} {off : Nat} (h : s.memberOff i (kindSize k) n = .ok off) :
    off = (elementAt s k i).toNat ∧ ∃ t, s.registeredTo = some t ∧ n.type = some t := by
  unfold Sym.memberOff at h
  split at h
  · cases h
  · rename_i r hr
    split at h
    · cases h
    · rename_i t ht
      split at h
      · cases h
      · rename_i hne
        cases h
        have : r = t := Decidable.of_not_not hne
        subst t
        exact ⟨rfl, r, hr, ht⟩

/-- What a successful write does. -/
theorem write_inv {s s' : Sym} {c : Cell} {i : Nat} {ctx n : Option Inst} (h : s.write c i ctx = .ok (s', n)) :
    holdsKind (kindOf c) s.type = true ∧ i < s.count.toNat ∧
    ((s.isMember = true ∧ s' = s ∧ ∃ m d, ctx = some m ∧ s.memberOff i (kindSize (kindOf c)) m = .ok (elementAt s (kindOf c) i).toNat ∧
        cellAt m.cells (elementAt s (kindOf c) i).toNat = some d ∧
        n = some { m with cells := setCell m.cells (elementAt s (kindOf c) i).toNat c }) ∨
     (s.isMember = false ∧ n = ctx ∧ ∃ a, writeGlobal c s.value i = .ok a ∧ s' = { s with value := a })) := by
  unfold Sym.write at h
  split at h
  · cases h
  · rename_i hk
    split at h
    · cases h
    · rename_i hi
      refine ⟨by simpa using hk, by omega, ?_⟩
      split at h
      · rename_i hm
        left
        split at h
        · rename_i n' hw
          cases h
          unfold writeMember at hw
          split at hw
          · cases hw
          · rename_i m
            split at hw
            · cases hw
            · rename_i off ho
              split at hw
              · rename_i d hd
                split at hw
                · cases hw
                  obtain ⟨rfl, -⟩ := memberOff_eq ho
                  exact ⟨hm, rfl, m, d, rfl, ho, hd, rfl⟩
                · cases hw
              · cases hw
        · cases h
      · rename_i hm
        right
        split at h
        · rename_i a ha
          cases h
          exact ⟨by simpa using hm, rfl, a, ha, rfl⟩
        · cases h

theorem writeGlobal_self {c : Cell} {a b : SymVal} {i : Nat} (h : writeGlobal c a i = .ok b) : readGlobal (kindOf c) b i = .ok c := by
  unfold writeGlobal at h
  cases c <;> rcases a with (_ | a) | a | a | a <;> dsimp only at h
  all_goals first
    | (split at h
       · rename_i hl
         cases h
         simp [readGlobal, kindOf, hl]
       · cases h)
    | cases h

theorem writeGlobal_ne {c : Cell} {a b : SymVal} {i j : Nat} (h : writeGlobal c a i = .ok b) (hj : j ≠ i) (k : VKind) :
    readGlobal k b j = readGlobal k a j := by
  unfold writeGlobal at h
  cases c <;> rcases a with (_ | a) | a | a | a <;> dsimp only at h
  all_goals first
    | (split at h
       · rename_i hl
         cases h
         cases k <;> simp [readGlobal, List.getElem?_set_ne hj.symm]
       · cases h)
    | cases h

theorem read_write_self {s s' : Sym} {c : Cell} {i : Nat} {ctx n : Option Inst} (h : s.write c i ctx = .ok (s', n))
    (hf : kindOf c = .float → s.isMember = true → i < 256) : s'.read (kindOf c) i n = .ok c := by
  obtain ⟨h1, h2, ⟨hm, rfl, m, d, rfl, ho, hd, rfl⟩ | ⟨hm, rfl, a, ha, rfl⟩⟩ := write_inv h
  · unfold Sym.read
    rw [if_neg (by simp [h1]), if_neg (by omega), if_pos hm]
    have hi : getterIndex (kindOf c) i = i := by
      unfold getterIndex
      split
      · rename_i hk
        exact Nat.mod_eq_of_lt (hf hk hm)
      · rfl
    rw [hi]
    unfold readMember
    dsimp only
    have ho' : s'.memberOff i (kindSize (kindOf c)) { m with cells := setCell m.cells (elementAt s' (kindOf c) i).toNat c } =
        .ok (elementAt s' (kindOf c) i).toNat := ho
    rw [ho']
    dsimp only
    rw [cellAt_set_self hd]
    dsimp only
    rw [if_pos rfl]
  · unfold Sym.read
    dsimp only
    rw [if_neg (by simp [h1]), if_neg (by omega)]
    have : Sym.isMember { s with value := a } = false := hm
    rw [this]
    exact writeGlobal_self ha

/-- Two elements of the same member are different. -/
theorem element_ne {s : Sym} {k : VKind} {i j : Nat} (hi : i < 65536) (hj : j < 65536) (h : j ≠ i) :
    elementAt s k j ≠ elementAt s k i := by
  intro he
  unfold elementAt at he
  have he := congrArg BitVec.toNat ((BitVec.add_right_inj _).mp he)
  simp only [BitVec.toNat_ofNat] at he
  cases k <;> simp only [kindSize] at he <;> omega

/-- A write of a member is not seen at another offset. -/
theorem readMember_ne {m : Inst} {off : Nat} {c : Cell} {r : Sym} {k : VKind} {j : Nat} (h : (elementAt r k j).toNat ≠ off) :
    readMember r k j (some { m with cells := setCell m.cells off c }) = readMember r k j (some m) := by
  unfold readMember
  dsimp only
  have : r.memberOff j (kindSize k) { m with cells := setCell m.cells off c } = r.memberOff j (kindSize k) m := rfl
  rw [this]
  cases ho : r.memberOff j (kindSize k) m with
  | error e => rfl
  | ok o =>
    obtain ⟨rfl, -⟩ := memberOff_eq ho
    dsimp only
    rw [cellAt_set_ne _ h.symm]

theorem getterIndex_eq {k : VKind} {j : Nat} (h : k = .float → j < 256) : getterIndex k j = j := by
  unfold getterIndex
  split
  · rename_i hk
    exact Nat.mod_eq_of_lt (h hk)
  · rfl

theorem kind_unique {k k' : VKind} {t : DType} (h : holdsKind k t = true) (h' : holdsKind k' t = true) : k = k' := by
  cases k <;> cases k' <;> cases t <;> simp [holdsKind] at h h' ⊢

theorem read_write_ne {s s' : Sym} {c : Cell} {i j : Nat} {ctx n : Option Inst} (h : s.write c i ctx = .ok (s', n))
    (hi : i < 65536) (hj : j < 65536) (hne : j ≠ i) (k : VKind) (hf : k = .float → s.isMember = true → j < 256) :
    s'.read k j n = s.read k j ctx := by
  obtain ⟨h1, h2, ⟨hm, rfl, m, d, rfl, ho, hd, rfl⟩ | ⟨hm, rfl, a, ha, rfl⟩⟩ := write_inv h
  · unfold Sym.read
    by_cases hk : holdsKind k s'.type = true
    · have := kind_unique hk h1
      subst this
      rw [getterIndex_eq (fun hk => hf hk hm)]
      rw [readMember_ne (fun he => element_ne hi hj hne (BitVec.eq_of_toNat_eq he))]
    · rw [if_pos (by simpa using hk), if_pos (by simpa using hk)]
  · unfold Sym.read
    have : Sym.isMember { s with value := a } = false := hm
    rw [this, hm]
    dsimp only
    rw [writeGlobal_ne ha hne]
    rfl

/-! ## The machine -/

theorem instAt_lt {v : Vm} {p : Option Nat} {m : Inst} (h : instAt v p = some m) : ∃ a, p = some a ∧ v.heap[a]? = some m := by
  unfold instAt at h
  cases p with
  | none => cases h
  | some a => exact ⟨a, rfl, h⟩

/-- What `writeVar` does when it succeeds. -/
theorem writeVar_inv {c : Cell} {y i : Nat} {p : Option Nat} {v w : Vm} (h : writeVar c y i p v = (.ok (), w)) :
    ∃ s s' n, v.syms[y]? = some s ∧ s.write c i (instAt v p) = .ok (s', n) ∧ w.syms = v.syms.set y s' ∧ instAt w p = n ∧
      (∀ q, q ≠ p → instAt w q = instAt v q) ∧ (s.isMember = false → w.heap = v.heap) := by
  rw [writeVar_eq] at h
  split at h
  · cases h
  · rename_i s hs
    split at h
    · rename_i s' n hw
      obtain ⟨-, -, hcase⟩ := write_inv hw
      refine ⟨s, s', n, hs, hw, ?_⟩
      unfold storeSym at h
      cases h
      refine ⟨rfl, ?_, ?_, ?_⟩
      · rcases hcase with ⟨-, -, m, d, hm, -, -, rfl⟩ | ⟨-, rfl, -⟩
        · obtain ⟨a, rfl, ha⟩ := instAt_lt hm
          show (v.heap.set a _)[a]? = _
          rw [List.getElem?_set_self (List.getElem?_eq_some_iff.mp ha).1]
        · cases hp : instAt v p with
          | none =>
            cases p with
            | none => rfl
            | some a => exact hp
          | some m =>
            obtain ⟨a, rfl, ha⟩ := instAt_lt hp
            show (v.heap.set a m)[a]? = _
            rw [List.getElem?_set_self (List.getElem?_eq_some_iff.mp ha).1]
      · intro q hq
        cases q with
        | none => rfl
        | some b =>
          cases p with
          | none => rfl
          | some a =>
            cases n with
            | none => rfl
            | some m =>
              show (v.heap.set a m)[b]? = v.heap[b]?
              rw [List.getElem?_set_ne (by intro e; exact hq (by rw [e]))]
      · intro hm
        rcases hcase with ⟨hm', -⟩ | ⟨-, rfl, -⟩
        · rw [hm] at hm'; cases hm'
        · cases hp : instAt v p with
          | none => cases p <;> rfl
          | some m =>
            obtain ⟨a, rfl, ha⟩ := instAt_lt hp
            show v.heap.set a m = v.heap
            exact set_self ha
    · cases h

/-- A read depends on the symbol and, for a member, on the instance. -/
theorem readVar_fst (k : VKind) (y i : Nat) (p : Option Nat) (v : Vm) {s : Sym} (h : v.syms[y]? = some s) :
    readVar k y i p v = (s.read k i (instAt v p), v) := by
  rw [readVar_eq, h]

theorem read_global_ctx {s : Sym} (h : s.isMember = false) (k : VKind) (i : Nat) (a b : Option Inst) : s.read k i a = s.read k i b := by
  unfold Sym.read
  rw [h]
  rfl

end Verif.Daedalus
