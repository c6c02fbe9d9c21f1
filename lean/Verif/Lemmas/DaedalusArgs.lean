import Verif.Lemmas.DaedalusLocals

/-!
# The arguments of a recursive call
-/

namespace Verif.Daedalus

open Verif.Spec.Daedalus

theorem putSlot_self (stack : List (Option Frame)) (i : Nat) (f : Frame) : (putSlot stack i f)[i]? = some (some f) := by
  unfold putSlot
  split
  · exact List.getElem?_set_self (by assumption)
  · rename_i h
    rw [List.getElem?_append_right (by simp; omega)]
    simp
    have : i - (stack.length + (i - stack.length)) = 0 := by omega
    rw [this]
    rfl

theorem putSlot_other {stack : List (Option Frame)} {i j : Nat} {f : Frame} {x : Option Frame} (h : j ≠ i) (hx : stack[j]? = some x) :
    (putSlot stack i f)[j]? = some x := by
  have hj : j < stack.length := (List.getElem?_eq_some_iff.mp hx).1
  unfold putSlot
  split
  · rw [List.getElem?_set_ne (Ne.symm h)]; exact hx
  · rw [List.append_assoc, List.getElem?_append_left hj]; exact hx

theorem moveSlot_inv {src dst : Nat} {v w : Vm} {f : Frame} (hf : v.stack[src]? = some (some f)) (hne : src ≠ dst)
    (h : moveSlot src dst v = (.ok (), w)) :
    w.stack[dst]? = some (some f) ∧ ∀ j x, j ≠ src → j ≠ dst → v.stack[j]? = some x → w.stack[j]? = some x := by
  unfold moveSlot at h
  obtain ⟨f', u, k1, h⟩ := M.bind_inv h
  unfold stackGet at k1
  split at k1
  · cases k1
  · rw [hf] at k1
    cases k1
    rw [if_neg hne] at h
    obtain ⟨_, u, k2, h⟩ := M.bind_inv h
    unfold stackPut at k2
    split at k2
    · cases k2
    · cases k2
      unfold stackPut at h
      split at h
      · cases h
      · cases h
        exact ⟨putSlot_other (Ne.symm hne) (putSlot_self _ _ _), fun j x h1 h2 hx => putSlot_other h1 (putSlot_other h2 hx)⟩

/-- Moving arguments by at least their number keeps them. -/
theorem moves_keep {base size n : Nat} {args : List Frame} (hn : args.length = n) (hsz : n ≤ size) (k : Nat) : ∀ (j : Nat) {v w : Vm},
    j + k = n → (∀ i (hi : i < args.length), j ≤ i → v.stack[base + i]? = some (some args[i])) →
    (∀ i (hi : i < args.length), i < j → v.stack[base + size + i]? = some (some args[i])) →
    forM_ (fun i => moveSlot (base + i) (base + size + i)) (List.range' j k) v = (.ok (), w) →
    ∀ i (hi : i < args.length), w.stack[base + size + i]? = some (some args[i]) := by
  induction k with
  | zero =>
    intro j v w hj h1 h2 h i hi
    cases h
    exact h2 i hi (by omega)
  | succ k ih =>
    intro j v w hj h1 h2 h
    rw [List.range'_succ] at h
    obtain ⟨_, u, h3, h4⟩ := M.bind_inv
      (show (moveSlot (base + j) (base + size + j) >>= fun _ =>
        forM_ (fun i => moveSlot (base + i) (base + size + i)) (List.range' (j + 1) k)) v = _ from h)
    obtain ⟨k1, k2⟩ := moveSlot_inv (h1 j (by omega) (Nat.le_refl _)) (by omega) h3
    refine ih (j + 1) (by omega) ?_ ?_ h4
    · intro i hi hji
      exact k2 _ _ (by omega) (by omega) (h1 i hi (by omega))
    · intro i hi hij
      by_cases he : i = j
      · subst he; exact k1
      · exact k2 _ _ (by omega) (by omega) (h2 i hi (by omega))

theorem moves_none {base : Nat} : ∀ (is : List Nat) {v w : Vm},
    forM_ (fun i => moveSlot (base + i) (base + 0 + i)) is v = (.ok (), w) → w = v := by
  intro is
  induction is with
  | nil => intro v w h; cases h; rfl
  | cons i is ih =>
    intro v w h
    obtain ⟨_, u, h3, h4⟩ := M.bind_inv
      (show (moveSlot (base + i) (base + 0 + i) >>= fun _ => forM_ (fun i => moveSlot (base + i) (base + 0 + i)) is) v = _ from h)
    have : u = v := by
      unfold moveSlot at h3
      obtain ⟨f', u', k1, h3⟩ := M.bind_inv h3
      unfold stackGet at k1
      split at k1
      · cases k1
      · split at k1
        · cases k1
          rw [if_pos (by omega)] at h3
          cases h3
          rfl
        · cases k1
    subst this
    exact ih h4

/-- Saving writes only as many slots as there are items. -/
theorem push_above {v w : Vm} {f : Frame} {j : Nat} {x : Option Frame} (h : push f v = (.ok (), w)) (hj : v.sp.toNat < j)
    (hx : v.stack[j]? = some x) : w.stack[j]? = some x ∧ w.sp.toNat ≤ v.sp.toNat + 1 := by
  unfold push at h
  rw [M.get_bind] at h
  split at h
  · cases h
  · obtain ⟨_, u, h1, h⟩ := M.bind_inv h
    unfold stackPut at h1
    split at h1
    · cases h1
    · cases h1
      cases h
      refine ⟨putSlot_other (by omega) hx, ?_⟩
      show (v.sp + 1).toNat ≤ _
      rw [BitVec.toNat_add]
      exact Nat.mod_le _ _

theorem quiet_inv {α} {p : M α} (hq : Quiet p) {v w : Vm} {a : α} (h : p v = (.ok a, w)) : w.stack = v.stack ∧ w.sp = v.sp := by
  have := hq v
  rw [h] at this
  exact this

theorem saveItem_above {it : Item} {v w : Vm} {j : Nat} {x : Option Frame} (h : saveItem it v = (.ok (), w)) (hj : v.sp.toNat < j)
    (hx : v.stack[j]? = some x) : w.stack[j]? = some x ∧ w.sp.toNat ≤ v.sp.toNat + 1 := by
  obtain ⟨y, u, h1, h2⟩ := M.bind_inv (show (it.read >>= fun x => x.push) v = _ from h)
  have hro := it.read_only v
  rw [h1] at hro
  have hu : u = v := congrArg Prod.snd hro
  subst u
  match y, h2 with
  | .inst p, h2 => exact push_above h2 hj hx
  | .cell (.int c), h2 => exact push_above h2 hj hx
  | .cell (.float c), h2 => exact push_above h2 hj hx
  | .cell (.str s), h2 =>
    obtain ⟨i, u1, g1, h2⟩ := M.bind_inv (show (getFreeString >>= fun i => _) v = _ from h2)
    rw [M.get_bind] at h2
    obtain ⟨_, u2, g2, h2⟩ := M.bind_inv h2
    unfold pushRef at h2
    rw [M.get_bind] at h2
    obtain ⟨a1, a2⟩ := quiet_inv Quiet.getFreeString g1
    obtain ⟨b1, b2⟩ := quiet_inv (Quiet.symSetString _ _ _ _) g2
    have := push_above h2 (j := j) (x := x) (by rw [b2, a2]; exact hj) (by rw [b1, a1]; exact hx)
    rw [b2, a2] at this
    exact this

theorem save_above (its : List Item) : ∀ {v w : Vm} {j : Nat} {x : Option Frame}, forM_ saveItem its v = (.ok (), w) →
    v.sp.toNat + its.length ≤ j → v.stack[j]? = some x → w.stack[j]? = some x := by
  induction its with
  | nil => intro v w j x h _ hx; cases h; exact hx
  | cons it its ih =>
    intro v w j x h hj hx
    rw [List.length_cons] at hj
    obtain ⟨_, u, h1, h2⟩ := M.bind_inv (show (saveItem it >>= fun _ => forM_ saveItem its) v = _ from h)
    obtain ⟨k1, k2⟩ := saveItem_above h1 (by omega) hx
    exact ih h2 (by omega) k1

/-- The number of slots the locals of a function need. -/
theorem itemsOf_length (v : Vm) (l : Nat) :
    (itemsOf v l).length = match v.syms[l]? with | some s => localSlots s | none => 0 := by
  unfold itemsOf
  cases v.syms[l]? with
  | none => rfl
  | some s =>
    dsimp only
    unfold localSlots
    generalize s.type = ty
    cases ty <;> simp [elemsOf]

theorem items_length (v : Vm) (ls : List Nat) :
    (ls.flatMap (itemsOf v)).length = (ls.map fun i => match v.syms[i]? with | some s => localSlots s | none => 0).sum := by
  rw [List.length_flatMap]
  congr 1
  exact List.map_congr_left fun l _ => itemsOf_length v l

/-- What `push_local_variables` does to the arguments. -/
theorem pushLocals_args {y : Nat} {v w : Vm} {f t : Sym} {a : List Bytes} {live : List (Nat × Bytes)} {fs args : List Frame}
    (hf : v.syms[y]? = some f) (hrec : activations v y ≠ 0) (hs : Stk v (fs ++ args)) (ha : args.length = f.count.toNat)
    (ht : TmpOk v t a live) (hb : live.length + stringSlots v (localsOf v f) ≤ 243)
    (hl : ∀ l ∈ localsOf v f, l ≠ v.tmp ∧ ∃ s, v.syms[l]? = some s)
    (hsz : ((localsOf v f).flatMap (itemsOf v)).length = 0 ∨ args.length ≤ ((localsOf v f).flatMap (itemsOf v)).length)
    (h : pushLocals y v = (.ok (), w)) :
    ∃ frs, frs.length = ((localsOf v f).flatMap (itemsOf v)).length ∧ Stk w (fs ++ frs ++ args) := by
  obtain ⟨frs, t', a', live', w0, hsv, hstk, -, hw, -⟩ := pushLocals_inv hf hrec hs ha ht hb hl h
  refine ⟨frs, hsv.length, ?_⟩
  have hflen := hsv.length
  have hss : stackSize = 2048 := rfl
  have hle := hstk.2.1
  have hsp0 := hstk.1
  have hle0 := hs.2.1
  simp only [List.length_append] at hle hsp0 hle0
  -- the arguments in the state after the move
  unfold pushLocals at h
  rw [M.get_bind, if_neg hrec, M.bind_ok (symAt_some hf)] at h
  obtain ⟨ps, u, h1, h⟩ := M.bind_inv h
  obtain ⟨hu, hps⟩ := params_inv h1
  subst u
  dsimp only at h
  generalize hS : List.sum (α := Nat) (List.map _ (localsOf v f)) = S at h
  have hS' : S = ((localsOf v f).flatMap (itemsOf v)).length := by rw [← hS]; exact (items_length v _).symm
  clear hS
  subst hS'
  rw [Nat.mod_eq_of_lt (show ((localsOf v f).flatMap (itemsOf v)).length < 2 ^ 32 by omega)] at h
  split at h
  · cases h
  rename_i hsize
  split at h
  · cases h
  have hlen : v.sp.toNat = fs.length + args.length := by have := hs.1; simpa using this
  have hbase : v.sp.toNat - ps.length = fs.length := by omega
  rw [hbase] at h
  rw [hlen, Nat.mod_eq_of_lt (by omega)] at hsize
  obtain ⟨_, u0, k0, h⟩ := M.bind_inv h
  have hu0 : u0 = ({ v with sp := BitVec.ofNat 16 fs.length } : Vm) := by cases k0; rfl
  subst u0
  obtain ⟨_, u1, h2, h⟩ := M.bind_inv h
  have hab := moves_above _ h2
  obtain ⟨_, u2, h3, h⟩ := M.bind_inv h
  rw [M.get_bind] at h
  have hsyms1 : u1.syms = v.syms := by rw [hab.rest]
  have htmp1 : u1.tmp = v.tmp := by rw [hab.rest]
  have hsp1 : u1.sp.toNat = fs.length := by
    rw [hab.rest]
    show (BitVec.ofNat 16 fs.length).toNat = _
    rw [BitVec.toNat_ofNat]
    exact Nat.mod_eq_of_lt (by omega)
  have hfun : itemsOf u1 = itemsOf v := funext fun l => by unfold itemsOf; rw [hsyms1]
  rw [saveAll_eq _ _ (fun l hl' => by rw [hsyms1, htmp1]; exact hl l hl'), hfun] at h3
  have hwu : w.stack = u2.stack := by cases h; rfl
  generalize hsizeq : ((localsOf v f).flatMap (itemsOf v)).length = size at *
  have hargs0 : ∀ i (hi : i < args.length), v.stack[fs.length + i]? = some (some args[i]) := by
    intro i hi
    have := hs.get (fs.length + i) (by simp; exact hi)
    rw [this]
    simp
  have hargs1 : ∀ i (hi : i < args.length), u1.stack[fs.length + size + i]? = some (some args[i]) := by
    rcases hsz with hz | hz
    · subst hz
      rw [moves_none _ h2]
      exact hargs0
    · rw [List.range_eq_range'] at h2
      exact moves_keep (n := ps.length) (by omega) (by omega) ps.length 0 (v := { v with sp := BitVec.ofNat 16 fs.length }) (by omega) (fun i hi _ => hargs0 i hi)
        (fun i _ h => absurd h (by omega)) h2
  have hargs2 : ∀ i (hi : i < args.length), u2.stack[fs.length + size + i]? = some (some args[i]) := by
    intro i hi
    exact save_above _ h3 (by rw [hsp1, hsizeq]; omega) (hargs1 i hi)
  have hw0 : w.stack = w0.stack := by rw [hw]
  refine ⟨?_, by simp; omega, ?_⟩
  · rw [hw]
    show (w0.sp + f.count.setWidth 16).toNat = _
    rw [BitVec.toNat_add, BitVec.toNat_setWidth, hsp0, Nat.mod_eq_of_lt (show f.count.toNat < 2 ^ 16 by omega),
      Nat.mod_eq_of_lt (by omega)]
    simp
    omega
  · apply List.ext_getElem?
    intro j
    rw [List.getElem?_take]
    split
    · rename_i hj
      by_cases hj' : j < (fs ++ frs).length
      · rw [hw0, hstk.get j hj', List.getElem?_map, List.getElem?_append_left hj', List.getElem?_eq_getElem hj']
        rfl
      · rw [List.length_append] at hj'
        rw [List.length_append, List.length_append] at hj
        have hk := hargs2 (j - (fs.length + size)) (by omega)
        rw [hwu]
        have hje : fs.length + size + (j - (fs.length + size)) = j := by omega
        rw [hje] at hk
        rw [hk, List.getElem?_map, List.getElem?_append_right (by rw [List.length_append]; omega)]
        have : j - (fs ++ frs).length = j - (fs.length + size) := by rw [List.length_append]; omega
        rw [this, List.getElem?_eq_getElem (by omega)]
        rfl
    · rename_i hj
      rw [List.getElem?_eq_none (by rw [List.length_map]; omega)]

end Verif.Daedalus
