import Verif.Spec.DaedalusMemory
import Verif.Lemmas.DaedalusLocals
import Verif.Lemmas.DaedalusArgs
import Verif.Lemmas.DaedalusConst
import Verif.Lemmas.DaedalusEff

/-!
# Lemmas about the memory of the machine (C100): simple operations
-/

namespace Verif.Daedalus

open Verif.Spec.Daedalus

/-- Slots of the stack that were written stay so, and instances stay. -/
structure Up (v w : Vm) : Prop where
  slots : ∀ (i : Nat) (f : Frame), v.stack[i]? = some (some f) → ∃ g, w.stack[i]? = some (some g)
  heap : v.heap.length ≤ w.heap.length

theorem Up.refl (v : Vm) : Up v v := ⟨fun _ f h => ⟨f, h⟩, Nat.le_refl _⟩
theorem Up.trans {a b c : Vm} (h : Up a b) (k : Up b c) : Up a c := ⟨fun i f hf => by
  obtain ⟨g, hg⟩ := h.slots i f hf
  exact k.slots i g hg, Nat.le_trans h.heap k.heap⟩

theorem Up.written {v w : Vm} (h : Up v w) {n : Nat} (hn : Written v n) : Written w n := fun i hi => by
  obtain ⟨f, hf⟩ := hn i hi
  exact h.slots i f hf

/-- An operation that leaves the memory in order. -/
def TmAt {α} (v : Vm) (Q : α → Vm → Prop) (p : M α) : Prop :=
  match p v with
  | (.ok a, w) => Tidy w ∧ Keeps v w ∧ Up v w ∧ Q a w
  | (.error .ub, w) => Full w
  | (.error _, w) => Tidy w ∧ Keeps v w ∧ Up v w

theorem TmAt.bind {α β} {v : Vm} {p : M α} {f : α → M β} {Q : α → Vm → Prop} {R : β → Vm → Prop} (hp : TmAt v Q p)
    (hf : ∀ a w, p v = (.ok a, w) → Tidy w → Keeps v w → Up v w → Q a w → TmAt w R (f a)) : TmAt v R (p >>= f) := by
  unfold TmAt at hp ⊢
  rw [M.bind_def]
  match h : p v with
  | (.ok a, w) =>
    rw [h] at hp
    obtain ⟨h1, h2, h3, h4⟩ := hp
    have := hf a w h h1 h2 h3 h4
    unfold TmAt at this
    dsimp only
    match h' : f a w with
    | (.ok b, u) =>
      rw [h'] at this
      exact ⟨this.1, h2.trans this.2.1, h3.trans this.2.2.1, this.2.2.2⟩
    | (.error .ub, u) => rw [h'] at this; exact this
    | (.error (.throw e), u) => rw [h'] at this; exact ⟨this.1, h2.trans this.2.1, h3.trans this.2.2⟩
    | (.error .terminate, u) => rw [h'] at this; exact ⟨this.1, h2.trans this.2.1, h3.trans this.2.2⟩
    | (.error .hang, u) => rw [h'] at this; exact ⟨this.1, h2.trans this.2.1, h3.trans this.2.2⟩
  | (.error .ub, w) => rw [h] at hp; exact hp
  | (.error (.throw e), w) => rw [h] at hp; exact hp
  | (.error .terminate, w) => rw [h] at hp; exact hp
  | (.error .hang, w) => rw [h] at hp; exact hp

theorem TmAt.mono {α} {v : Vm} {p : M α} {Q R : α → Vm → Prop} (hp : TmAt v Q p)
    (h : ∀ a w, p v = (.ok a, w) → Tidy w → Keeps v w → Up v w → Q a w → R a w) : TmAt v R p := by
  unfold TmAt at hp ⊢
  match h' : p v with
  | (.ok b, u) =>
    rw [h'] at hp
    exact ⟨hp.1, hp.2.1, hp.2.2.1, h b u h' hp.1 hp.2.1 hp.2.2.1 hp.2.2.2⟩
  | (.error .ub, w) => rw [h'] at hp; exact hp
  | (.error (.throw e), w) => rw [h'] at hp; exact hp
  | (.error .terminate, w) => rw [h'] at hp; exact hp
  | (.error .hang, w) => rw [h'] at hp; exact hp

theorem TmAt.pure {α} {v : Vm} (hs : Tidy v) {a : α} {Q : α → Vm → Prop} (h : Q a v) : TmAt v Q (Pure.pure a : M α) :=
  ⟨hs, Keeps.refl v, Up.refl v, h⟩

theorem TmAt.throw {α} {v : Vm} (hs : Tidy v) (e : Exc) {Q : α → Vm → Prop} : TmAt v Q (M.throw e : M α) :=
  ⟨hs, Keeps.refl v, Up.refl v⟩

theorem TmAt.get {v : Vm} (hs : Tidy v) : TmAt v (fun a w => a = v ∧ w = v) M.get := ⟨hs, Keeps.refl v, Up.refl v, rfl, rfl⟩

theorem TmAt.get_bind {β} {v : Vm} {f : Vm → M β} {R : β → Vm → Prop} (h : TmAt v R (f v)) : TmAt v R (M.get >>= f) := h

theorem TmAt.lift {α} {v : Vm} (hs : Tidy v) {r : Except Fail α} (h : r ≠ .error .ub) :
    TmAt v (fun a w => r = .ok a ∧ w = v) (M.lift r) := by
  unfold TmAt
  rw [M.lift_def]
  match r, h with
  | .ok a, _ => exact ⟨hs, Keeps.refl v, Up.refl v, rfl, rfl⟩
  | .error .ub, h => exact absurd rfl h
  | .error (.throw e), _ => exact ⟨hs, Keeps.refl v, Up.refl v⟩
  | .error .terminate, _ => exact ⟨hs, Keeps.refl v, Up.refl v⟩
  | .error .hang, _ => exact ⟨hs, Keeps.refl v, Up.refl v⟩

theorem TmAt.symAt {v : Vm} (hs : Tidy v) {y : Nat} (h : y < v.syms.length) :
    TmAt v (fun s w => v.syms[y]? = some s ∧ w = v) (symAt y) := by
  have : v.syms[y]? = some v.syms[y] := List.getElem?_eq_getElem h
  unfold TmAt
  rw [symAt_some this]
  exact ⟨hs, Keeps.refl v, Up.refl v, this, rfl⟩

theorem TmAt.symAt_bind {β} {v : Vm} {y : Nat} {s : Sym} (h : v.syms[y]? = some s) {f : Sym → M β} {R : β → Vm → Prop}
    (hf : TmAt v R (f s)) : TmAt v R (Daedalus.symAt y >>= f) := by
  unfold TmAt at hf ⊢
  rw [M.bind_ok (symAt_some h)]
  exact hf

/-! ## The stack -/

theorem putSlot_inv {st : List (Option Frame)} {i j : Nat} {f g : Frame} (h : (putSlot st i f)[j]? = some (some g)) :
    j = i ∧ g = f ∨ st[j]? = some (some g) := by
  unfold putSlot at h
  split at h
  · rename_i hi
    by_cases hj : i = j
    · subst hj
      rw [List.getElem?_set_self hi] at h
      exact .inl ⟨rfl, (Option.some.inj (Option.some.inj h)).symm⟩
    · rw [List.getElem?_set_ne hj] at h
      exact .inr h
  · rename_i hi
    rw [List.append_assoc] at h
    by_cases hj : j < st.length
    · rw [List.getElem?_append_left hj] at h
      exact .inr h
    · rw [List.getElem?_append_right (by omega)] at h
      by_cases hk : j - st.length < i - st.length
      · rw [List.getElem?_append_left (by rw [List.length_replicate]; exact hk), List.getElem?_replicate, if_pos hk] at h
        cases h
      · rw [List.getElem?_append_right (by rw [List.length_replicate]; omega), List.length_replicate] at h
        have hz : j - st.length - (i - st.length) = 0 := by
          match hz : j - st.length - (i - st.length), h with
          | 0, _ => rfl
          | n + 1, h => cases h
        rw [hz] at h
        exact .inl ⟨by omega, (Option.some.inj (Option.some.inj h)).symm⟩

theorem putSlot_up {st : List (Option Frame)} (i : Nat) (f : Frame) {j : Nat} {g : Frame} (h : st[j]? = some (some g)) :
    ∃ g, (putSlot st i f)[j]? = some (some g) := by
  by_cases hj : j = i
  · subst hj; exact ⟨f, putSlot_self _ _ _⟩
  · exact ⟨g, putSlot_other hj h⟩

/-- A different stack. -/
theorem _root_.Verif.Spec.Daedalus.Tidy.withStack {v : Vm} (hs : Tidy v) {st : List (Option Frame)} {sp : BitVec 16} (hd : sp.toNat ≤ 2048)
    (hw : ∀ i < sp.toNat, ∃ f, st[i]? = some (some f))
    (hf : ∀ (i : Nat) (f : Frame), st[i]? = some (some f) → GoodFrame v f) : Tidy { v with stack := st, sp := sp } :=
  ⟨hs.stored, hs.temp, hs.objects, hs.held, hd, hw, fun i f h => ⟨(hf i f h).ref, (hf i f h).inst⟩⟩

theorem _root_.Verif.Spec.Daedalus.Tidy.withFree {v : Vm} (hs : Tidy v) (fr : List (BitVec 32)) : Tidy { v with free := fr } :=
  ⟨hs.stored, hs.temp, hs.objects, hs.held, hs.depth, hs.written, fun i f h => ⟨(hs.frames i f h).ref, (hs.frames i f h).inst⟩⟩

theorem _root_.Verif.Spec.Daedalus.Tidy.putSlot {v : Vm} (hs : Tidy v) (i : Nat) {f : Frame} (hf : GoodFrame v f) :
    Tidy { v with stack := putSlot v.stack i f } := by
  refine hs.withStack (sp := v.sp) hs.depth (fun j hj => ?_) fun j g hg => ?_
  · obtain ⟨g, hg⟩ := hs.written j hj
    exact putSlot_up i f hg
  · rcases putSlot_inv hg with ⟨-, rfl⟩ | h
    · exact hf
    · exact hs.frames j g h

theorem TmAt.stackPut {v : Vm} (hs : Tidy v) {i : Nat} (hi : i < 2048) {f : Frame} (hf : GoodFrame v f) :
    TmAt v (fun _ w => w = { v with stack := putSlot v.stack i f }) (stackPut i f) := by
  unfold TmAt Daedalus.stackPut
  rw [if_neg (by unfold stackSize; omega)]
  exact ⟨hs.putSlot i hf, Keeps.stack v _ v.sp, ⟨fun j g hg => putSlot_up i f hg, Nat.le_refl _⟩, rfl⟩

theorem TmAt.stackGet {v : Vm} (hs : Tidy v) {i : Nat} (hi : i < 2048) {f : Frame} (h : v.stack[i]? = some (some f)) :
    TmAt v (fun a w => a = f ∧ w = v) (stackGet i) := by
  unfold TmAt Daedalus.stackGet
  rw [if_neg (by unfold stackSize; omega), h]
  exact ⟨hs, Keeps.refl v, Up.refl v, rfl, rfl⟩

theorem TmAt.setSp {v : Vm} (hs : Tidy v) {sp : BitVec 16} (h : sp.toNat ≤ 2048) (hw : Written v sp.toNat) :
    TmAt v (fun _ w => w = { v with sp := sp }) (setSp sp) :=
  ⟨hs.withStack h hw hs.frames, Keeps.stack v _ _, ⟨fun _ f h => ⟨f, h⟩, Nat.le_refl _⟩, rfl⟩

theorem sp_succ {x : BitVec 16} (h : x.toNat < 2048) : (x + 1).toNat = x.toNat + 1 := by
  rw [BitVec.toNat_add]
  show (x.toNat + 1) % 65536 = _
  omega

theorem sp_pred {x : BitVec 16} (h : x ≠ 0) : (x - 1).toNat = x.toNat - 1 ∧ 0 < x.toNat := by
  have hx : x.toNat ≠ 0 := fun h0 => h (BitVec.eq_of_toNat_eq h0)
  refine ⟨?_, by omega⟩
  rw [BitVec.toNat_sub]
  show (65536 - 1 + x.toNat) % 65536 = _
  have := x.isLt
  omega

theorem TmAt.push {v : Vm} (hs : Tidy v) {f : Frame} (hf : GoodFrame v f) :
    TmAt v (fun _ w => w.sp.toNat = v.sp.toNat + 1) (push f) := by
  unfold Daedalus.push
  refine TmAt.get_bind ?_
  split
  · exact TmAt.throw hs _
  · rename_i hne
    have hlt : v.sp.toNat < 2048 := by
      have h1 := hs.depth
      rcases Nat.lt_or_ge v.sp.toNat 2048 with h | h
      · exact h
      · exact absurd (BitVec.eq_of_toNat_eq (show v.sp.toNat = 2048 by omega)) hne
    refine (TmAt.stackPut hs hlt hf).bind fun _ w _ hsw _ _ hw => ?_
    subst hw
    refine (TmAt.setSp hsw (sp := v.sp + 1) (by rw [sp_succ hlt]; omega) ?_).mono fun _ u _ _ _ _ hu => ?_
    · intro i hi
      rw [sp_succ hlt] at hi
      show ∃ g, (putSlot v.stack v.sp.toNat f)[i]? = some (some g)
      by_cases h : i = v.sp.toNat
      · subst h; exact ⟨f, putSlot_self _ _ _⟩
      · obtain ⟨g, hg⟩ := hs.written i (by omega)
        exact putSlot_up _ _ hg
    · subst hu; exact sp_succ hlt

theorem _root_.Verif.Spec.Daedalus.GoodFrame.moved {v : Vm} {f : Frame} (h : GoodFrame v f) : GoodFrame v f.moved := by
  refine ⟨fun y i p he => ?_, fun a he => ?_⟩
  · cases f <;> cases he
    exact h.ref y i _ rfl
  · cases f <;> cases he

theorem TmAt.take {v : Vm} (hs : Tidy v) (hsp : v.sp ≠ 0) :
    TmAt v (fun f w => GoodFrame w f ∧ v.sp.toNat = w.sp.toNat + 1) take := by
  obtain ⟨h1, h2⟩ := sp_pred hsp
  have hd := hs.depth
  unfold Daedalus.take
  refine TmAt.get_bind ?_
  obtain ⟨f, hf⟩ := hs.written (v.sp.toNat - 1) (by omega)
  refine (TmAt.setSp hs (sp := v.sp - 1) (by rw [h1]; omega) (fun i hi => hs.written i (by rw [h1] at hi; omega))).bind
    fun _ w _ hsw _ _ hw => ?_
  subst hw
  have hf' : ({ v with sp := v.sp - 1 } : Vm).stack[(v.sp - 1).toNat]? = some (some f) := by rw [h1]; exact hf
  refine (TmAt.stackGet hsw (by rw [h1]; omega) hf').bind fun g w _ hsw _ _ hw => ?_
  obtain ⟨rfl, rfl⟩ := hw
  have hg : GoodFrame { v with sp := v.sp - 1 } g := hsw.frames _ _ hf'
  refine (TmAt.stackPut hsw (by rw [h1]; omega) hg.moved).bind fun _ u _ hsu _ _ hu => ?_
  subst hu
  refine TmAt.pure hsu ⟨⟨hg.ref, hg.inst⟩, ?_⟩
  show v.sp.toNat = (v.sp - 1).toNat + 1
  omega

/-! ## Symbols -/

theorem dims_none {a : SymVal} : a.dims = (0, 0) ↔ a = .ints none := by
  cases a with
  | ints o => cases o <;> simp [SymVal.dims]
  | floats a => simp [SymVal.dims]
  | strs a => simp [SymVal.dims]
  | inst p => simp [SymVal.dims]

theorem shape_member {s t : Sym} (h : s.shape = t.shape) : s.isMember = t.isMember := by unfold Sym.isMember; rw [shape_flags h]
theorem shape_registered {s t : Sym} (h : s.shape = t.shape) : s.registeredTo = t.registeredTo := by
  have := congrArg Sym.registeredTo h; exact this
theorem shape_offset {s t : Sym} (h : s.shape = t.shape) : s.memberOffset = t.memberOffset := by
  have := congrArg Sym.memberOffset h; exact this

theorem _root_.Verif.Spec.Daedalus.Hollow.extent {s t : Sym} (h : s.shape = t.shape) (he : s.extent = t.extent) (hs : Hollow s) : Hollow t := by
  obtain ⟨h1, h2, h3, h4⟩ := hs
  refine ⟨by rw [← shape_type h]; exact h1, by rw [← shape_member h]; exact h2, ?_, by rw [← extent_count he]; exact h4⟩
  rw [← dims_none, ← extent_dims he, h3]
  rfl

/-- Symbols that hold what they claim to hold still do after changes of values. -/
theorem notHollow_same {v w : Vm} (hs : Tidy v) (h : Same v w) {y : Nat} (hy : ∃ s, v.syms[y]? = some s ∧ ¬ Hollow s) :
    ∃ s, w.syms[y]? = some s ∧ ¬ Hollow s := by
  obtain ⟨s, h1, h2⟩ := hy
  obtain ⟨t, k1, k2, k3⟩ := h.decl y s h1
  refine ⟨t, k1, fun ht => ?_⟩
  by_cases hy : y = v.tmp
  · subst hy
    obtain ⟨s', a, e1, e2, -⟩ := hs.temp
    rw [h1] at e1
    obtain rfl := Option.some.inj e1
    obtain ⟨h3, -⟩ := ht
    rw [shape_type k2, e2] at h3
    rcases h3 with h3 | h3 <;> cases h3
  · exact h2 (ht.extent k2 (k3 hy))

/-- Replacing a symbol. -/
theorem _root_.Verif.Spec.Daedalus.Tidy.store {v : Vm} (hs : Tidy v) {y : Nat} {s s' : Sym} (hy : v.syms[y]? = some s) (hsh : s'.shape = s.shape)
    (hst : Stored s') (hh : Hollow s' → Hollow s) (hm : s.isMember = true → s'.count = s.count)
    (ht : y = v.tmp → ∃ a, s'.value = .strs a ∧ s'.count ≠ 0) (hp : ∀ a, s'.value = .inst (some a) → a < v.heap.length) :
    Tidy { v with syms := v.syms.set y s' } := by
  have hlt : y < v.syms.length := (List.getElem?_eq_some_iff.mp hy).1
  have look : ∀ (z : Nat) (t : Sym), (v.syms.set y s')[z]? = some t → z = y ∧ t = s' ∨ z ≠ y ∧ v.syms[z]? = some t := by
    intro z t h
    by_cases hz : y = z
    · subst hz
      rw [List.getElem?_set_self hlt] at h
      exact .inl ⟨rfl, (Option.some.inj h).symm⟩
    · rw [List.getElem?_set_ne hz] at h
      exact .inr ⟨Ne.symm hz, h⟩
  refine ⟨?_, ?_, ?_, ?_, hs.depth, hs.written, ?_⟩
  · intro z t h
    rcases look z t h with ⟨-, rfl⟩ | ⟨-, h⟩
    · exact hst
    · exact hs.stored z t h
  · obtain ⟨t, a, h1, h2, h3, h4, h5⟩ := hs.temp
    by_cases hz : y = v.tmp
    · subst hz
      rw [hy] at h1
      obtain rfl := Option.some.inj h1
      obtain ⟨b, k1, k2⟩ := ht rfl
      exact ⟨s', b, List.getElem?_set_self hlt, by rw [shape_type hsh]; exact h2, by rw [shape_member hsh]; exact h3, k1, k2⟩
    · exact ⟨t, a, by show (v.syms.set y s')[v.tmp]? = _; rw [List.getElem?_set_ne hz]; exact h1, h2, h3, h4, h5⟩
  · intro a n hn
    obtain ⟨h1, h2⟩ := hs.objects a n hn
    refine ⟨h1, fun z t h hmem hreg => ?_⟩
    rcases look z t h with ⟨-, rfl⟩ | ⟨-, h⟩
    · have hmem' : s.isMember = true := by rw [← shape_member hsh]; exact hmem
      have := h2 y s hy hmem' (by rw [← shape_registered hsh]; exact hreg)
      intro k hk hk'
      rw [hm hmem'] at hk
      have := this k hk hk'
      rw [shape_type hsh, shape_offset hsh]
      exact this
    · exact h2 z t h hmem hreg
  · intro z t a h hv
    rcases look z t h with ⟨-, rfl⟩ | ⟨-, h⟩
    · exact hp a hv
    · exact hs.held z t a h hv
  · intro i f hf
    refine ⟨fun z k p he => ?_, (hs.frames i f hf).inst⟩
    obtain ⟨t, k1, k2⟩ := (hs.frames i f hf).ref z k p he
    by_cases hz : y = z
    · subst hz
      rw [hy] at k1
      obtain rfl := Option.some.inj k1
      exact ⟨s', List.getElem?_set_self hlt, fun h => k2 (hh h)⟩
    · exact ⟨t, by show (v.syms.set y s')[z]? = _; rw [List.getElem?_set_ne hz]; exact k1, k2⟩

/-- Kinds of objects. -/
def Cell.kind : Cell → Nat
  | .int _ => 0
  | .float _ => 1
  | .str _ => 2

theorem _root_.Verif.Spec.Daedalus.HasMember.setCell {n : Inst} {s : Sym} (h : HasMember n s) {off : Nat} {c d : Cell} (hc : cellAt n.cells off = some c)
    (hk : d.kind = c.kind) : HasMember { n with cells := setCell n.cells off d } s := by
  intro k h1 h2
  have := h k h1 h2
  have key : ∀ o, cellAt (Daedalus.setCell n.cells off d) o = if o = off then some d else cellAt n.cells o := by
    intro o
    split
    · rename_i e; subst e; exact cellAt_set_self hc
    · rename_i e; exact cellAt_set_ne d (Ne.symm e)
  dsimp only
  simp only [key]
  cases ht : s.type <;> rw [ht] at this <;> dsimp only at this ⊢
  all_goals try trivial
  all_goals
    obtain ⟨x, hx⟩ := this
    split
    · rename_i e
      rw [e, hc] at hx
      obtain rfl := Option.some.inj hx
      cases d <;> first | cases hk; done | exact ⟨_, rfl⟩
    · exact ⟨x, hx⟩

/-- Replacing an instance. -/
theorem _root_.Verif.Spec.Daedalus.Tidy.heapSet {v : Vm} (hs : Tidy v) {a : Nat} {n : Inst} (hn : v.heap[a]? = some n) {off : Nat} {c d : Cell}
    (hc : cellAt n.cells off = some c) (hk : d.kind = c.kind) :
    Tidy { v with heap := v.heap.set a { n with cells := setCell n.cells off d } } := by
  have hlen : (v.heap.set a { n with cells := Daedalus.setCell n.cells off d }).length = v.heap.length := List.length_set
  refine ⟨hs.stored, hs.temp, ?_, fun y s b h hv => hlen ▸ hs.held y s b h hv, hs.depth, hs.written,
    fun i f h => ⟨(hs.frames i f h).ref, fun b hb => hlen ▸ (hs.frames i f h).inst b hb⟩⟩
  intro b m hm
  have hlt : a < v.heap.length := (List.getElem?_eq_some_iff.mp hn).1
  replace hm : (v.heap.set a { n with cells := setCell n.cells off d })[b]? = some m := hm
  by_cases hb : a = b
  · subst hb
    rw [List.getElem?_set_self hlt] at hm
    obtain rfl := Option.some.inj hm
    obtain ⟨h1, h2⟩ := hs.objects a n hn
    exact ⟨h1, fun y s hy hmem hreg => (h2 y s hy hmem hreg).setCell hc hk⟩
  · rw [List.getElem?_set_ne hb] at hm
    exact hs.objects b m hm

/-- An instance that a symbol can be read from. -/
def CtxOk (s : Sym) (i : Nat) (ctx : Option Inst) : Prop :=
  ∀ n, ctx = some n → i < 256 ∧ n.type.isSome ∧ (s.isMember = true → s.registeredTo = n.type → HasMember n s)

theorem _root_.Verif.Spec.Daedalus.Tidy.ctxOk {v : Vm} (hs : Tidy v) {y : Nat} {s : Sym} (hy : v.syms[y]? = some s) {i : Nat} {p : Option Nat}
    (hi : p = none ∨ i < 256) : CtxOk s i (instAt v p) := by
  intro n hn
  unfold instAt at hn
  match p, hi, hn with
  | some a, hi, hn =>
    obtain ⟨h1, h2⟩ := hs.objects a n hn
    exact ⟨hi.resolve_left (by simp), h1, h2 y s hy⟩
  | none, _, hn => cases hn

theorem memberOff_ok {s : Sym} {i sz : Nat} {n : Inst} (h : n.type.isSome) :
    s.memberOff i sz n ≠ .error .ub ∧ ∀ off, s.memberOff i sz n = .ok off →
      s.registeredTo = n.type ∧ off = (s.memberOffset + BitVec.ofNat 32 (i * sz)).toNat := by
  unfold Sym.memberOff
  match hr : s.registeredTo, ht : n.type, h with
  | none, _, _ => exact ⟨by simp, by simp⟩
  | some r, some t, _ =>
    dsimp only
    by_cases e : r = t
    · rw [if_neg (by simpa using e)]
      exact ⟨by simp, fun off ho => by cases ho; exact ⟨by rw [e], rfl⟩⟩
    · rw [if_pos e]
      exact ⟨by simp, by simp⟩

theorem none_mem {α} {a : List (Option α)} {i : Nat} (h : none ∉ a) (hi : i < a.length) : ∃ x, a[i]? = some (some x) := by
  match hx : a[i] with
  | some x => exact ⟨x, by rw [List.getElem?_eq_getElem hi, hx]⟩
  | none => exact absurd (hx ▸ List.getElem_mem hi) h

theorem getInt_safe {s : Sym} {i : Nat} {ctx : Option Inst} (hst : Stored s) (hh : ¬ Hollow s) (hc : CtxOk s i ctx) :
    s.getInt i ctx ≠ .error .ub := by
  unfold Sym.getInt
  split
  · simp
  · rename_i ht
    have ht : s.type = .int ∨ s.type = .function := by
      by_cases h : s.type = .int
      · exact .inl h
      · exact .inr (by by_cases h' : s.type = .function; exact h'; exact absurd ⟨h, h'⟩ ht)
    split
    · simp
    · rename_i hlt
      split
      · rename_i hmem
        match ctx, hc with
        | none, _ => simp
        | some n, hc =>
          obtain ⟨h1, h2, h3⟩ := hc n rfl
          obtain ⟨k1, k2⟩ := memberOff_ok (s := s) (i := i) (sz := 4) h2
          dsimp only
          match ho : s.memberOff i 4 n with
          | .error e => dsimp only; intro h; rw [ho] at k1; cases h; exact k1 rfl
          | .ok off =>
            obtain ⟨r1, r2⟩ := k2 off ho
            have := h3 hmem r1 i (by omega) h1
            have : ∃ x, cellAt n.cells off = some (.int x) := by
              rw [r2]; rcases ht with ht | ht <;> rw [ht] at this <;> exact this
            obtain ⟨x, hx⟩ := this
            dsimp only
            rw [hx]
            simp
      · rename_i hmem
        have hst := hst (by simpa using hmem)
        match hv : s.value with
        | .ints (some a) =>
          rw [hv] at hst
          obtain ⟨a1, a2⟩ := hst ht
          obtain ⟨x, hx⟩ := none_mem a2 (i := i) (by omega)
          dsimp only
          rw [hx]
          simp
        | .ints none =>
          exact absurd ⟨ht, by simpa using hmem, hv, fun h0 => hlt (by rw [h0]; simp)⟩ hh
        | .floats _ => simp
        | .strs _ => simp
        | .inst _ => simp

theorem getFloat_safe {s : Sym} {i : Nat} {ctx : Option Inst} (hst : Stored s) (hc : CtxOk s i ctx) :
    s.getFloat i ctx ≠ .error .ub := by
  unfold Sym.getFloat
  split
  · simp
  · rename_i ht
    have ht : s.type = .float := by simpa using ht
    split
    · simp
    · rename_i hlt
      split
      · rename_i hmem
        match ctx, hc with
        | none, _ => simp
        | some n, hc =>
          obtain ⟨h1, h2, h3⟩ := hc n rfl
          obtain ⟨k1, k2⟩ := memberOff_ok (s := s) (i := i % 256) (sz := 4) h2
          dsimp only
          match ho : s.memberOff (i % 256) 4 n with
          | .error e => dsimp only; intro h; rw [ho] at k1; cases h; exact k1 rfl
          | .ok off =>
            obtain ⟨r1, r2⟩ := k2 off ho
            have := h3 hmem r1 i (by omega) h1
            have : ∃ x, cellAt n.cells off = some (.float x) := by
              rw [r2, Nat.mod_eq_of_lt h1]; rw [ht] at this; exact this
            obtain ⟨x, hx⟩ := this
            dsimp only
            rw [hx]
            simp
      · rename_i hmem
        have hst := hst (by simpa using hmem)
        match hv : s.value with
        | .floats a =>
          rw [hv] at hst
          obtain ⟨a1, a2⟩ := hst ht
          obtain ⟨x, hx⟩ := none_mem a2 (i := i) (by omega)
          dsimp only
          rw [hx]
          simp
        | .ints _ => simp
        | .strs _ => simp
        | .inst _ => simp

theorem getString_safe {s : Sym} {i : Nat} {ctx : Option Inst} (hst : Stored s) (hc : CtxOk s i ctx) :
    s.getString i ctx ≠ .error .ub := by
  unfold Sym.getString
  split
  · simp
  · rename_i ht
    have ht : s.type = .string := by simpa using ht
    split
    · simp
    · rename_i hlt
      split
      · rename_i hmem
        match ctx, hc with
        | none, _ => simp
        | some n, hc =>
          obtain ⟨h1, h2, h3⟩ := hc n rfl
          obtain ⟨k1, k2⟩ := memberOff_ok (s := s) (i := i) (sz := Sym.strSize) h2
          dsimp only
          match ho : s.memberOff i Sym.strSize n with
          | .error e => dsimp only; intro h; rw [ho] at k1; cases h; exact k1 rfl
          | .ok off =>
            obtain ⟨r1, r2⟩ := k2 off ho
            have := h3 hmem r1 i (by omega) h1
            have : ∃ x, cellAt n.cells off = some (.str x) := by
              rw [r2]; rw [ht] at this; exact this
            obtain ⟨x, hx⟩ := this
            dsimp only
            rw [hx]
            simp
      · rename_i hmem
        have hst := hst (by simpa using hmem)
        match hv : s.value with
        | .strs a =>
          rw [hv] at hst
          have a1 := hst ht
          dsimp only
          rw [List.getElem?_eq_getElem (show i < a.length by omega)]
          simp
        | .ints _ => simp
        | .floats _ => simp
        | .inst _ => simp

theorem getInstance_safe {s : Sym} : s.getInstance ≠ .error .ub := by
  unfold Sym.getInstance
  split
  · simp
  · split <;> simp


/-! ## Setters -/

/-- What a setter leaves behind. -/
def SetOk (s : Sym) (ctx : Option Inst) (r : Except Fail (Sym × Option Inst)) : Prop :=
  r ≠ .error .ub ∧ ∀ s' c', r = .ok (s', c') → Stored s' ∧ (Hollow s' → Hollow s) ∧ s'.count = s.count ∧
    (∀ a, s.value = .strs a → ∃ b, s'.value = .strs b) ∧
    (c' = ctx ∨ s' = s ∧ ∃ n off c d, ctx = some n ∧ cellAt n.cells off = some c ∧ d.kind = c.kind ∧
      c' = some { n with cells := setCell n.cells off d })

theorem none_set {α} {a : List (Option α)} (h : none ∉ a) (i : Nat) (x : α) : none ∉ a.set i (some x) := by
  intro hm
  rcases List.mem_or_eq_of_mem_set hm with h' | h'
  · exact h h'
  · cases h'

theorem setInt_safe {s : Sym} {x : BitVec 32} {i : Nat} {ctx : Option Inst} (hst : Stored s) (hh : ¬ Hollow s)
    (hc : CtxOk s i ctx) : SetOk s ctx (s.setInt x i ctx) := by
  unfold Sym.setInt
  split
  · exact ⟨by simp, by simp⟩
  · rename_i ht
    have ht : s.type = .int ∨ s.type = .function := by
      by_cases h : s.type = .int
      · exact .inl h
      · exact .inr (by by_cases h' : s.type = .function; exact h'; exact absurd ⟨h, h'⟩ ht)
    split
    · exact ⟨by simp, by simp⟩
    · rename_i hlt
      split
      · rename_i hmem
        match ctx, hc with
        | none, _ => exact ⟨by simp, by simp⟩
        | some n, hc =>
          obtain ⟨h1, h2, h3⟩ := hc n rfl
          obtain ⟨k1, k2⟩ := memberOff_ok (s := s) (i := i) (sz := 4) h2
          dsimp only
          match ho : s.memberOff i 4 n with
          | .error e => dsimp only; refine ⟨fun h => ?_, by simp⟩; rw [ho] at k1; cases h; exact k1 rfl
          | .ok off =>
            obtain ⟨r1, r2⟩ := k2 off ho
            have := h3 hmem r1 i (by omega) h1
            have : ∃ x, cellAt n.cells off = some (.int x) := by
              rw [r2]; rcases ht with ht | ht <;> rw [ht] at this <;> exact this
            obtain ⟨z, hx⟩ := this
            dsimp only
            rw [hx]
            refine ⟨by simp, fun s' c' h => ?_⟩
            cases h
            exact ⟨hst, id, rfl, fun a h => ⟨a, h⟩, .inr ⟨rfl, n, off, _, .int x, rfl, hx, rfl, rfl⟩⟩
      · rename_i hmem
        have hst := hst (by simpa using hmem)
        match hv : s.value with
        | .ints (some a) =>
          rw [hv] at hst
          obtain ⟨a1, a2⟩ := hst ht
          dsimp only
          rw [if_pos (show i < a.length by omega)]
          refine ⟨by simp, fun s' c' h => ?_⟩
          cases h
          refine ⟨fun _ _ => ⟨by rw [List.length_set]; exact a1, none_set a2 i x⟩, fun h => ?_, rfl, fun b hb => ?_, .inl rfl⟩
          · obtain ⟨-, -, h, -⟩ := h
            cases h
          · rw [hv] at hb; cases hb
        | .ints none =>
          exact absurd ⟨ht, by simpa using hmem, hv, fun h0 => hlt (by rw [h0]; simp)⟩ hh
        | .floats _ => exact ⟨by simp, by simp⟩
        | .strs _ => exact ⟨by simp, by simp⟩
        | .inst _ => exact ⟨by simp, by simp⟩

theorem setFloat_safe {s : Sym} {x : BitVec 32} {i : Nat} {ctx : Option Inst} (hst : Stored s)
    (hc : CtxOk s i ctx) : SetOk s ctx (s.setFloat x i ctx) := by
  unfold Sym.setFloat
  split
  · exact ⟨by simp, by simp⟩
  · rename_i ht
    have ht : s.type = .float := by simpa using ht
    split
    · exact ⟨by simp, by simp⟩
    · rename_i hlt
      split
      · rename_i hmem
        match ctx, hc with
        | none, _ => exact ⟨by simp, by simp⟩
        | some n, hc =>
          obtain ⟨h1, h2, h3⟩ := hc n rfl
          obtain ⟨k1, k2⟩ := memberOff_ok (s := s) (i := i) (sz := 4) h2
          dsimp only
          match ho : s.memberOff i 4 n with
          | .error e => dsimp only; refine ⟨fun h => ?_, by simp⟩; rw [ho] at k1; cases h; exact k1 rfl
          | .ok off =>
            obtain ⟨r1, r2⟩ := k2 off ho
            have := h3 hmem r1 i (by omega) h1
            have : ∃ x, cellAt n.cells off = some (.float x) := by
              rw [r2]; rw [ht] at this; exact this
            obtain ⟨z, hx⟩ := this
            dsimp only
            rw [hx]
            refine ⟨by simp, fun s' c' h => ?_⟩
            cases h
            exact ⟨hst, id, rfl, fun a h => ⟨a, h⟩, .inr ⟨rfl, n, off, _, .float x, rfl, hx, rfl, rfl⟩⟩
      · rename_i hmem
        have hst := hst (by simpa using hmem)
        match hv : s.value with
        | .floats a =>
          rw [hv] at hst
          obtain ⟨a1, a2⟩ := hst ht
          dsimp only
          rw [if_pos (show i < a.length by omega)]
          refine ⟨by simp, fun s' c' h => ?_⟩
          cases h
          refine ⟨fun _ _ => ⟨by rw [List.length_set]; exact a1, none_set a2 i x⟩, fun h => ?_, rfl, fun b hb => ?_, .inl rfl⟩
          · obtain ⟨-, -, h, -⟩ := h
            cases h
          · rw [hv] at hb; cases hb
        | .ints _ => exact ⟨by simp, by simp⟩
        | .strs _ => exact ⟨by simp, by simp⟩
        | .inst _ => exact ⟨by simp, by simp⟩

theorem setString_safe {s : Sym} {x : Bytes} {i : Nat} {ctx : Option Inst} (hst : Stored s)
    (hc : CtxOk s i ctx) : SetOk s ctx (s.setString x i ctx) := by
  unfold Sym.setString
  split
  · exact ⟨by simp, by simp⟩
  · rename_i ht
    have ht : s.type = .string := by simpa using ht
    split
    · exact ⟨by simp, by simp⟩
    · rename_i hlt
      split
      · rename_i hmem
        match ctx, hc with
        | none, _ => exact ⟨by simp, by simp⟩
        | some n, hc =>
          obtain ⟨h1, h2, h3⟩ := hc n rfl
          obtain ⟨k1, k2⟩ := memberOff_ok (s := s) (i := i) (sz := Sym.strSize) h2
          dsimp only
          match ho : s.memberOff i Sym.strSize n with
          | .error e => dsimp only; refine ⟨fun h => ?_, by simp⟩; rw [ho] at k1; cases h; exact k1 rfl
          | .ok off =>
            obtain ⟨r1, r2⟩ := k2 off ho
            have := h3 hmem r1 i (by omega) h1
            have : ∃ x, cellAt n.cells off = some (.str x) := by
              rw [r2]; rw [ht] at this; exact this
            obtain ⟨z, hx⟩ := this
            dsimp only
            rw [hx]
            refine ⟨by simp, fun s' c' h => ?_⟩
            cases h
            exact ⟨hst, id, rfl, fun a h => ⟨a, h⟩, .inr ⟨rfl, n, off, _, .str x, rfl, hx, rfl, rfl⟩⟩
      · rename_i hmem
        have hst := hst (by simpa using hmem)
        match hv : s.value with
        | .strs a =>
          rw [hv] at hst
          have a1 := hst ht
          dsimp only
          rw [if_pos (show i < a.length by omega)]
          refine ⟨by simp, fun s' c' h => ?_⟩
          cases h
          refine ⟨fun _ _ => by rw [List.length_set]; exact a1, fun h => ?_, rfl, fun b hb => ⟨_, rfl⟩, .inl rfl⟩
          obtain ⟨-, -, h, -⟩ := h
          cases h
        | .ints _ => exact ⟨by simp, by simp⟩
        | .floats _ => exact ⟨by simp, by simp⟩
        | .inst _ => exact ⟨by simp, by simp⟩

theorem set_same {α} {l : List α} {i : Nat} {x : α} (h : l[i]? = some x) : l.set i x = l := by
  obtain ⟨h1, h2⟩ := List.getElem?_eq_some_iff.mp h
  rw [← h2, List.set_getElem_self]

theorem store_heap (v : Vm) (y : Nat) (p : Option Nat) (s : Sym) :
    (storeSym y p s (instAt v p) v).2 = { v with syms := v.syms.set y s } := by
  unfold storeSym instAt
  cases p with
  | none => rfl
  | some a =>
    dsimp only
    match h : v.heap[a]? with
    | none => rfl
    | some i => dsimp only; rw [set_same h]

theorem storeSym_heap (v : Vm) (y : Nat) (p : Option Nat) (s : Sym) (c : Option Inst) :
    (storeSym y p s c v).2.heap.length = v.heap.length := by
  unfold storeSym
  cases p <;> cases c <;> first | rfl | exact List.length_set

theorem TmAt.storeSym {v : Vm} (hs : Tidy v) {y : Nat} {s s' : Sym} (hy : v.syms[y]? = some s) {p : Option Nat}
    {r : Except Fail (Sym × Option Inst)} {c' : Option Inst} (hr : SetOk s (instAt v p) r) (he : r = .ok (s', c'))
    (hsh : s'.shape = s.shape ∧ s'.extent = s.extent) (hv : ∀ a, s'.value = .inst (some a) → a < v.heap.length) :
    TmAt v (fun _ w => w.stack = v.stack ∧ w.sp = v.sp) (storeSym y p s' c') := by
  obtain ⟨-, hr⟩ := hr
  obtain ⟨h1, h2, h3, h4, h5⟩ := hr s' c' he
  have hk : Keeps v (Daedalus.storeSym y p s' c' v).2 := storeSym_kp hy hsh
  have ht : y = v.tmp → ∃ a, s'.value = .strs a ∧ s'.count ≠ 0 := by
    intro e
    obtain ⟨t, a, k1, -, -, k4, k5⟩ := hs.temp
    rw [← e, hy] at k1
    obtain rfl := Option.some.inj k1
    obtain ⟨b, hb⟩ := h4 a k4
    exact ⟨b, hb, by rw [h3]; exact k5⟩
  have hst := hs.store hy hsh.1 h1 h2 (fun _ => h3) ht hv
  suffices h : Tidy (Daedalus.storeSym y p s' c' v).2 from
    ⟨h, hk, ⟨fun i f h => ⟨f, h⟩, Nat.le_of_eq (storeSym_heap v y p s' c').symm⟩, rfl, rfl⟩
  rcases h5 with rfl | ⟨rfl, n, off, c, d, e1, e2, e3, rfl⟩
  · rw [store_heap]
    exact hst
  · cases p with
    | none => cases e1
    | some a =>
      have hsyms : v.syms.set y s' = v.syms := set_same hy
      show Tidy { v with syms := v.syms.set y s', heap := v.heap.set a { n with cells := setCell n.cells off d } }
      rw [hsyms]
      exact hs.heapSet e1 e2 e3

theorem TmAt.symGetInt {v : Vm} (hs : Tidy v) {y : Nat} (hy : ∃ s, v.syms[y]? = some s ∧ ¬ Hollow s) {i : Nat} {p : Option Nat}
    (hi : p = none ∨ i < 256) : TmAt v (fun _ w => w = v) (symGetInt y i p) := by
  obtain ⟨s, h1, h2⟩ := hy
  unfold Daedalus.symGetInt
  exact TmAt.symAt_bind h1 (TmAt.get_bind ((TmAt.lift hs (getInt_safe (hs.stored y s h1) h2 (hs.ctxOk h1 hi))).mono
    fun _ _ _ _ _ _ h => h.2))

theorem TmAt.symGetFloat {v : Vm} (hs : Tidy v) {y : Nat} (hy : y < v.syms.length) {i : Nat} {p : Option Nat}
    (hi : p = none ∨ i < 256) : TmAt v (fun _ w => w = v) (symGetFloat y i p) := by
  have h1 : v.syms[y]? = some v.syms[y] := List.getElem?_eq_getElem hy
  unfold Daedalus.symGetFloat
  exact TmAt.symAt_bind h1 (TmAt.get_bind ((TmAt.lift hs (getFloat_safe (hs.stored y _ h1) (hs.ctxOk h1 hi))).mono
    fun _ _ _ _ _ _ h => h.2))

theorem TmAt.symGetString {v : Vm} (hs : Tidy v) {y : Nat} (hy : y < v.syms.length) {i : Nat} {p : Option Nat}
    (hi : p = none ∨ i < 256) : TmAt v (fun _ w => w = v) (symGetString y i p) := by
  have h1 : v.syms[y]? = some v.syms[y] := List.getElem?_eq_getElem hy
  unfold Daedalus.symGetString
  exact TmAt.symAt_bind h1 (TmAt.get_bind ((TmAt.lift hs (getString_safe (hs.stored y _ h1) (hs.ctxOk h1 hi))).mono
    fun _ _ _ _ _ _ h => h.2))

theorem TmAt.symGetInstance {v : Vm} (hs : Tidy v) {y : Nat} (hy : y < v.syms.length) :
    TmAt v (fun r w => w = v ∧ ∀ a, r = some a → a < v.heap.length) (symGetInstance y) := by
  have h1 : v.syms[y]? = some v.syms[y] := List.getElem?_eq_getElem hy
  unfold Daedalus.symGetInstance
  refine TmAt.symAt_bind h1 ((TmAt.lift hs getInstance_safe).mono fun r _ _ _ _ _ h => ⟨h.2, fun a ha => ?_⟩)
  subst ha
  have h := h.1
  unfold Sym.getInstance at h
  repeat' split at h
  all_goals cases h
  rename_i hv
  exact hs.held y _ a h1 hv

/-- Nothing happened to the stack. -/
def SameStack (v w : Vm) : Prop := w.stack = v.stack ∧ w.sp = v.sp

theorem setInt_held {v : Vm} (hs : Tidy v) {y : Nat} {s s' : Sym} (hy : v.syms[y]? = some s) {x : BitVec 32} {i : Nat}
    {c c' : Option Inst} (h : s.setInt x i c = .ok (s', c')) (a : Nat) (hv : s'.value = .inst (some a)) : a < v.heap.length := by
  unfold Sym.setInt at h
  repeat' split at h
  all_goals cases h
  all_goals first | exact hs.held y _ a hy hv | cases hv

theorem setFloat_held {v : Vm} (hs : Tidy v) {y : Nat} {s s' : Sym} (hy : v.syms[y]? = some s) {x : BitVec 32} {i : Nat}
    {c c' : Option Inst} (h : s.setFloat x i c = .ok (s', c')) (a : Nat) (hv : s'.value = .inst (some a)) : a < v.heap.length := by
  unfold Sym.setFloat at h
  repeat' split at h
  all_goals cases h
  all_goals first | exact hs.held y _ a hy hv | cases hv

theorem setString_held {v : Vm} (hs : Tidy v) {y : Nat} {s s' : Sym} (hy : v.syms[y]? = some s) {x : Bytes} {i : Nat}
    {c c' : Option Inst} (h : s.setString x i c = .ok (s', c')) (a : Nat) (hv : s'.value = .inst (some a)) : a < v.heap.length := by
  unfold Sym.setString at h
  repeat' split at h
  all_goals cases h
  all_goals first | exact hs.held y _ a hy hv | cases hv

theorem TmAt.symSetInt {v : Vm} (hs : Tidy v) {y : Nat} (hy : ∃ s, v.syms[y]? = some s ∧ ¬ Hollow s) {x : BitVec 32} {i : Nat}
    {p : Option Nat} (hi : p = none ∨ i < 256) : TmAt v (fun _ w => SameStack v w) (symSetInt y x i p) := by
  obtain ⟨s, h1, h2⟩ := hy
  have hr := setInt_safe (x := x) (hs.stored y s h1) h2 (hs.ctxOk h1 hi)
  unfold Daedalus.symSetInt
  refine TmAt.symAt_bind h1 (TmAt.get_bind ((TmAt.lift hs hr.1).bind fun r w _ _ _ _ hw => ?_))
  obtain ⟨e, rfl⟩ := hw
  obtain ⟨s', c'⟩ := r
  exact TmAt.storeSym hs h1 hr e (setInt_shape e) (setInt_held hs h1 e)

theorem TmAt.symSetFloat {v : Vm} (hs : Tidy v) {y : Nat} (hy : y < v.syms.length) {x : BitVec 32} {i : Nat}
    {p : Option Nat} (hi : p = none ∨ i < 256) : TmAt v (fun _ w => SameStack v w) (symSetFloat y x i p) := by
  have h1 : v.syms[y]? = some v.syms[y] := List.getElem?_eq_getElem hy
  have hr := setFloat_safe (x := x) (hs.stored y _ h1) (hs.ctxOk h1 hi)
  unfold Daedalus.symSetFloat
  refine TmAt.symAt_bind h1 (TmAt.get_bind ((TmAt.lift hs hr.1).bind fun r w _ _ _ _ hw => ?_))
  obtain ⟨e, rfl⟩ := hw
  obtain ⟨s', c'⟩ := r
  exact TmAt.storeSym hs h1 hr e (setFloat_shape e) (setFloat_held hs h1 e)

theorem TmAt.symSetString {v : Vm} (hs : Tidy v) {y : Nat} (hy : y < v.syms.length) {x : Bytes} {i : Nat}
    {p : Option Nat} (hi : p = none ∨ i < 256) : TmAt v (fun _ w => SameStack v w) (symSetString y x i p) := by
  have h1 : v.syms[y]? = some v.syms[y] := List.getElem?_eq_getElem hy
  have hr := setString_safe (x := x) (hs.stored y _ h1) (hs.ctxOk h1 hi)
  unfold Daedalus.symSetString
  refine TmAt.symAt_bind h1 (TmAt.get_bind ((TmAt.lift hs hr.1).bind fun r w _ _ _ _ hw => ?_))
  obtain ⟨e, rfl⟩ := hw
  obtain ⟨s', c'⟩ := r
  exact TmAt.storeSym hs h1 hr e (setString_shape e) (setString_held hs h1 e)

theorem setInstance_safe {s : Sym} {q : Option Nat} :
    SetOk s none (match s.setInstance q with | .ok s' => .ok (s', none) | .error e => .error e) := by
  match h : s.setInstance q with
  | .error e =>
    refine ⟨fun h' => ?_, by simp⟩
    cases h'
    unfold Sym.setInstance at h
    split at h
    · cases h
    · split at h <;> cases h
  | .ok s' =>
    refine ⟨by simp, fun s' c' h' => ?_⟩
    cases h'
    unfold Sym.setInstance at h
    split at h
    · cases h
    · split at h
      · rename_i hv
        cases h
        refine ⟨fun _ => trivial, fun h => ?_, rfl, fun b hb => ?_, .inl rfl⟩
        · obtain ⟨-, -, h, -⟩ := h
          cases h
        · rw [hv] at hb; cases hb
      · cases h

theorem TmAt.symSetInstance {v : Vm} (hs : Tidy v) {y : Nat} (hy : y < v.syms.length) {q : Option Nat}
    (hq : ∀ a, q = some a → a < v.heap.length) : TmAt v (fun _ w => SameStack v w) (symSetInstance y q) := by
  have h1 : v.syms[y]? = some v.syms[y] := List.getElem?_eq_getElem hy
  have hr := setInstance_safe (s := v.syms[y]) (q := q)
  unfold Daedalus.symSetInstance
  refine TmAt.symAt_bind h1 ((TmAt.lift hs ?_).bind fun s' w _ _ _ _ hw => ?_)
  · intro h
    rw [h] at hr
    exact hr.1 rfl
  · obtain ⟨e, rfl⟩ := hw
    rw [e] at hr
    exact TmAt.storeSym (p := none) hs h1 hr rfl (setInstance_shape e) fun a ha => by
      unfold Sym.setInstance at e
      repeat' split at e
      all_goals cases e
      cases ha
      exact hq a rfl

/-! ## Temporary strings -/

theorem triple_toNat (c : BitVec 32) : (c + c * 2).toNat = 3 * c.toNat % 4294967296 := by
  rw [BitVec.toNat_add, BitVec.toNat_mul]
  show (c.toNat + c.toNat * 2 % 4294967296) % 4294967296 = _
  rw [Nat.add_mod_mod]
  congr 1
  omega

theorem triple_zero {n : Nat} (h : 3 * n % 4294967296 = 0) (hn : n < 4294967296) : n = 0 := by
  have h1 : 4294967296 ∣ n := Nat.Coprime.dvd_of_dvd_mul_left (by decide) (Nat.dvd_of_mod_eq_zero h)
  exact Nat.eq_zero_of_dvd_of_lt h1 hn

theorem triple {c : BitVec 32} (h : c ≠ 0) : c + c * 2 ≠ 0 := by
  intro h'
  have h1 := congrArg BitVec.toNat h'
  rw [triple_toNat] at h1
  exact h (BitVec.eq_of_toNat_eq (triple_zero h1 c.isLt))

theorem triple_le {c : BitVec 32} (h : c ≠ 0) (hle : (c + c * 2).toNat ≤ c.toNat) : 2 ^ 30 ≤ c.toNat := by
  rw [triple_toNat] at hle
  have h2 : c.toNat ≠ 0 := fun h0 => h (BitVec.eq_of_toNat_eq h0)
  rcases Nat.lt_or_ge c.toNat (2 ^ 30) with h3 | h3
  · rw [Nat.mod_eq_of_lt (by omega)] at hle
    omega
  · exact h3

theorem pushRange_empty {lo hi : Nat} (h : pushRange [] lo hi = []) : hi ≤ lo := by
  unfold pushRange at h
  have := congrArg List.length h
  simp at this
  omega

theorem TmAt.getFreeString {v : Vm} (hs : Tidy v) : TmAt v (fun _ w => SameStack v w) getFreeString := by
  have hkp := Kp.getFreeString v
  unfold KpAt at hkp
  revert hkp
  unfold TmAt Daedalus.getFreeString
  rw [M.get_bind]
  match hf : v.free with
  | i :: rest => exact fun hkp => ⟨hs.withFree rest, hkp, ⟨fun i f h => ⟨f, h⟩, Nat.le_refl _⟩, rfl, rfl⟩
  | [] =>
    obtain ⟨s, a, h1, h2, h3, h4, h5⟩ := hs.temp
    have hg : s.grow (s.count * 2) = .ok { s with
        value := .strs (a ++ List.replicate ((s.count + s.count * 2).toNat - a.length) []), count := s.count + s.count * 2 } := by
      unfold Sym.grow
      rw [h4]
    have hst := hs.stored _ _ h1 h3
    rw [h4] at hst
    replace hst := hst h2
    dsimp only
    rw [M.bind_ok (symAt_some h1), hg]
    intro hkp
    have key : Tidy { v with syms := v.syms.set v.tmp { s with
        value := .strs (a ++ List.replicate ((s.count + s.count * 2).toNat - a.length) []), count := s.count + s.count * 2 } } := by
      refine hs.store h1 rfl ?_ ?_ (fun h => by rw [h3] at h; cases h) (fun _ => ⟨_, rfl, triple h5⟩) nofun
      · intro _ _
        show (s.count + s.count * 2).toNat ≤ _
        rw [List.length_append, List.length_replicate]
        omega
      · intro h
        obtain ⟨-, -, h, -⟩ := h
        cases h
    revert hkp
    rw [M.bind_ok (M.lift_def _ _)]
    dsimp only
    rw [M.bind_ok (M.set_def _ _)]
    match hr : pushRange [] s.count.toNat (s.count + s.count * 2).toNat with
    | [] =>
      have hle := triple_le h5 (pushRange_empty hr)
      intro _
      refine ⟨_, _, List.getElem?_set_self (List.getElem?_eq_some_iff.mp h1).1, rfl, ?_⟩
      rw [List.length_append]
      omega
    | i :: rest => exact fun hkp => ⟨key.withFree rest, hkp, ⟨fun i f h => ⟨f, h⟩, Nat.le_refl _⟩, rfl, rfl⟩


theorem _root_.Verif.Spec.Daedalus.Tidy.tmp_lt {v : Vm} (hs : Tidy v) : v.tmp < v.syms.length := by
  obtain ⟨s, a, h1, -⟩ := hs.temp
  exact (List.getElem?_eq_some_iff.mp h1).1

theorem _root_.Verif.Spec.Daedalus.Tidy.tmp_solid {v : Vm} (hs : Tidy v) : ∃ s, v.syms[v.tmp]? = some s ∧ ¬ Hollow s := by
  obtain ⟨s, a, h1, h2, -⟩ := hs.temp
  refine ⟨s, h1, fun h => ?_⟩
  obtain ⟨h3, -⟩ := h
  rw [h2] at h3
  rcases h3 with h3 | h3 <;> cases h3

theorem TmAt.pushRef {v : Vm} (hs : Tidy v) {y : Nat} (hy : ∃ s, v.syms[y]? = some s ∧ ¬ Hollow s) (i : Byte) :
    TmAt v (fun _ w => w.sp.toNat = v.sp.toNat + 1) (pushRef y i) := by
  unfold Daedalus.pushRef
  exact TmAt.get_bind (TmAt.push hs ⟨fun z j p he => by cases he; exact hy, nofun⟩)

theorem GoodFrame.int {v : Vm} (x : BitVec 32) : GoodFrame v (.int x) := ⟨nofun, nofun⟩
theorem GoodFrame.float {v : Vm} (x : BitVec 32) : GoodFrame v (.float x) := ⟨nofun, nofun⟩
theorem GoodFrame.ptr {v : Vm} {x : Option Nat} (h : ∀ a, x = some a → a < v.heap.length) : GoodFrame v (.inst x) :=
  ⟨nofun, fun a e => h a (by cases e; rfl)⟩

/-- One value more. -/
abbrev OneMore (v w : Vm) : Prop := w.sp.toNat = v.sp.toNat + 1

theorem TmAt.pushInt {v : Vm} (hs : Tidy v) (x : BitVec 32) : TmAt v (fun _ w => OneMore v w) (pushInt x) := TmAt.push hs (GoodFrame.int x)
theorem TmAt.pushFloat {v : Vm} (hs : Tidy v) (x : BitVec 32) : TmAt v (fun _ w => OneMore v w) (pushFloat x) :=
  TmAt.push hs (GoodFrame.float x)
theorem TmAt.pushInst {v : Vm} (hs : Tidy v) {x : Option Nat} (h : ∀ a, x = some a → a < v.heap.length) :
    TmAt v (fun _ w => OneMore v w) (pushInst x) :=
  TmAt.push hs (GoodFrame.ptr h)

theorem TmAt.pushString {v : Vm} (hs : Tidy v) (x : Bytes) : TmAt v (fun _ w => OneMore v w) (pushString x) := by
  unfold Daedalus.pushString
  refine (TmAt.getFreeString hs).bind fun i w _ hw _ _ h1 => TmAt.get_bind ?_
  refine (TmAt.symSetString hw hw.tmp_lt (.inl rfl)).bind fun _ u _ hu k _ h2 => ?_
  refine (TmAt.pushRef hu (by rw [← k.tmp]; exact hu.tmp_solid) _).mono fun _ t _ _ _ _ h => ?_
  unfold OneMore
  rw [h, h2.2, h1.2]

theorem TmAt.fix {v : Vm} (hs : Tidy v) (t : DType) : TmAt v (fun _ w => isValue t → OneMore v w) (fix t) := by
  unfold Daedalus.fix
  split
  · exact (TmAt.pushFloat hs 0).mono fun _ _ _ _ _ _ h _ => h
  · exact (TmAt.pushInt hs 0).mono fun _ _ _ _ _ _ h _ => h
  · exact (TmAt.pushInt hs 0).mono fun _ _ _ _ _ _ h _ => h
  · exact (TmAt.pushString hs []).mono fun _ _ _ _ _ _ h _ => h
  · exact (TmAt.pushInst (x := none) hs nofun).mono fun _ _ _ _ _ _ h _ => h
  · refine TmAt.pure hs fun h => ?_
    unfold isValue at h
    split at h <;> simp_all

/-! ## Popping -/

/-- No values more. -/
abbrev NoMore (v w : Vm) : Prop := w.sp.toNat ≤ v.sp.toNat

/-- At most one value less, and none more. -/
def OneLess (v w : Vm) : Prop := NoMore v w ∧ v.sp.toNat ≤ w.sp.toNat + 1

theorem OneLess.refl (v : Vm) : OneLess v v := ⟨Nat.le_refl _, Nat.le_succ _⟩

theorem lt_of_some {v : Vm} {y : Nat} {P : Sym → Prop} (h : ∃ s, v.syms[y]? = some s ∧ P s) : y < v.syms.length := by
  obtain ⟨s, h, -⟩ := h
  exact (List.getElem?_eq_some_iff.mp h).1

theorem TmAt.vmGetInt {v : Vm} (hs : Tidy v) {y : Nat} (hy : ∃ s, v.syms[y]? = some s ∧ ¬ Hollow s) (i : Byte) (p : Option Nat) :
    TmAt v (fun _ w => w = v) (vmGetInt y i p) := by
  unfold Daedalus.vmGetInt
  obtain ⟨s, h1, h2⟩ := hy
  refine TmAt.symAt_bind h1 (TmAt.get_bind ?_)
  split
  · split
    · exact TmAt.pure hs rfl
    · exact TmAt.throw hs _
  · exact TmAt.symGetInt hs ⟨s, h1, h2⟩ (.inr i.toNat_lt)

theorem TmAt.vmGetFloat {v : Vm} (hs : Tidy v) {y : Nat} (hy : ∃ s, v.syms[y]? = some s ∧ ¬ Hollow s) (i : Byte) (p : Option Nat) :
    TmAt v (fun _ w => w = v) (vmGetFloat y i p) := by
  unfold Daedalus.vmGetFloat
  obtain ⟨s, h1, h2⟩ := hy
  refine TmAt.symAt_bind h1 (TmAt.get_bind ?_)
  split
  · split
    · exact TmAt.pure hs rfl
    · exact TmAt.throw hs _
  · exact TmAt.symGetFloat hs (List.getElem?_eq_some_iff.mp h1).1 (.inr i.toNat_lt)

theorem TmAt.popInt {v : Vm} (hs : Tidy v) : TmAt v (fun _ w => OneLess v w) popInt := by
  unfold Daedalus.popInt
  refine TmAt.get_bind ?_
  split
  · exact TmAt.pure hs (OneLess.refl _)
  · rename_i h
    refine (TmAt.take hs h).bind fun f w _ hw _ _ hf => ?_
    have hle : OneLess v w := by have := hf.2; exact ⟨show w.sp.toNat ≤ v.sp.toNat by omega, by omega⟩
    split
    · exact (TmAt.vmGetInt hw (hf.1.ref _ _ _ rfl) _ _).mono fun _ _ _ _ _ _ e => by rw [e]; exact hle
    · exact TmAt.pure hw hle
    · exact TmAt.throw hw _

theorem TmAt.popFloat {v : Vm} (hs : Tidy v) : TmAt v (fun _ w => OneLess v w) popFloat := by
  unfold Daedalus.popFloat
  refine TmAt.get_bind ?_
  split
  · exact TmAt.pure hs (OneLess.refl _)
  · rename_i h
    refine (TmAt.take hs h).bind fun f w _ hw _ _ hf => ?_
    have hle : OneLess v w := by have := hf.2; exact ⟨show w.sp.toNat ≤ v.sp.toNat by omega, by omega⟩
    split
    · exact (TmAt.vmGetFloat hw (hf.1.ref _ _ _ rfl) _ _).mono fun _ _ _ _ _ _ e => by rw [e]; exact hle
    · exact TmAt.pure hw hle
    · exact TmAt.pure hw hle
    · exact TmAt.throw hw _

theorem TmAt.popRef {v : Vm} (hs : Tidy v) :
    TmAt v (fun r w => OneLess v w ∧ ∃ s, w.syms[r.1]? = some s ∧ ¬ Hollow s) popRef := by
  unfold Daedalus.popRef
  refine TmAt.get_bind ?_
  split
  · exact TmAt.throw hs _
  · rename_i h
    refine (TmAt.take hs h).bind fun f w _ hw hk _ hf => ?_
    have hle : OneLess v w := by have := hf.2; exact ⟨show w.sp.toNat ≤ v.sp.toNat by omega, by omega⟩
    split
    · rename_i y i p
      obtain ⟨s, h1, h2⟩ := hf.1.ref _ _ _ rfl
      obtain ⟨t, a, k1, -⟩ := hw.temp
      rw [hk.tmp] at k1
      refine TmAt.symAt_bind h1 (TmAt.symAt_bind k1 ?_)
      split
      · refine TmAt.bind (Q := fun _ u => ∃ fr, u = { w with free := fr }) ?_ fun _ u _ hu _ _ e => ?_
        · exact ⟨hw.withFree _, Keeps.free w _, ⟨fun i f h => ⟨f, h⟩, Nat.le_refl _⟩, _, rfl⟩
        · obtain ⟨fr, rfl⟩ := e
          exact TmAt.pure hu ⟨hle, s, h1, h2⟩
      · exact TmAt.pure hw ⟨hle, s, h1, h2⟩
    · exact TmAt.throw hw _

theorem TmAt.popInst {v : Vm} (hs : Tidy v) : TmAt v (fun r w => OneLess v w ∧ ∀ a, r = some a → a < w.heap.length) popInst := by
  unfold Daedalus.popInst
  refine TmAt.get_bind ?_
  split
  · exact TmAt.throw hs _
  · rename_i h
    refine (TmAt.take hs h).bind fun f w _ hw _ _ hf => ?_
    have hle : OneLess v w := by have := hf.2; exact ⟨show w.sp.toNat ≤ v.sp.toNat by omega, by omega⟩
    split
    · exact (TmAt.symGetInstance hw (lt_of_some (hf.1.ref _ _ _ rfl))).mono fun _ _ _ _ _ _ e => by rw [e.1]; exact ⟨hle, e.2⟩
    · exact TmAt.pure hw ⟨hle, fun a ha => hf.1.inst a (by rw [ha])⟩
    · exact TmAt.throw hw _

theorem TmAt.popString {v : Vm} (hs : Tidy v) : TmAt v (fun _ w => OneLess v w) popString := by
  unfold Daedalus.popString
  refine (TmAt.popRef hs).bind fun r w _ hw _ _ hr => ?_
  obtain ⟨y, i, p⟩ := r
  obtain ⟨hle, s, h1, h2⟩ := hr
  refine TmAt.symAt_bind h1 (TmAt.get_bind ?_)
  split
  · split
    · exact TmAt.pure hw hle
    · exact TmAt.throw hw _
  · exact (TmAt.symGetString hw (List.getElem?_eq_some_iff.mp h1).1 (.inr i.toNat_lt)).mono fun _ _ _ _ _ _ e => by rw [e]; exact hle

/-! ## Writing -/

theorem TmAt.checkConst {v : Vm} (hs : Tidy v) {y : Nat} (hy : y < v.syms.length) : TmAt v (fun _ w => w = v) (checkConst y) := by
  unfold Daedalus.checkConst
  refine TmAt.symAt_bind (List.getElem?_eq_getElem hy) (TmAt.get_bind ?_)
  split
  · exact TmAt.throw hs _
  · exact TmAt.pure hs rfl

theorem TmAt.vmSetInt {v : Vm} (hs : Tidy v) {y : Nat} (hy : ∃ s, v.syms[y]? = some s ∧ ¬ Hollow s) (x : BitVec 32) (i : Byte)
    (p : Option Nat) : TmAt v (fun _ _ => True) (vmSetInt y x i p) := by
  unfold Daedalus.vmSetInt
  refine (TmAt.checkConst hs (lt_of_some hy)).bind fun _ w _ _ _ _ e => ?_
  subst e
  obtain ⟨s, h1, h2⟩ := hy
  refine TmAt.symAt_bind h1 (TmAt.get_bind ?_)
  split
  · exact (TmAt.symSetInt hs ⟨s, h1, h2⟩ (.inr i.toNat_lt)).mono fun _ _ _ _ _ _ _ => trivial
  · exact TmAt.pure hs trivial

theorem TmAt.vmSetFloat {v : Vm} (hs : Tidy v) {y : Nat} (hy : y < v.syms.length) (x : BitVec 32) (i : Byte)
    (p : Option Nat) : TmAt v (fun _ _ => True) (vmSetFloat y x i p) := by
  unfold Daedalus.vmSetFloat
  refine (TmAt.checkConst hs hy).bind fun _ w _ _ _ _ e => ?_
  subst e
  refine TmAt.symAt_bind (List.getElem?_eq_getElem hy) (TmAt.get_bind ?_)
  split
  · exact (TmAt.symSetFloat hs hy (.inr i.toNat_lt)).mono fun _ _ _ _ _ _ _ => trivial
  · exact TmAt.pure hs trivial

theorem TmAt.vmSetString {v : Vm} (hs : Tidy v) {y : Nat} (hy : y < v.syms.length) (x : Bytes) (i : Byte)
    (p : Option Nat) : TmAt v (fun _ _ => True) (vmSetString y x i p) := by
  unfold Daedalus.vmSetString
  refine (TmAt.checkConst hs hy).bind fun _ w _ _ _ _ e => ?_
  subst e
  refine TmAt.symAt_bind (List.getElem?_eq_getElem hy) (TmAt.get_bind ?_)
  split
  · exact (TmAt.symSetString hs hy (.inr i.toNat_lt)).mono fun _ _ _ _ _ _ _ => trivial
  · exact TmAt.pure hs trivial

/-! ## Locals -/

theorem TmAt.forM {α} {f : α → M Unit} (I : Vm → Prop) (hI : ∀ {v : Vm} (a : α), Tidy v → I v → TmAt v (fun _ w => I w) (f a)) :
    ∀ (as : List α) {v : Vm}, Tidy v → I v → TmAt v (fun _ w => I w) (forM_ f as)
  | [], _, hs, h => TmAt.pure hs h
  | a :: as, _, hs, h => (hI a hs h).bind fun _ _ _ hw _ _ h' => TmAt.forM I hI as hw h'

/-- The same with a count of the values pushed. -/
theorem TmAt.forCount {α} {f : α → M Unit} (I : Vm → Prop)
    (hI : ∀ {v : Vm} (a : α), Tidy v → I v → TmAt v (fun _ w => I w ∧ OneMore v w) (f a)) :
    ∀ (as : List α) {v : Vm}, Tidy v → I v → TmAt v (fun _ w => I w ∧ w.sp.toNat = v.sp.toNat + as.length) (forM_ f as)
  | [], _, hs, h => TmAt.pure hs ⟨h, rfl⟩
  | a :: as, v, hs, h => by
    refine (hI a hs h).bind fun _ w _ hw _ _ h' => (TmAt.forCount I hI as hw h'.1).mono fun _ u _ _ _ _ hu => ⟨hu.1, ?_⟩
    rw [hu.2, h'.2, List.length_cons]
    omega

/-- A variable that a function may have as a local. -/
def Local (v : Vm) (l : Nat) (s : Sym) : Prop := v.syms[l]? = some s ∧ l ≠ v.tmp ∧ ¬ Hollow s

theorem Local.same {v w : Vm} (h : Same v w) {l : Nat} {s : Sym} (hl : Local v l s) :
    ∃ s', Local w l s' ∧ s'.type = s.type ∧ s'.count = s.count := by
  obtain ⟨h1, h2, h3⟩ := hl
  obtain ⟨s', k1, k2, k3⟩ := h.decl l s h1
  exact ⟨s', ⟨k1, by rw [h.tmp]; exact h2, fun hh => h3 (hh.extent k2 (k3 h2))⟩, shape_type k2, extent_count (k3 h2)⟩

theorem TmAt.saveLocal {v : Vm} (hs : Tidy v) {y : Nat} {s : Sym} (hl : Local v y s) :
    TmAt v (fun _ w => w.sp.toNat = v.sp.toNat + localSlots s) (saveLocal y) := by
  unfold Daedalus.saveLocal
  refine TmAt.symAt_bind hl.1 ?_
  have hI : ∀ {w : Vm}, (∃ s', Local w y s') → ∃ s', w.syms[y]? = some s' ∧ ¬ Hollow s' := fun ⟨s', h⟩ => ⟨s', h.1, h.2.2⟩
  have hk : ∀ {w u : Vm}, Keeps w u → (∃ s', Local w y s') → ∃ s', Local u y s' := fun k ⟨s', h⟩ => by
    obtain ⟨t, ht, -⟩ := h.same k.toSame
    exact ⟨t, ht⟩
  unfold localSlots
  split
  · refine (TmAt.forCount (fun w => ∃ s', Local w y s') (fun i hw h => ?_) _ hs ⟨s, hl⟩).mono fun _ w _ _ _ _ h => ?_
    · refine (TmAt.symGetFloat hw (lt_of_some (hI h)) (.inl rfl)).bind fun x u _ _ _ _ e => ?_
      subst e
      exact (TmAt.pushFloat hw x).mono fun _ t _ _ k _ h' => ⟨hk k h, h'⟩
    · rw [h.2, List.length_range]
  · refine (TmAt.forCount (fun w => ∃ s', Local w y s') (fun i hw h => ?_) _ hs ⟨s, hl⟩).mono fun _ w _ _ _ _ h => ?_
    · refine (TmAt.symGetInt hw (hI h) (.inl rfl)).bind fun x u _ _ _ _ e => ?_
      subst e
      exact (TmAt.pushInt hw x).mono fun _ t _ _ k _ h' => ⟨hk k h, h'⟩
    · rw [h.2, List.length_range]
  · refine (TmAt.forCount (fun w => ∃ s', Local w y s') (fun i hw h => ?_) _ hs ⟨s, hl⟩).mono fun _ w _ _ _ _ h => ?_
    · refine (TmAt.symGetInt hw (hI h) (.inl rfl)).bind fun x u _ _ _ _ e => ?_
      subst e
      exact (TmAt.pushInt hw x).mono fun _ t _ _ k _ h' => ⟨hk k h, h'⟩
    · rw [h.2, List.length_range]
  · refine (TmAt.forCount (fun w => ∃ s', Local w y s') (fun i hw h => ?_) _ hs ⟨s, hl⟩).mono fun _ w _ _ _ _ h => ?_
    · refine (TmAt.symGetString hw (lt_of_some (hI h)) (.inl rfl)).bind fun x u _ _ _ _ e => ?_
      subst e
      exact (TmAt.pushString hw x).mono fun _ t _ _ k _ h' => ⟨hk k h, h'⟩
    · rw [h.2, List.length_range]
  · refine (TmAt.symGetInstance hs (List.getElem?_eq_some_iff.mp hl.1).1).bind fun x u _ _ _ _ e => ?_
    obtain ⟨rfl, e⟩ := e
    exact TmAt.pushInst hs e
  · exact TmAt.pure hs rfl

theorem TmAt.restoreLocal {v : Vm} (hs : Tidy v) {y : Nat} {s : Sym} (hl : Local v y s) :
    TmAt v (fun _ w => NoMore v w) (restoreLocal y) := by
  unfold Daedalus.restoreLocal
  refine TmAt.symAt_bind hl.1 ?_
  have hI : ∀ {w : Vm}, (∃ s', Local w y s') → ∃ s', w.syms[y]? = some s' ∧ ¬ Hollow s' := fun ⟨s', h⟩ => ⟨s', h.1, h.2.2⟩
  have hk : ∀ {w u : Vm}, Keeps w u → (∃ s', Local w y s') → ∃ s', Local u y s' := fun k ⟨s', h⟩ => by
    obtain ⟨t, ht, -⟩ := h.same k.toSame
    exact ⟨t, ht⟩
  split
  · refine (TmAt.forM (fun w => (∃ s', Local w y s') ∧ NoMore v w) (fun i hw h => ?_) _ hs ⟨⟨s, hl⟩, Nat.le_refl _⟩).mono
      fun _ w _ _ _ _ h => h.2
    refine (TmAt.popFloat hw).bind fun x u _ hu ku _ e => ?_
    refine (TmAt.symSetFloat hu (lt_of_some (hI (hk ku h.1))) (.inl rfl)).mono fun _ t _ _ k _ h' =>
      ⟨hk k (hk ku h.1), ?_⟩
    unfold NoMore; rw [h'.2]; exact Nat.le_trans e.1 h.2
  · refine (TmAt.forM (fun w => (∃ s', Local w y s') ∧ NoMore v w) (fun i hw h => ?_) _ hs ⟨⟨s, hl⟩, Nat.le_refl _⟩).mono
      fun _ w _ _ _ _ h => h.2
    refine (TmAt.popInt hw).bind fun x u _ hu ku _ e => ?_
    refine (TmAt.symSetInt hu (hI (hk ku h.1)) (.inl rfl)).mono fun _ t _ _ k _ h' =>
      ⟨hk k (hk ku h.1), ?_⟩
    unfold NoMore; rw [h'.2]; exact Nat.le_trans e.1 h.2
  · refine (TmAt.forM (fun w => (∃ s', Local w y s') ∧ NoMore v w) (fun i hw h => ?_) _ hs ⟨⟨s, hl⟩, Nat.le_refl _⟩).mono
      fun _ w _ _ _ _ h => h.2
    refine (TmAt.popInt hw).bind fun x u _ hu ku _ e => ?_
    refine (TmAt.symSetInt hu (hI (hk ku h.1)) (.inl rfl)).mono fun _ t _ _ k _ h' =>
      ⟨hk k (hk ku h.1), ?_⟩
    unfold NoMore; rw [h'.2]; exact Nat.le_trans e.1 h.2
  · refine (TmAt.forM (fun w => (∃ s', Local w y s') ∧ NoMore v w) (fun i hw h => ?_) _ hs ⟨⟨s, hl⟩, Nat.le_refl _⟩).mono
      fun _ w _ _ _ _ h => h.2
    refine (TmAt.popString hw).bind fun x u _ hu ku _ e => ?_
    refine (TmAt.symSetString hu (lt_of_some (hI (hk ku h.1))) (.inl rfl)).mono fun _ t _ _ k _ h' =>
      ⟨hk k (hk ku h.1), ?_⟩
    unfold NoMore; rw [h'.2]; exact Nat.le_trans e.1 h.2
  · refine (TmAt.popInst hs).bind fun x u _ hu ku _ e => ?_
    refine (TmAt.symSetInstance hu (lt_of_some (hI (hk ku ⟨s, hl⟩))) e.2).mono fun _ t _ _ k _ h' => ?_
    unfold NoMore; rw [h'.2]; exact e.1.1
  · exact TmAt.pure hs (Nat.le_refl _)

theorem TmAt.moveSlot {v : Vm} (hs : Tidy v) {src dst : Nat} (h1 : src < 2048) (h2 : dst < 2048)
    (hf : ∃ f, v.stack[src]? = some (some f)) :
    TmAt v (fun _ w => w.sp = v.sp ∧ ∃ f, w.stack[dst]? = some (some f)) (moveSlot src dst) := by
  obtain ⟨f, hf⟩ := hf
  unfold Daedalus.moveSlot
  refine (TmAt.stackGet hs h1 hf).bind fun g w _ _ _ _ e => ?_
  obtain ⟨rfl, rfl⟩ := e
  split
  · rename_i e
    subst e
    exact TmAt.pure hs ⟨rfl, g, hf⟩
  · have hg := hs.frames _ _ hf
    refine (TmAt.stackPut hs h2 hg).bind fun _ u _ hu _ _ e => ?_
    subst e
    refine (TmAt.stackPut hu h1 (f := g.moved) ⟨hg.moved.ref, hg.moved.inst⟩).mono fun _ t _ _ _ _ e => ?_
    subst e
    exact ⟨rfl, putSlot_up _ _ (putSlot_self _ _ _)⟩

end Verif.Daedalus
