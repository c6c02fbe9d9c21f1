import Verif.Lemmas.DaedalusEff
import Verif.Spec.DaedalusString

/-!
# Temporary strings
-/

namespace Verif.Daedalus

open Verif.Spec.Daedalus

/-- The sizes the table of temporary strings has before an index does not fit into a byte. -/
def tmpSizes : List Nat := [1, 3, 9, 27, 81, 243]

/-- The temporary strings: `live` are the slots in use, with their contents. -/
structure TmpOk (v : Vm) (t : Sym) (a : List Bytes) (live : List (Nat × Bytes)) : Prop where
  sym : v.syms[v.tmp]? = some t
  type : t.type = .string
  member : t.isMember = false
  value : t.value = .strs a
  count : a.length = t.count.toNat
  size : t.count.toNat ∈ tmpSizes
  slots : (v.free.map BitVec.toNat ++ live.map Prod.fst).Perm (List.range t.count.toNat)
  content : ∀ p ∈ live, a[p.1]? = some p.2

/-- The machine changed at most the stack, the temporary strings and the list of free slots. -/
def OnlyTmp (v w : Vm) : Prop :=
  ∃ t, w = { v with stack := w.stack, sp := w.sp, free := w.free, syms := v.syms.set v.tmp t }

theorem set_self {α} {l : List α} {i : Nat} {x : α} (h : l[i]? = some x) : l.set i x = l := by
  apply List.ext_getElem?
  intro j
  by_cases hj : i = j
  · subst j
    rw [List.getElem?_set_self (List.getElem?_eq_some_iff.mp h).1, h]
  · rw [List.getElem?_set_ne hj]

theorem TmpOk.nodup {v : Vm} {t : Sym} {a : List Bytes} {live : List (Nat × Bytes)} (h : TmpOk v t a live) :
    (v.free.map BitVec.toNat ++ live.map Prod.fst).Nodup := h.slots.nodup_iff.mpr List.nodup_range

theorem TmpOk.lt {v : Vm} {t : Sym} {a : List Bytes} {live : List (Nat × Bytes)} (h : TmpOk v t a live) {p : Nat × Bytes}
    (hp : p ∈ live) : p.1 < t.count.toNat := by
  have : p.1 ∈ v.free.map BitVec.toNat ++ live.map Prod.fst := List.mem_append_right _ (List.mem_map_of_mem hp)
  exact List.mem_range.mp (h.slots.mem_iff.mp this)

theorem TmpOk.small {v : Vm} {t : Sym} {a : List Bytes} {live : List (Nat × Bytes)} (h : TmpOk v t a live) :
    t.count.toNat ≤ 243 := by
  have := h.size
  simp only [tmpSizes, List.mem_cons, List.not_mem_nil, or_false] at this
  omega

/-- `TmpOk` depends on the symbols and the free slots only. -/
theorem TmpOk.congr {v w : Vm} {t : Sym} {a : List Bytes} {live : List (Nat × Bytes)} (h : TmpOk v t a live)
    (h1 : w.syms = v.syms) (h2 : w.tmp = v.tmp) (h3 : w.free = v.free) : TmpOk w t a live :=
  ⟨by rw [h1, h2]; exact h.sym, h.type, h.member, h.value, h.count, h.size, by rw [h3]; exact h.slots, h.content⟩

theorem pushRange_toNat {lo hi : Nat} (h : hi < 2 ^ 32) :
    ((pushRange [] lo hi).map BitVec.toNat) = ((List.range (hi - lo)).map (lo + ·)).reverse := by
  unfold pushRange
  rw [List.append_nil, List.map_reverse, List.map_map]
  congr 1
  apply List.map_congr_left
  intro k hk
  have := List.mem_range.mp hk
  simp only [Function.comp, BitVec.toNat_ofNat]
  omega

/-- `get_free_string` gives a slot that is not in use. -/
theorem getFree_ok {v : Vm} {t : Sym} {a : List Bytes} {live : List (Nat × Bytes)} (h : TmpOk v t a live)
    (hn : live.length < 243) : ∃ i w t' a', getFreeString v = (.ok i, w) ∧ OnlyTmp v w ∧ w.stack = v.stack ∧ w.sp = v.sp ∧
      w.syms = v.syms.set v.tmp t' ∧ t'.shape = t.shape ∧ t'.type = .string ∧ t'.isMember = false ∧ t'.value = .strs a' ∧
      a'.length = t'.count.toNat ∧ t'.count.toNat ∈ tmpSizes ∧
      ((i :: w.free).map BitVec.toNat ++ live.map Prod.fst).Perm (List.range t'.count.toNat) ∧
      ∀ p ∈ live, a'[p.1]? = some p.2 := by
  have hset : ∀ t', v.syms.set v.tmp t' = v.syms.set v.tmp t' := fun _ => rfl
  unfold getFreeString
  rw [M.get_bind]
  match hf : v.free with
  | i :: rest =>
    refine ⟨i, { v with free := rest }, t, a, rfl, ⟨t, ?_⟩, rfl, rfl, ?_, rfl, h.type, h.member, h.value, h.count, h.size, ?_,
      h.content⟩
    · show _ = ({ v with syms := v.syms.set v.tmp t, free := rest } : Vm)
      rw [set_self h.sym]
    · show v.syms = v.syms.set v.tmp t
      rw [set_self h.sym]
    · have := h.slots
      rw [hf] at this
      exact this
  | [] =>
    have hlen : live.length = t.count.toNat := by
      have := h.slots.length_eq
      rw [hf] at this
      simpa using this
    have hsz := h.size
    simp only [tmpSizes, List.mem_cons, List.not_mem_nil, or_false] at hsz
    have hc : (t.count + t.count * 2).toNat = 3 * t.count.toNat := by
      rw [BitVec.toNat_add, BitVec.toNat_mul]
      simp
      omega
    have hg : t.grow (t.count * 2) = .ok { t with
        value := .strs (a ++ List.replicate (3 * t.count.toNat - a.length) []), count := t.count + t.count * 2 } := by
      unfold Sym.grow
      simp only [h.value, hc]
    generalize ht' : { t with
      value := .strs (a ++ List.replicate (3 * t.count.toNat - a.length) []), count := t.count + t.count * 2 } = t' at hg
    have hcount : t'.count.toNat = 3 * t.count.toNat := by rw [← ht']; exact hc
    have hr : ∃ i rest, pushRange [] t.count.toNat t'.count.toNat = i :: rest := by
      match hp : pushRange [] t.count.toNat t'.count.toNat with
      | i :: rest => exact ⟨i, rest, rfl⟩
      | [] =>
        have := congrArg List.length hp
        simp [pushRange] at this
        omega
    obtain ⟨i, rest, hr⟩ := hr
    refine ⟨i, { v with syms := v.syms.set v.tmp t', free := rest }, t', a ++ List.replicate (3 * t.count.toNat - a.length) [],
      ?_, ⟨t', rfl⟩, rfl, rfl, rfl, by rw [← ht']; rfl, by rw [← ht']; exact h.type, by rw [← ht']; exact h.member,
      by rw [← ht'], ?_, ?_, ?_, ?_⟩
    · dsimp only
      rw [M.bind_ok (symAt_some h.sym), M.bind_ok (show M.lift (t.grow (t.count * 2)) v = (.ok t', v) by rw [hg]; rfl)]
      rw [M.set_bind, hr]
      rfl
    · rw [List.length_append, List.length_replicate, hcount, h.count]
      omega
    · rw [hcount]
      simp only [tmpSizes, List.mem_cons, List.not_mem_nil, or_false]
      omega
    · rw [← hr, pushRange_toNat (by rw [hcount]; omega)]
      have h0 := h.slots
      rw [hf] at h0
      simp only [List.map_nil, List.nil_append] at h0
      refine (List.Perm.append (List.reverse_perm _) h0).trans ?_
      refine List.perm_append_comm.trans ?_
      have : t'.count.toNat = t.count.toNat + (t'.count.toNat - t.count.toNat) := by omega
      conv => rhs; rw [this, List.range_add]
    · intro p hp
      have := h.content p hp
      rw [List.getElem?_append_left (List.getElem?_eq_some_iff.mp this).1]
      exact this

/-- `push_string`. -/
theorem pushString_ok {v : Vm} {t : Sym} {a : List Bytes} {live : List (Nat × Bytes)} (h : TmpOk v t a live)
    (hn : live.length < 243) {fs : List Frame} (hs : Stk v fs) (hl : fs.length < stackSize) (s : Bytes) :
    ∃ i w t' a', pushString s v = (.ok (), w) ∧ OnlyTmp v w ∧ Stk w (fs ++ [.ref v.tmp i v.instance_]) ∧
      t'.shape = t.shape ∧ TmpOk w t' a' ((i.toNat, s) :: live) := by
  obtain ⟨i, w, t', a', h1, ho, hst, hsp, hsyms, hsh, hty, hmem, hval, hlen, hsz, hperm, hcont⟩ := getFree_ok h hn
  obtain ⟨tt, ho⟩ := ho
  have hin : i.toNat < t'.count.toNat := by
    have : i.toNat ∈ (i :: w.free).map BitVec.toNat ++ live.map Prod.fst := by simp
    exact List.mem_range.mp (hperm.mem_iff.mp this)
  have hle : t'.count.toNat ≤ 243 := by
    simp only [tmpSizes, List.mem_cons, List.not_mem_nil, or_false] at hsz
    omega
  have hvt : v.tmp < v.syms.length := (List.getElem?_eq_some_iff.mp h.sym).1
  have htmp : w.tmp = v.tmp := by rw [ho]
  have hinst : w.instance_ = v.instance_ := by rw [ho]
  have hwt : w.syms[w.tmp]? = some t' := by rw [hsyms, htmp]; simp [hvt]
  -- the string is stored
  have hset : t'.setString s (i.toNat % 65536) none = .ok ({ t' with value := .strs (a'.set i.toNat s) }, none) := by
    unfold Sym.setString
    rw [Nat.mod_eq_of_lt (by omega)]
    rw [if_neg (by simp [hty]), if_neg (by omega), if_neg (by simp [hmem])]
    simp only [hval]
    rw [if_pos (by omega)]
  have hstore : symSetString w.tmp s (i.toNat % 65536) none w =
      (.ok (), { w with syms := w.syms.set w.tmp { t' with value := .strs (a'.set i.toNat s) } }) := by
    unfold symSetString
    rw [M.bind_ok (symAt_some hwt), M.get_bind]
    show (M.lift (t'.setString s (i.toNat % 65536) none) >>= _) w = _
    rw [hset]
    rfl
  generalize hw2 : ({ w with syms := w.syms.set w.tmp { t' with value := .strs (a'.set i.toNat s) } } : Vm) = w2 at hstore
  have hs2 : Stk w2 fs := by
    rw [← hw2]
    exact hs.congr hst hsp
  obtain ⟨p1, p2⟩ := push_ok (.ref v.tmp (UInt8.ofNat i.toNat) v.instance_) hs2 hl
  have hbyte : (UInt8.ofNat i.toNat).toNat = i.toNat := by
    simp
    omega
  refine ⟨UInt8.ofNat i.toNat, _, { t' with value := .strs (a'.set i.toNat s) }, a'.set i.toNat s, ?_, ?_, p2, hsh, ?_⟩
  · unfold pushString
    rw [M.bind_ok h1, M.get_bind, M.bind_ok hstore]
    unfold pushRef
    rw [M.get_bind]
    have e1 : w2.instance_ = v.instance_ := by rw [← hw2]; exact hinst
    rw [htmp]
    rw [← e1] at p1 ⊢
    exact p1
  · refine ⟨{ t' with value := .strs (a'.set i.toNat s) }, ?_⟩
    rw [← hw2, hsyms, htmp, List.set_set]
    rw [ho]
  · refine ⟨?_, hty, hmem, rfl, by simp [hlen], hsz, ?_, ?_⟩
    · show w2.syms[w2.tmp]? = _
      rw [← hw2]
      show (w.syms.set w.tmp _)[w.tmp]? = _
      rw [List.getElem?_set_self (by rw [hsyms, htmp]; simpa using hvt)]
    · show (w2.free.map _ ++ _).Perm _
      rw [← hw2]
      show (w.free.map _ ++ _).Perm (List.range t'.count.toNat)
      rw [List.map_cons, hbyte]
      exact List.perm_middle.trans hperm
    · intro p hp
      rcases List.mem_cons.mp hp with rfl | hp
      · show (a'.set i.toNat s)[(UInt8.ofNat i.toNat).toNat]? = _
        rw [hbyte, List.getElem?_set_self (by omega)]
      · have hne : i.toNat ≠ p.1 := by
          intro he
          have := hperm.nodup_iff.mpr List.nodup_range
          rw [List.map_cons, List.cons_append, List.nodup_cons] at this
          exact this.1 (List.mem_append_right _ (by rw [he]; exact List.mem_map_of_mem hp))
        rw [List.getElem?_set_ne hne]
        exact hcont p hp

/-- `pop_string` of a temporary string. -/
theorem popString_tmp {v : Vm} {t : Sym} {a : List Bytes} {l1 l2 : List (Nat × Bytes)} {i : Byte} {s : Bytes}
    (h : TmpOk v t a (l1 ++ (i.toNat, s) :: l2)) {fs : List Frame} {p : Option Nat} (hs : Stk v (fs ++ [.ref v.tmp i p])) :
    ∃ w, popString v = (.ok s, w) ∧ OnlyTmp v w ∧ w.syms = v.syms ∧ Stk w fs ∧ TmpOk w t a (l1 ++ l2) := by
  obtain ⟨h1, h2⟩ := take_ok hs
  generalize hw : ({ v with stack := putSlot v.stack fs.length (Frame.ref v.tmp i p).moved, sp := v.sp - 1 } : Vm) = w1 at h1 h2
  have e1 : w1.syms = v.syms := by rw [← hw]
  have e2 : w1.tmp = v.tmp := by rw [← hw]
  have e3 : w1.free = v.free := by rw [← hw]
  have hsym1 : symAt v.tmp w1 = (.ok t, w1) := symAt_some (by rw [e1]; exact h.sym)
  have hin : i.toNat < t.count.toNat := h.lt (p := (i.toNat, s)) (by simp)
  have hget : t.getString i.toNat none = .ok s := by
    unfold Sym.getString
    rw [if_neg (by simp [h.type]), if_neg (by omega), if_neg (by simp [h.member])]
    have := h.content (i.toNat, s) (by simp)
    simp only [h.value, this]
  generalize hw2 : ({ w1 with free := BitVec.ofNat 32 i.toNat :: w1.free } : Vm) = w2
  have f1 : w2.syms = v.syms := by rw [← hw2]; exact e1
  have hpop : popRef v = (.ok (v.tmp, i, p), w2) := by
    unfold popRef
    rw [M.get_bind, if_neg (sp_ne_zero hs), M.bind_ok h1]
    dsimp only
    rw [M.bind_ok hsym1, M.bind_ok hsym1, if_pos rfl]
    rw [← hw2]
    rfl
  refine ⟨w2, ?_, ?_, f1, ?_, ?_⟩
  · unfold popString
    rw [M.bind_ok hpop]
    dsimp only
    have hsym2 : symAt v.tmp w2 = (.ok t, w2) := symAt_some (by rw [f1]; exact h.sym)
    rw [M.bind_ok hsym2, M.get_bind, if_neg (by simp [h.member])]
    unfold symGetString
    rw [M.bind_ok hsym2, M.get_bind]
    have : ∀ c, t.getString i.toNat c = .ok s := by
      intro c
      unfold Sym.getString at hget ⊢
      rw [if_neg (by simp [h.type]), if_neg (by omega), if_neg (by simp [h.member])] at hget ⊢
      exact hget
    rw [this]
    rfl
  · refine ⟨t, ?_⟩
    rw [← hw2, ← hw]
    show _ = ({ v with stack := _, sp := _, free := _, syms := v.syms.set v.tmp t } : Vm)
    rw [set_self h.sym]
  · rw [← hw2]
    exact h2.congr rfl rfl
  · refine ⟨by rw [f1]; rw [← hw2]; show v.syms[w1.tmp]? = _; rw [e2]; exact h.sym, h.type, h.member, h.value, h.count, h.size,
      ?_, ?_⟩
    · rw [← hw2]
      show (List.map BitVec.toNat (BitVec.ofNat 32 i.toNat :: w1.free) ++ _).Perm _
      rw [e3, List.map_cons]
      have hb : (BitVec.ofNat 32 i.toNat).toNat = i.toNat := by
        rw [BitVec.toNat_ofNat]
        have := i.toNat_lt
        omega
      rw [hb]
      refine List.Perm.trans ?_ h.slots
      simp only [List.map_append, List.map_cons, List.cons_append]
      refine (List.perm_middle.symm).trans ?_
      refine List.Perm.append_left _ ?_
      exact List.perm_middle.symm
    · intro q hq
      exact h.content q (by
        rcases List.mem_append.mp hq with hq | hq
        · exact List.mem_append_left _ hq
        · exact List.mem_append_right _ (List.mem_cons_of_mem _ hq))

/-- With all 243 strings in use the next push names a slot that is in use. -/
theorem pushString_wrong {v : Vm} {t : Sym} {a : List Bytes} {live : List (Nat × Bytes)} (h : TmpOk v t a live)
    (hn : live.length = 243) {fs : List Frame} (hs : Stk v fs) (hl : fs.length < stackSize) (s : Bytes) :
    ∃ w i s', (i, s') ∈ live ∧ (do pushString s; popString : M Bytes) v = (.ok s', w) := by
  have hc : t.count.toNat = 243 := by
    have h1 := h.slots.length_eq
    have h2 := h.small
    simp only [List.length_append, List.length_map, List.length_range] at h1
    omega
  have hfree : v.free = [] := by
    have h1 := h.slots.length_eq
    simp only [List.length_append, List.length_map, List.length_range] at h1
    exact List.length_eq_zero_iff.mp (by omega)
  have hcount : t.count = 243 := BitVec.eq_of_toNat_eq hc
  have hlen := h.count
  rw [hc] at hlen
  obtain ⟨x, hx, hx1⟩ : ∃ x ∈ live, x.1 = 216 := by
    have : 216 ∈ v.free.map BitVec.toNat ++ live.map Prod.fst := h.slots.mem_iff.mpr (List.mem_range.mpr (by omega))
    rw [hfree, List.map_nil, List.nil_append] at this
    obtain ⟨x, hx, hx1⟩ := List.mem_map.mp this
    exact ⟨x, hx, hx1⟩
  have hax := h.content x hx
  rw [hx1] at hax
  have hvt : v.tmp < v.syms.length := (List.getElem?_eq_some_iff.mp h.sym).1
  -- the table grows
  generalize ha' : a ++ List.replicate (729 - a.length) ([] : Bytes) = a'
  generalize ht' : { t with value := .strs a', count := 729 } = t'
  have hg : t.grow (t.count * 2) = .ok t' := by
    unfold Sym.grow
    simp only [h.value]
    rw [hcount, ← ht', ← ha']
    rfl
  have hty : t'.type = .string := by rw [← ht']; exact h.type
  have hmem : t'.isMember = false := by rw [← ht']; exact h.member
  have hcnt : t'.count.toNat = 729 := by rw [← ht']; rfl
  have hval : t'.value = .strs a' := by rw [← ht']
  have hal : a'.length = 729 := by rw [← ha']; simp; omega
  obtain ⟨rest, hr⟩ : ∃ rest, pushRange [] t.count.toNat t'.count.toNat = (728 : BitVec 32) :: rest := by
    rw [hc, hcnt]
    exact ⟨((List.range 485).map fun k => BitVec.ofNat 32 (243 + k)).reverse, by
      unfold pushRange
      rw [show 729 - 243 = 485 + 1 from rfl, List.range_succ]
      simp⟩
  have hfs : getFreeString v = (.ok (728 : BitVec 32), { v with syms := v.syms.set v.tmp t', free := rest }) := by
    unfold getFreeString
    rw [M.get_bind, hfree]
    dsimp only
    rw [M.bind_ok (symAt_some h.sym), M.bind_ok (show M.lift (t.grow (t.count * 2)) v = (.ok t', v) by rw [hg]; rfl)]
    rw [M.set_bind, hr]
    rfl
  generalize hw1 : ({ v with syms := v.syms.set v.tmp t', free := rest } : Vm) = w1 at hfs
  have hw1s : w1.syms = v.syms.set v.tmp t' := by rw [← hw1]
  have hw1t : w1.tmp = v.tmp := by rw [← hw1]
  have hwt : w1.syms[w1.tmp]? = some t' := by rw [hw1s, hw1t]; simp [hvt]
  generalize ht2 : { t' with value := .strs (a'.set 728 s) } = t2
  have hset : t'.setString s 728 none = .ok (t2, none) := by
    unfold Sym.setString
    rw [if_neg (by simp [hty]), if_neg (by omega), if_neg (by simp [hmem])]
    simp only [hval]
    rw [if_pos (by omega), ht2]
  have hstore : symSetString w1.tmp s 728 none w1 = (.ok (), { w1 with syms := w1.syms.set w1.tmp t2 }) := by
    unfold symSetString
    rw [M.bind_ok (symAt_some hwt), M.get_bind]
    show (M.lift (t'.setString s 728 none) >>= _) w1 = _
    rw [hset]
    rfl
  generalize hw2 : ({ w1 with syms := w1.syms.set w1.tmp t2 } : Vm) = w2 at hstore
  have hs2 : Stk w2 fs := by
    rw [← hw2, ← hw1]
    exact hs.congr rfl rfl
  have hw2t : w2.tmp = v.tmp := by rw [← hw2]; exact hw1t
  have hw2s : w2.syms[v.tmp]? = some t2 := by
    rw [← hw2]
    show (w1.syms.set w1.tmp t2)[v.tmp]? = _
    rw [hw1t, List.getElem?_set_self (by rw [hw1s]; simpa using hvt)]
  obtain ⟨p1, p2⟩ := push_ok (.ref v.tmp 216 w2.instance_) hs2 hl
  have hpush : pushString s v = (.ok (), { w2 with stack := putSlot w2.stack fs.length (.ref v.tmp 216 w2.instance_), sp := w2.sp + 1 }) := by
    unfold pushString
    rw [M.bind_ok hfs, M.get_bind]
    show (symSetString w1.tmp s 728 none >>= _) w1 = _
    rw [M.bind_ok hstore, hw1t]
    exact p1
  generalize hw3 : ({ w2 with stack := putSlot w2.stack fs.length (.ref v.tmp 216 w2.instance_), sp := w2.sp + 1 } : Vm) = w3 at hpush p2
  have hw3t : w3.tmp = v.tmp := by rw [← hw3]; exact hw2t
  have hw3s : w3.syms[v.tmp]? = some t2 := by rw [← hw3]; exact hw2s
  rw [M.bind_ok hpush]
  obtain ⟨q1, q2⟩ := take_ok p2
  generalize hw4 : ({ w3 with stack := putSlot w3.stack fs.length (Frame.ref v.tmp 216 w2.instance_).moved, sp := w3.sp - 1 } : Vm) = w4 at q1 q2
  have hw4s : w4.syms[v.tmp]? = some t2 := by rw [← hw4]; exact hw3s
  have hsym4 : symAt v.tmp w4 = (.ok t2, w4) := symAt_some hw4s
  have hpop : popRef w3 = (.ok (v.tmp, 216, w2.instance_), { w4 with free := 216 :: w4.free }) := by
    unfold popRef
    rw [M.get_bind, if_neg (sp_ne_zero p2), M.bind_ok q1]
    dsimp only
    rw [hw3t, M.bind_ok hsym4, M.bind_ok hsym4, if_pos rfl]
    rfl
  refine ⟨{ w4 with free := 216 :: w4.free }, 216, x.2, by rw [← hx1]; exact hx, ?_⟩
  unfold popString
  rw [M.bind_ok hpop]
  dsimp only
  have hsym5 : symAt v.tmp { w4 with free := 216 :: w4.free } = (.ok t2, { w4 with free := 216 :: w4.free }) := symAt_some hw4s
  have hmem2 : t2.isMember = false := by rw [← ht2]; exact hmem
  have hty2 : t2.type = .string := by rw [← ht2]; exact hty
  have hcnt2 : t2.count.toNat = 729 := by rw [← ht2]; exact hcnt
  have hval2 : t2.value = .strs (a'.set 728 s) := by rw [← ht2]
  rw [M.bind_ok hsym5, M.get_bind, if_neg (by simp [hmem2])]
  unfold symGetString
  rw [M.bind_ok hsym5, M.get_bind]
  have hget : ∀ c, t2.getString 216 c = .ok x.2 := by
    intro c
    unfold Sym.getString
    rw [if_neg (by simp [hty2]), if_neg (by omega), if_neg (by simp [hmem2])]
    have : (a'.set 728 s)[216]? = some x.2 := by
      rw [List.getElem?_set_ne (by decide), ← ha', List.getElem?_append_left (by omega)]
      exact hax
    simp only [hval2, this]
  show M.lift (t2.getString 216 _) _ = _
  rw [hget]
  rfl

/-! ## Histories -/

/-- The request as an operation of the machine. -/
def sRequest : SOp → M SAns
  | .pushStr s => do pushString s; return .done
  | .popStr => do return .str (← popString)
  | .pushNum x => do pushInt x; return .done
  | .popNum => do return .num (← popInt)

/-- A history of requests; it ends at the first one that fails. -/
def sRequests : List SOp → M (List SAns)
  | [] => return []
  | o :: os => do
    let a ← sRequest o
    let as ← sRequests os
    return a :: as

/-- The frames and the slots of the values on the stack, top first. -/
inductive Holds (tmp : Nat) : List SItem → List Frame → List (Nat × Bytes) → Prop
  | nil : Holds tmp [] [] []
  | str {st fs live} (s : Bytes) (i : Byte) (p : Option Nat) : Holds tmp st fs live →
      Holds tmp (.str s :: st) (.ref tmp i p :: fs) ((i.toNat, s) :: live)
  | num {st fs live} (x : BitVec 32) : Holds tmp st fs live → Holds tmp (.num x :: st) (.int x :: fs) live

theorem Holds.len {tmp : Nat} {st fs live} (h : Holds tmp st fs live) : fs.length = st.length := by
  induction h <;> simp [*]

theorem Holds.strings {tmp : Nat} {st fs live} (h : Holds tmp st fs live) : live.length = strings st := by
  induction h <;> simp [*, Verif.Spec.Daedalus.strings]

theorem sStep_pushStr (l : Nat) (st : List SItem) (s : Bytes) : sStep l st (.pushStr s) =
    if strings st < l ∧ st.length < 2048 then some (.done, .str s :: st) else none := by
  cases st with
  | nil => rfl
  | cons a st => cases a <;> rfl

theorem sStep_pushNum (l : Nat) (st : List SItem) (x : BitVec 32) : sStep l st (.pushNum x) =
    if st.length < 2048 then some (.done, .num x :: st) else none := by
  cases st with
  | nil => rfl
  | cons a st => cases a <;> rfl

theorem sStep_ok {v : Vm} {t : Sym} {a : List Bytes} {st : List SItem} {fs : List Frame} {live : List (Nat × Bytes)}
    (hh : Holds v.tmp st fs live) (ht : TmpOk v t a live) (hs : Stk v fs.reverse) {o : SOp} {ans : SAns} {st' : List SItem}
    (h : sStep 243 st o = some (ans, st')) :
    ∃ w t' a' fs' live', sRequest o v = (.ok ans, w) ∧ w.tmp = v.tmp ∧ Holds w.tmp st' fs' live' ∧ TmpOk w t' a' live' ∧
      Stk w fs'.reverse := by
  cases o with
  | pushStr s =>
    rw [sStep_pushStr] at h
    split at h
    · rename_i hc
      cases h
      have hl := hh.len
      obtain ⟨i, w, t', a', h1, ho, h2, -, h3⟩ := pushString_ok ht (by rw [hh.strings]; exact hc.1) hs
        (by rw [List.length_reverse, hl]; exact hc.2) s
      have htmp : w.tmp = v.tmp := by obtain ⟨_, ho⟩ := ho; rw [ho]
      refine ⟨w, t', a', .ref v.tmp i v.instance_ :: fs, _, ?_, htmp, ?_, h3, ?_⟩
      · show (pushString s >>= fun _ => (Pure.pure SAns.done : M SAns)) v = _
        rw [M.bind_ok h1]
        rfl
      · rw [htmp]
        exact hh.str s i v.instance_
      · rw [List.reverse_cons]
        exact h2
    · cases h
  | popStr =>
    cases hh with
    | nil => cases h
    | num x hh => cases h
    | @str st fs live s i p hh =>
      cases h
      rw [List.reverse_cons] at hs
      obtain ⟨w, h1, ho, -, h2, h3⟩ := popString_tmp (l1 := []) ht hs
      have htmp : w.tmp = v.tmp := by obtain ⟨_, ho⟩ := ho; rw [ho]
      refine ⟨w, t, a, fs, live, ?_, htmp, by rw [htmp]; exact hh, h3, h2⟩
      show (popString >>= fun s => (Pure.pure (SAns.str s) : M SAns)) v = _
      rw [M.bind_ok h1]
      rfl
  | pushNum x =>
    rw [sStep_pushNum] at h
    split at h
    · rename_i hc
      cases h
      have hl := hh.len
      obtain ⟨h1, h2⟩ := push_ok (.int x) hs (by rw [List.length_reverse, hl]; exact hc)
      refine ⟨{ v with stack := putSlot v.stack fs.reverse.length (.int x), sp := v.sp + 1 }, t, a, .int x :: fs, live,
        ?_, ?_, ?_, ?_, ?_⟩
      · show (pushInt x >>= fun _ => (Pure.pure SAns.done : M SAns)) v = _
        unfold pushInt
        rw [M.bind_ok h1]
        rfl
      · rfl
      · exact hh.num x
      · exact ht.congr rfl rfl rfl
      · rw [List.reverse_cons]
        exact h2
    · cases h
  | popNum =>
    cases hh with
    | nil => cases h
    | str s i p hh => cases h
    | @num st fs live x hh =>
      cases h
      rw [List.reverse_cons] at hs
      obtain ⟨h1, h2⟩ := take_ok hs
      refine ⟨{ v with stack := putSlot v.stack fs.reverse.length (Frame.int x).moved, sp := v.sp - 1 }, t, a, fs, live, ?_, ?_,
        hh, ht.congr rfl rfl rfl, h2⟩
      · show (popInt >>= fun s => (Pure.pure (SAns.num s) : M SAns)) v = _
        have : popInt v = (.ok x, { v with stack := putSlot v.stack fs.reverse.length (Frame.int x).moved, sp := v.sp - 1 }) := by
          unfold popInt
          rw [M.get_bind, if_neg (sp_ne_zero hs), M.bind_ok h1]
          rfl
        rw [M.bind_ok this]
        rfl
      · rfl

theorem sRun_ok (os : List SOp) : ∀ {v : Vm} {t : Sym} {a : List Bytes} {st : List SItem} {fs : List Frame}
    {live : List (Nat × Bytes)}, Holds v.tmp st fs live → TmpOk v t a live → Stk v fs.reverse →
    ∀ {as st'}, sRun 243 st os = some (as, st') → ∃ w t' a' fs' live', sRequests os v = (.ok as, w) ∧
      Holds w.tmp st' fs' live' ∧ TmpOk w t' a' live' ∧ Stk w fs'.reverse := by
  induction os with
  | nil =>
    intro v t a st fs live hh ht hs as st' h
    cases h
    exact ⟨v, t, a, fs, live, rfl, hh, ht, hs⟩
  | cons o os ih =>
    intro v t a st fs live hh ht hs as st' h
    unfold sRun at h
    split at h
    · cases h
    · rename_i ans st1 h1
      split at h
      · cases h
      · rename_i as1 st2 h2
        cases h
        obtain ⟨w, t', a', fs', live', e1, -, e2, e3, e4⟩ := sStep_ok hh ht hs h1
        obtain ⟨w', t2, a2, fs2, live2, e5, e6⟩ := ih e2 e3 e4 h2
        refine ⟨w', t2, a2, fs2, live2, ?_, e6⟩
        unfold sRequests
        rw [M.bind_ok e1, M.bind_ok e5]
        rfl

theorem sRequests_append (os1 os2 : List SOp) {v w : Vm} {as : List SAns} (h : sRequests os1 v = (.ok as, w))
    {bs : List SAns} {u : Vm} (h2 : sRequests os2 w = (.ok bs, u)) : sRequests (os1 ++ os2) v = (.ok (as ++ bs), u) := by
  induction os1 generalizing v as with
  | nil =>
    cases h
    exact h2
  | cons o os ih =>
    unfold sRequests at h
    obtain ⟨a, v1, e1, h⟩ := M.bind_inv h
    obtain ⟨as1, v2, e2, h⟩ := M.bind_inv h
    cases h
    rw [List.cons_append]
    unfold sRequests
    rw [M.bind_ok e1, M.bind_ok (ih e2)]
    rfl

end Verif.Daedalus
