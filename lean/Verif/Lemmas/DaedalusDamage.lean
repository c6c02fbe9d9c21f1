import Verif.Spec.DaedalusDamage
import Verif.Lemmas.DaedalusLoad
import Verif.Lemmas.DaedalusLookup
import Verif.Lemmas.DaedalusMemoryLoad
import Verif.Lemmas.Safe

/-!
# Scripts from damaged files

`Rest p Q`: `p` always returns, does not leave the end of the stream once it is reached, and unless the end is reached the value has the
property `Q`.
-/

namespace Verif.Daedalus

open Verif.Spec.Daedalus

def Rest {α} (p : Rd α) (Q : α → Prop) : Prop := ∀ (data : Bytes) (pos : Nat), pos ≤ data.length →
  ∃ a pos', p ⟨data, pos⟩ = .ok (a, ⟨data, pos'⟩) ∧ pos' ≤ data.length ∧ (pos = data.length → pos' = data.length) ∧ (pos' < data.length → Q a)

theorem Rest.bind {α β} {p : Rd α} {f : α → Rd β} {Q : α → Prop} {R : β → Prop} (hp : Rest p Q)
    (hf : ∀ a, Rest (f a) fun b => Q a → R b) : Rest (p >>= f) R := by
  intro data pos hl
  obtain ⟨a, q, e, l, h1, h2⟩ := hp data pos hl
  obtain ⟨b, r, e', l', h1', h2'⟩ := hf a data q l
  refine ⟨b, r, ?_, l', fun h => h1' (h1 h), fun h => h2' h (h2 ?_)⟩
  · show Rd.bind p f ⟨data, pos⟩ = _
    unfold Rd.bind
    rw [e]
    exact e'
  · rcases Nat.lt_or_ge q data.length with h' | h'
    · exact h'
    · have := h1' (by omega)
      omega

theorem Rest.pure {α} {a : α} {Q : α → Prop} (h : Q a) : Rest (Pure.pure a : Rd α) Q := fun _ pos hp => ⟨a, pos, rfl, hp, id, fun _ => h⟩

theorem Rest.mono {α} {p : Rd α} {Q R : α → Prop} (hp : Rest p Q) (h : ∀ a, Q a → R a) : Rest p R := fun data pos hl =>
  let ⟨a, q, e, l, h1, h2⟩ := hp data pos hl
  ⟨a, q, e, l, h1, fun h' => h a (h2 h')⟩

theorem Rest.read (n : Nat) : Rest (Rd.read n) fun bs => bs.length = n := by
  intro data pos hl
  unfold Rd.read
  dsimp only
  split
  · exact ⟨_, _, rfl, by omega, fun _ => by omega, fun h => by omega⟩
  · exact ⟨_, _, rfl, by omega, fun _ => by omega, fun h => by rw [List.length_take, List.length_drop]; omega⟩

theorem Rest.padded (n : Nat) : Rest (Rd.readPadded n) fun bs => bs.length = n := by
  intro data pos hl
  obtain ⟨a, q, e, l, h1, h2⟩ := Rest.read n data pos hl
  refine ⟨a ++ List.replicate (n - a.length) 0, q, ?_, l, h1, fun h => ?_⟩
  · unfold Rd.readPadded
    rw [e]
  · rw [h2 h]
    simp [h2 h]

theorem Rest.word (w k : Nat) : Rest (Rd.word w k) fun _ => True := (Rest.padded k).bind fun _ => .pure fun _ => trivial

/-- Nothing but zeros is read behind the end. -/
theorem padded_end (data : Bytes) (n : Nat) : Rd.readPadded n ⟨data, data.length⟩ = .ok (List.replicate n 0, ⟨data, data.length⟩) := by
  unfold Rd.readPadded Rd.read
  by_cases h : n = 0
  · subst h; simp
  · simp only [if_pos (show data.length + n > data.length by omega)]
    simp

/-- A word of which the last byte is missing is not -1. -/
theorem u32_short (data : Bytes) (pos : Nat) (hp : pos ≤ data.length) (h : data.length < pos + 4) :
    ∃ v, Rd.u32 ⟨data, pos⟩ = .ok (v, ⟨data, data.length⟩) ∧ v ≠ BitVec.allOnes 32 := by
  have e : Rd.readPadded 4 ⟨data, pos⟩ =
      .ok (data.drop pos ++ List.replicate (4 - (data.length - pos)) 0, ⟨data, data.length⟩) := by
    unfold Rd.readPadded Rd.read
    dsimp only
    rw [if_pos (by omega), show pos + (data.length - pos) = data.length by omega,
      List.take_of_length_le (Nat.le_of_eq List.length_drop), List.length_drop]
  refine ⟨decW 32 (data.drop pos ++ List.replicate (4 - (data.length - pos)) 0), ?_, ?_⟩
  · show Rd.word 32 4 _ = _
    unfold Rd.word
    rw [Rd.bind_ok e]
    rfl
  · refine decW_ne_allOnes _ ?_ 0 ?_ (by decide)
    · rw [List.length_append, List.length_replicate, List.length_drop]; omega
    · exact List.mem_append_right _ (List.mem_replicate.2 ⟨by omega, rfl⟩)

theorem u32_end (data : Bytes) : Rd.u32 ⟨data, data.length⟩ = .ok (0, ⟨data, data.length⟩) := by
  show Rd.word 32 4 _ = _
  unfold Rd.word
  rw [Rd.bind_ok (padded_end data 4)]
  rfl

theorem Rest.line : Rest (Rd.line false) fun _ => True := by
  intro data pos hl
  obtain ⟨str, c, pos1, e1, b1, l1, c1⟩ := Fwd.lineLoop_total data (data.length - pos + 1) [] pos hl (by omega)
  refine ⟨str, pos1, ?_, l1, fun _ => by omega, fun _ => trivial⟩
  show Rd.lineThenIgnore [] _ = _
  unfold Rd.lineThenIgnore
  dsimp only
  rw [Rd.bind_ok e1]
  rfl

theorem Rest.times {α} {p : Rd α} (hp : Rest p fun _ => True) (n : Nat) : Rest (Rd.times p n) fun xs => xs.length = n := by
  induction n with
  | zero => exact .pure rfl
  | succ n ih => exact hp.bind fun a => ih.bind fun as => .pure fun h _ => by rw [List.length_cons, h]

/-- A jump forward. -/
theorem Rest.skip (n : Nat) : Rest (Rd.seek (n : Int) .cur) fun _ => True := by
  intro data pos hl
  unfold Rd.seek Rd.seekTarget
  dsimp only
  split
  · exact ⟨(), pos, rfl, hl, id, fun _ => trivial⟩
  · exact ⟨(), _, rfl, by omega, fun h => by omega, fun _ => trivial⟩

theorem wordsOf_full {n : Nat} {bs : Bytes} (h : bs.length = n * 4) : ∃ a : List (BitVec 32), wordsOf n bs = a.map some ∧ a.length = n := by
  refine ⟨(List.range n).map fun i => decW 32 ((bs.drop (4 * i)).take 4), ?_, by simp⟩
  unfold wordsOf
  rw [List.map_map]
  refine List.map_congr_left fun i hi => ?_
  rw [List.mem_range] at hi
  exact if_pos (by omega)

theorem Rest.name (s : LSym) : Rest s.loadName fun _ => True :=
  (Rest.word _ _).bind fun _ => by
    split
    · exact .pure fun _ => trivial
    · exact Rest.line.bind fun _ => .pure fun _ _ => trivial

theorem Rest.props (s : LSym) : Rest s.loadProps fun _ => True :=
  (Rest.word _ _).bind fun _ => (Rest.word _ _).bind fun _ => .pure fun _ _ => trivial

theorem Rest.place (s : LSym) : Rest s.loadPlace fun _ => True :=
  (Rest.word _ _).bind fun _ => (Rest.word _ _).bind fun _ => (Rest.word _ _).bind fun _ => (Rest.word _ _).bind fun _ =>
    (Rest.word _ _).bind fun _ => .pure fun _ _ _ _ _ => trivial

theorem Rest.value (s : LSym) : Rest s.loadValue fun t => Filled t.sym := by
  have hw : ∀ {α} {p : Rd α} {Q : α → Prop} {f : α → LSym} {R : LSym → Prop}, Rest p Q → (∀ a, Q a → R (f a)) →
      Rest (p >>= fun a => Pure.pure (f a)) R := fun hp h => hp.bind fun a => .pure (h a)
  have no : ∀ {t u : DType} {P : Prop}, s.sym.type = t → t ≠ u → s.sym.type = u → P := fun h1 h2 h3 => absurd (h1.symm.trans h3) h2
  unfold LSym.loadValue
  dsimp only
  split
  · rename_i ht
    exact hw (Rest.read _) fun bs hb _ => ⟨no ht (by decide),
      (fun _ => by obtain ⟨a, h1, h2⟩ := wordsOf_full hb; exact ⟨a, congrArg _ h1, h2⟩), no ht (by decide)⟩
  · rename_i ht
    exact hw (Rest.read _) fun bs hb _ => ⟨(fun _ => by obtain ⟨a, h1, h2⟩ := wordsOf_full hb; exact ⟨a, congrArg (fun x => SymVal.ints (some x)) h1, h2⟩),
      no ht (by decide), no ht (by decide)⟩
  · rename_i ht
    exact hw (Rest.times (Rest.line.bind fun _ => .pure fun _ => trivial) _) fun ls hl _ => ⟨no ht (by decide), no ht (by decide),
      fun _ => ⟨ls, rfl, hl⟩⟩
  · rename_i ht
    exact hw (Rest.word _ _) fun _ _ _ => ⟨no ht (by decide), no ht (by decide), no ht (by decide)⟩
  · rename_i ht
    exact hw (Rest.word _ _) fun _ _ _ => ⟨no ht (by decide), no ht (by decide), no ht (by decide)⟩
  · rename_i ht
    exact hw (Rest.word _ _) fun _ _ _ => ⟨no ht (by decide), no ht (by decide), no ht (by decide)⟩
  · rename_i ht
    exact hw (Rest.word _ _) fun _ _ _ => ⟨no ht (by decide), no ht (by decide), no ht (by decide)⟩
  · rename_i h1 h2 h3 _ _ _ _
    exact .pure fun _ => ⟨(fun h => absurd h h2), (fun h => absurd h h1), (fun h => absurd h h3)⟩

theorem seek_total (off : Int) (wh : Whence) (data : Bytes) (pos : Nat) (hp : pos ≤ data.length) :
    ∃ pos', Rd.seek off wh ⟨data, pos⟩ = .ok ((), ⟨data, pos'⟩) ∧ pos' ≤ data.length := by
  unfold Rd.seek
  dsimp only
  split
  · exact ⟨pos, rfl, hp⟩
  · exact ⟨_, rfl, by omega⟩

/-- At the end the search for a parent finds nothing and comes back to the end. -/
theorem seekParent_end (data : Bytes) : ∀ n, seekParent n ⟨data, data.length⟩ = .ok (false, ⟨data, data.length⟩)
  | 0 => rfl
  | n + 1 => by
    unfold seekParent
    have : ∃ q, Rd.seek (-3) .cur ⟨data, data.length⟩ = .ok ((), ⟨data, q⟩) ∧ q ≤ data.length ∧ data.length < q + 4 := by
      unfold Rd.seek Rd.seekTarget
      dsimp only
      split
      · exact ⟨_, rfl, by omega, by omega⟩
      · exact ⟨_, rfl, by omega, by omega⟩
    obtain ⟨q, e, l, h⟩ := this
    obtain ⟨v, e', hv⟩ := u32_short data q l h
    rw [Rd.bind_ok e, Rd.bind_ok e', if_neg hv]
    exact seekParent_end data n

/-- It always returns. -/
theorem seekParent_total (data : Bytes) : ∀ (n pos : Nat), pos ≤ data.length →
    ∃ b pos', seekParent n ⟨data, pos⟩ = .ok (b, ⟨data, pos'⟩) ∧ pos' ≤ data.length
  | 0, pos, h => ⟨false, pos, rfl, h⟩
  | n + 1, pos, h => by
    unfold seekParent
    obtain ⟨q, e, l⟩ := seek_total (-3) .cur data pos h
    obtain ⟨v, r, e', l', -⟩ := Rest.word 32 4 data q l
    rw [Rd.bind_ok e, Rd.bind_ok (show Rd.u32 _ = _ from e')]
    split
    · exact ⟨true, r, rfl, l'⟩
    · exact seekParent_total data n r l'

theorem Rest.search : Rest searchParent fun _ => True := by
  intro data pos hl
  unfold searchParent
  rw [Rd.bind_ok (show Rd.tell ⟨data, pos⟩ = .ok (pos, ⟨data, pos⟩) from rfl)]
  by_cases h : pos = data.length
  · subst h
    rw [Rd.bind_ok (seekParent_end data 4), if_neg (by decide),
      Rd.bind_ok (Rd.seek_ok (t := data.length) (by simp [Rd.seekTarget]) (Nat.le_refl _)), u32_end]
    exact ⟨_, _, rfl, Nat.le_refl _, id, fun _ => trivial⟩
  · obtain ⟨b, q, e, l⟩ := seekParent_total data 4 pos hl
    rw [Rd.bind_ok e]
    split
    · exact ⟨_, _, rfl, l, fun h' => absurd h' h, fun _ => trivial⟩
    · obtain ⟨r, e', l'⟩ := seek_total pos .beg data q l
      obtain ⟨v, t, e'', l'', -⟩ := Rest.word 32 4 data r l'
      rw [Rd.bind_ok e', show Rd.u32 _ = _ from e'']
      exact ⟨_, _, rfl, l'', fun h' => absurd h' h, fun _ => trivial⟩

theorem Rest.parent (s : LSym) : Rest s.loadParent fun t => ∃ p, t.sym = { s.sym with parent := p } :=
  (Rest.word _ _).bind fun _ => by
    split
    · exact Rest.search.bind fun _ => .pure fun _ _ => ⟨_, rfl⟩
    · exact .pure fun _ => ⟨_, rfl⟩

theorem Rest.sym (s : LSym) : Rest s.load fun t => Filled t.sym := by
  unfold LSym.load
  refine (Rest.name s).bind fun s => (Rest.props s).bind fun s => (Rest.place s).bind fun s => ?_
  refine Rest.bind (Q := fun t => Filled t.sym) ?_ fun t => (Rest.parent t).mono fun u ⟨p, e⟩ hf _ _ _ => ?_
  · split
    · rename_i hm
      exact .pure fun h => by rw [hm] at h; cases h
    · exact Rest.value s
  · rw [e]
    exact hf

theorem Rest.syms (olds : List LSym) : ∀ (sc : Script) (i : Nat),
    Rest (sc.loadSyms i olds) fun t => (∀ s ∈ sc.syms, Filled s.sym) → ∀ s ∈ t.syms, Filled s.sym := by
  induction olds with
  | nil => exact fun sc i => .pure id
  | cons o olds ih =>
    intro sc i
    refine (Rest.sym o).bind fun s => (ih (sc.enter i s) (i + 1)).mono fun t ht hs h => ht fun x hx => ?_
    rcases List.mem_append.1 hx with hx | hx
    · exact h x hx
    · cases List.mem_singleton.1 hx
      exact hs

/-- Loading always returns, and a script with code has all its values. -/
theorem load_total (old : Script) (data : Bytes) (pos : Nat) (hp : pos ≤ data.length) :
    ∃ sc pos', old.load ⟨data, pos⟩ = .ok (sc, ⟨data, pos'⟩) ∧ pos' ≤ data.length ∧ (HasCode sc → ∀ s ∈ sc.syms, Filled s.sym) := by
  obtain ⟨v, p1, e1, l1, -⟩ := Rest.word 8 1 data pos hp
  obtain ⟨n, p2, e2, l2, -⟩ := Rest.word 32 4 data p1 l1
  obtain ⟨_, p3, e3, l3, -⟩ := Rest.skip (n.toNat * 4) data p2 l2
  obtain ⟨sc, p4, e4, l4, -, h4⟩ := Rest.syms (resized old.syms n.toNat) { old with version := v, syms := [] } 0 data p3 l3
  obtain ⟨k, p5, e5, l5, -⟩ := Rest.word 32 4 data p4 l4
  obtain ⟨code, p6, e6, l6, -⟩ := Rest.padded k.toNat data p5 l5
  refine ⟨{ sc with text := some code }, p6, ?_, l6, ?_⟩
  · unfold Script.load
    rw [Rd.bind_ok (show Rd.u8 _ = _ from e1), Rd.bind_ok (show Rd.u32 _ = _ from e2), Rd.bind_ok (by exact_mod_cast e3), Rd.bind_ok e4,
      Rd.bind_ok (show Rd.u32 _ = _ from e5), Rd.bind_ok e6]
    rfl
  · rintro ⟨c, cs, hc⟩
    have hc : code = c :: cs := Option.some.inj hc
    refine h4 ?_ (fun s hs => by cases hs)
    rcases Nat.lt_or_ge p4 data.length with h | h
    · exact h
    · obtain rfl : p4 = data.length := by omega
      cases (u32_end data).symm.trans e5
      have := (padded_end data (0 : BitVec 32).toNat).symm.trans e6
      simp only [Except.ok.injEq, Prod.mk.injEq] at this
      rw [hc] at this
      cases this.1

/-! ## Sizes -/

theorem loadValue_sized {s s' : LSym} {st st' : Rs} (h : s.loadValue st = .ok (s', st')) : Sized s'.sym := by
  have no : ∀ {t u : DType} {P : Prop}, s.sym.type = t → t ≠ u → s.sym.type = u → P := fun h1 h2 h3 => absurd (h1.symm.trans h3) h2
  unfold LSym.loadValue at h
  dsimp only at h
  cases ht : s.sym.type <;> rw [ht] at h <;> dsimp only at h
  case float =>
    obtain ⟨bs, s1, -, h⟩ := Rd.bind_inv h
    cases h
    exact fun _ => ⟨(fun h => by first | cases h | exact absurd (ht.symm.trans h) (by decide)), fun _ => ⟨_, rfl, by simp [wordsOf]⟩, (fun h => by first | cases h | exact absurd (ht.symm.trans h) (by decide))⟩
  case int =>
    obtain ⟨bs, s1, -, h⟩ := Rd.bind_inv h
    cases h
    exact fun _ => ⟨fun _ => ⟨_, rfl, by simp [wordsOf]⟩, (fun h => by first | cases h | exact absurd (ht.symm.trans h) (by decide)), (fun h => by first | cases h | exact absurd (ht.symm.trans h) (by decide))⟩
  case string =>
    obtain ⟨bs, s1, hl, h⟩ := Rd.bind_inv h
    cases h
    exact fun _ => ⟨(fun h => by first | cases h | exact absurd (ht.symm.trans h) (by decide)), (fun h => by first | cases h | exact absurd (ht.symm.trans h) (by decide)), fun _ => ⟨_, rfl, times_length hl⟩⟩
  case class_ | «instance» | function | prototype =>
    obtain ⟨bs, s1, -, h⟩ := Rd.bind_inv h
    cases h
    exact fun _ => ⟨(fun h => by first | cases h | exact absurd (ht.symm.trans h) (by decide)), (fun h => by first | cases h | exact absurd (ht.symm.trans h) (by decide)), (fun h => by first | cases h | exact absurd (ht.symm.trans h) (by decide))⟩
  all_goals
    cases h
    exact fun _ => ⟨no ht (by simp), no ht (by simp), no ht (by simp)⟩

theorem load_sized {s s' : LSym} {st st' : Rs} (h : s.load st = .ok (s', st')) : Sized s'.sym := by
  unfold LSym.load at h
  obtain ⟨a, s1, -, h⟩ := Rd.bind_inv h
  obtain ⟨b, s2, -, h⟩ := Rd.bind_inv h
  obtain ⟨c, s3, -, h⟩ := Rd.bind_inv h
  obtain ⟨d, s4, h4, h⟩ := Rd.bind_inv h
  obtain ⟨p, e⟩ := loadParent_sym h
  have hd : Sized d.sym := by
    split at h4
    · rename_i hm
      cases h4
      exact fun h => by rw [hm] at h; cases h
    · exact loadValue_sized h4
  rw [e]
  exact hd

theorem loadSyms_sized : ∀ (olds : List LSym) (sc : Script) (i : Nat) (st : Rs) (sc' : Script) (st' : Rs),
    (∀ s ∈ sc.syms, Sized s.sym) → sc.loadSyms i olds st = .ok (sc', st') → ∀ s ∈ sc'.syms, Sized s.sym
  | [], sc, i, st, sc', st', hs, h => by cases h; exact hs
  | o :: olds, sc, i, st, sc', st', hs, h => by
    unfold Script.loadSyms at h
    obtain ⟨s, s1, h1, h⟩ := Rd.bind_inv h
    refine loadSyms_sized olds _ _ _ _ _ (fun x hx => ?_) h
    rcases List.mem_append.1 hx with hx | hx
    · exact hs x hx
    · cases List.mem_singleton.1 hx
      exact (load_sized h1 : Sized s.sym)

theorem script_sized {old sc : Script} {st st' : Rs} (h : old.load st = .ok (sc, st')) : ∀ s ∈ sc.syms, Sized s.sym := by
  unfold Script.load at h
  obtain ⟨v, s1, -, h⟩ := Rd.bind_inv h
  obtain ⟨n, s2, -, h⟩ := Rd.bind_inv h
  obtain ⟨_, s3, -, h⟩ := Rd.bind_inv h
  obtain ⟨sc1, s4, h4, h⟩ := Rd.bind_inv h
  obtain ⟨k, s5, -, h⟩ := Rd.bind_inv h
  obtain ⟨c, s6, -, h⟩ := Rd.bind_inv h
  cases h
  show ∀ s ∈ sc1.syms, Sized s.sym
  refine loadSyms_sized _ _ _ _ _ _ ?_ h4
  simp

/-- A filled symbol of a fresh script is whole unless it is a variable of type function. -/
theorem whole_of {s : Sym} (ht : Typed s) (hf : Filled s) (hv : s.isMember = false → s.type = .function → s.isConst = true) : Whole s := by
  intro hm
  obtain ⟨f1, f2, -⟩ := hf hm
  refine ⟨hv hm, ?_⟩
  unfold Typed at ht
  split
  · rename_i a ha
    rw [ha] at ht
    rcases ht.2 with ⟨h1, -⟩ | ⟨h1, h2⟩
    · obtain ⟨b, hb, -⟩ := f1 h1
      rw [ha] at hb
      cases hb
      simp
    · rw [hv hm h1] at h2
      cases h2
  · rename_i a ha
    rw [ha] at ht
    obtain ⟨b, hb, -⟩ := f2 ht.2.1
    rw [ha] at hb
    cases hb
    simp
  · trivial

end Verif.Daedalus
