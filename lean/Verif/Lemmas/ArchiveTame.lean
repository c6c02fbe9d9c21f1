import Verif.Lemmas.ObjTame
import Verif.Lemmas.ArchiveBinsafeSkip

/-!
# The readers of the three formats on any bytes
-/

namespace Verif

open Verif.Ar Verif.Obj

/-- On a file of less than 4 GiB: the reader gets something that fulfils `Q`, moves on but not behind the end of the file, or fails
in an allowed way. -/
def Runs {α} (A : Bytes → Fail → Prop) (Q : α → Prop) (p : Rd α) : Prop := ∀ data pos, data.length < 2 ^ 32 → pos ≤ data.length →
  (∃ a pos', p ⟨data, pos⟩ = .ok (a, ⟨data, pos'⟩) ∧ pos ≤ pos' ∧ pos' ≤ data.length ∧ Q a) ∨ ∃ e, p ⟨data, pos⟩ = .error e ∧ A data e

/-- Only exceptions. -/
def Thrown : Bytes → Fail → Prop := fun _ e => ∃ x, e = .throw x

namespace Runs

variable {α β : Type} {A : Bytes → Fail → Prop}

theorem of_fwd {T} {p : Rd α} (h : Fwd (.all T) p) (hA : ∀ d x, A d (.throw x)) : Runs A (fun _ => True) p := by
  intro data pos hl hp
  rcases h data pos ⟨hl, trivial⟩ hp with ⟨a, pos', e, b, l⟩ | ⟨_, e, he⟩
  · exact .inl ⟨a, pos', e, b, l, trivial⟩
  · exact .inr ⟨_, he, hA _ _⟩

theorem bind {p : Rd α} {f : α → Rd β} {Q : α → Prop} {Q' : β → Prop} (hp : Runs A Q p) (hf : ∀ a, Q a → Runs A Q' (f a)) :
    Runs A Q' (p >>= f) := by
  intro data pos hl hpos
  rcases hp data pos hl hpos with ⟨a, pos1, e1, b1, l1, q1⟩ | ⟨e, he, ha⟩
  · rw [Rd.bind_ok e1]
    rcases hf a q1 data pos1 hl l1 with ⟨b, pos2, e2, b2, l2, q2⟩ | h
    · exact .inl ⟨b, pos2, e2, by omega, l2, q2⟩
    · exact .inr h
  · rw [Rd.bind_err he]
    exact .inr ⟨e, rfl, ha⟩

theorem pure {Q : α → Prop} {a : α} (h : Q a) : Runs A Q (Pure.pure a : Rd α) :=
  fun _ pos _ hp => .inl ⟨a, pos, rfl, Nat.le_refl _, hp, h⟩

theorem throw {Q : α → Prop} (hA : ∀ d x, A d (.throw x)) (x : Exc) : Runs A Q (Rd.fail (.throw x)) :=
  fun _ _ _ _ => .inr ⟨_, rfl, hA _ _⟩

theorem map {p : Rd α} {f : α → β} {Q : α → Prop} {Q' : β → Prop} (hp : Runs A Q p) (hf : ∀ a, Q a → Q' (f a)) :
    Runs A Q' (do return f (← p)) := hp.bind fun a ha => pure (hf a ha)

theorem mono {p : Rd α} {Q Q' : α → Prop} (hp : Runs A Q p) (h : ∀ a, Q a → Q' a) : Runs A Q' p := by
  intro data pos hl hpos
  rcases hp data pos hl hpos with ⟨a, pos', e, b, l, q⟩ | he
  · exact .inl ⟨a, pos', e, b, l, h a q⟩
  · exact .inr he

theorem padded (n : Nat) : Runs A (fun v => v.length = n) (Rd.readPadded n) := by
  intro data pos _ hp
  obtain ⟨v, e⟩ := Bs.readPadded_total n data pos hp
  refine .inl ⟨v, _, e, by omega, by omega, ?_⟩
  unfold Rd.readPadded Rd.read at e
  simp only [Except.ok.injEq, Prod.mk.injEq] at e
  rw [← e.1]
  simp only [List.length_append, List.length_take, List.length_drop, List.length_replicate]
  split <;> omega

end Runs

/-! ## Lines are parts of the file -/

theorem lineLoop_slice (data : Bytes) (fuel : Nat) (acc : Bytes) (pos : Nat) (hp : pos ≤ data.length) (str : Bytes) (c : Byte) (s : Rs)
    (h : Rd.lineLoop fuel acc ⟨data, pos⟩ = .ok ((str, c), s)) : ∃ m, str = acc ++ (data.drop pos).take m := by
  induction fuel generalizing acc pos with
  | zero => simp [Rd.lineLoop, Rd.fail] at h
  | succ fuel ih =>
    simp only [Rd.lineLoop] at h
    by_cases hlt : pos < data.length
    · have e : Rd.char ⟨data, pos⟩ = .ok (data[pos], ⟨data, pos + 1⟩) := by
        unfold Rd.char
        rw [Rd.bind_ok (show Rd.readPadded 1 ⟨data, pos⟩ = .ok ([data[pos]], ⟨data, pos + 1⟩) by
            unfold Rd.readPadded Rd.read
            simp only [if_neg (show ¬ pos + 1 > data.length by omega)]
            simp [List.take_one, List.getElem?_eq_getElem hlt])]
        rfl
      rw [Rd.bind_ok e] at h
      split at h
      · cases h
        exact ⟨0, by simp⟩
      · obtain ⟨m, hm⟩ := ih _ _ (by omega) h
        refine ⟨m + 1, ?_⟩
        rw [hm, List.drop_eq_getElem_cons hlt, List.take_succ_cons, List.append_assoc]
        rfl
    · rcases Fwd.char_cases data pos hp with ⟨h1, _⟩ | ⟨_, e⟩
      · omega
      · rw [Rd.bind_ok e, if_pos (by decide)] at h
        cases h
        exact ⟨0, by simp⟩

theorem line_slice (chars data : Bytes) (pos : Nat) (hp : pos ≤ data.length) (str : Bytes) (s : Rs)
    (h : Rd.lineThenIgnore chars ⟨data, pos⟩ = .ok (str, s)) : str <:+: data := by
  obtain ⟨str', c, pos1, e1, b1, l1, c1⟩ := Fwd.lineLoop_total data (data.length - pos + 1) [] pos hp (by omega)
  obtain ⟨m, hm⟩ := lineLoop_slice data _ [] pos hp str' c _ e1
  have hs : str' <:+: data := by
    rw [hm, List.nil_append]
    exact (List.take_prefix _ _).isInfix.trans (List.drop_suffix _ _).isInfix
  suffices str = str' by rw [this]; exact hs
  unfold Rd.lineThenIgnore at h
  dsimp only at h
  rw [Rd.bind_ok e1] at h
  dsimp only at h
  rw [Rd.bind_ok (show Rd.eof ⟨data, pos1⟩ = .ok (decide (pos1 ≥ data.length), ⟨data, pos1⟩) from rfl)] at h
  split at h
  · cases h; rfl
  · rename_i hne
    obtain ⟨c', pos2, e2, b2, l2⟩ := Fwd.ignoreLoop_total chars data (data.length - pos + 1) pos1 l1 (by omega)
    rw [Rd.bind_ok e2, Rd.bind_ok (show Rd.eof ⟨data, pos2⟩ = .ok (decide (pos2 ≥ data.length), ⟨data, pos2⟩) from rfl)] at h
    split at h
    · cases h; rfl
    · obtain ⟨p', h3, _, _⟩ := Bs.seek_total (-1) .cur data pos2 l2
      rw [Rd.bind_ok h3] at h
      cases h; rfl

/-- Lines are parts of the file. -/
theorem line_runs (skip : Bool) (data : Bytes) (pos : Nat) (hl : data.length < 2 ^ 32) (hp : pos ≤ data.length) :
    ∃ a pos', Rd.line skip ⟨data, pos⟩ = .ok (a, ⟨data, pos'⟩) ∧ pos ≤ pos' ∧ pos' ≤ data.length ∧ a <:+: data := by
  rcases Fwd.line (T := .all False) skip data pos ⟨hl, trivial⟩ hp with ⟨a, pos', e, b, l⟩ | ⟨h, _⟩
  · exact ⟨a, pos', e, b, l, line_slice _ data pos hp a _ e⟩
  · exact h.elim

/-! ## BINARY -/

namespace Ar.Bin

theorem readVal_runs (k : Kind) (hk : Small k) : Runs Thrown (Fits k) (readVal k) := by
  have f {α} {p : Rd α} (h : Fwd (.all True) p) : Runs Thrown (fun _ => True) p := .of_fwd h fun _ x => ⟨x, rfl⟩
  cases k with
  | string => exact (f (Fwd.line _)).map fun _ _ => rfl
  | int => exact (f Fwd.u32).map fun _ _ => rfl
  | float => exact (f Fwd.f32).map fun _ _ => rfl
  | byte => exact (f Fwd.u8).map fun _ _ => rfl
  | word => exact (f Fwd.u16).map fun _ _ => rfl
  | enum => exact (f Fwd.u8).map fun _ _ => rfl
  | bool => exact (f Fwd.u8).map fun _ _ => rfl
  | color => exact (f (Fwd.u8.bind fun _ => Fwd.u8.bind fun _ => Fwd.u8.bind fun _ => Fwd.u8.bind fun _ => .pure _)).map fun _ _ => rfl
  | vec3 => exact (f Fwd.vec3).map fun _ _ => rfl
  | vec2 => exact (f Fwd.vec2).map fun _ _ => rfl
  | bbox => exact (f Fwd.aabb).map fun _ _ => rfl
  | mat3 => exact (f fwd_mat3).map fun _ _ => rfl
  | raw n => exact (Runs.padded n).map fun v hv => ⟨Nat.le_of_eq hv.symm, hv ▸ hk⟩

/-- The states of a reader that belong to a stack of open objects. At the end of the file objects that do not end there stay on
the stack. -/
def In (data : Bytes) (E : List Nat) (s : Rr) : Prop :=
  s.rs.data = data ∧ s.rs.pos ≤ data.length ∧ E <:+ s.ends ∧ (s.rs.pos < data.length → s.ends = E)

theorem skip_frame {data : Bytes} {E : List Nat} {top b : Nat} (ht : b ≤ top) {rs : Rs} (h : rs.data = data) (hl : rs.pos ≤ data.length)
    (hb : b ≤ rs.pos) : ∃ s', lift (Rd.seek (top : Int) .beg) ⟨rs, E⟩ = .ok ((), s') ∧ In data E s' ∧ b ≤ s'.rs.pos := by
  obtain ⟨d, p⟩ := rs
  obtain rfl := h
  dsimp only at hl hb
  have hs : ∃ p', Rd.seek (top : Int) .beg ⟨d, p⟩ = .ok ((), ⟨d, p'⟩) ∧ b ≤ p' ∧ p' ≤ d.length := by
    by_cases ht : top ≤ d.length
    · exact ⟨top, Rd.seek_beg ht, by omega, ht⟩
    · exact ⟨p, Rd.seek_ignored (.inr (by simp [Rd.seekTarget]; omega)), hb, hl⟩
  obtain ⟨p', e, h1, h2⟩ := hs
  unfold lift
  dsimp only
  rw [e]
  exact ⟨_, rfl, ⟨rfl, h2, List.suffix_refl _, fun _ => rfl⟩, h1⟩

theorem readHdr_runs (data : Bytes) (pos : Nat) (hl : data.length < 2 ^ 32) (hp : pos < data.length) :
    ∃ e h pos', readHdr ⟨data, pos⟩ = .ok ((e, h), ⟨data, pos'⟩) ∧ pos ≤ e ∧ pos < pos' ∧ pos' ≤ data.length ∧ h.cls <:+: data := by
  unfold readHdr
  rw [Rd.bind_ok (show Rd.tell ⟨data, pos⟩ = .ok (pos, ⟨data, pos⟩) from rfl)]
  obtain ⟨sz, e1⟩ := Rd.word_ok 32 4 data pos (by omega)
  obtain ⟨v, e2⟩ := Rd.word_ok 16 2 data (min (pos + 4) data.length) (by omega)
  obtain ⟨ix, e3⟩ := Rd.word_ok 32 4 data (min (min (pos + 4) data.length + 2) data.length) (by omega)
  rw [Rd.bind_ok (show Rd.u32 _ = _ from e1), Rd.bind_ok (show Rd.u16 _ = _ from e2), Rd.bind_ok (show Rd.u32 _ = _ from e3)]
  obtain ⟨nm, p4, e4, b4, l4, _⟩ := line_runs false data _ hl (show min (min (min (pos + 4) data.length + 2) data.length + 4) data.length ≤ _ by omega)
  obtain ⟨cl, p5, e5, b5, l5, hc⟩ := line_runs false data p4 hl l4
  rw [Rd.bind_ok e4, Rd.bind_ok e5]
  exact ⟨_, _, p5, rfl, by omega, by omega, l5, hc⟩

theorem tame (data : Bytes) (hl : data.length < 2 ^ 32) :
    Tame reader data (Thrown data) (fun s => s.rs.pos) (In data) (fun E b E' => ∃ top, b ≤ top ∧ E' = top :: E) where
  len := fun h => h.2.1
  throw := fun e => ⟨e, rfl⟩
  val := by
    intro E s kd hk ⟨h1, h2, h3, h4⟩
    obtain ⟨⟨d, p⟩, ends⟩ := s
    obtain rfl := h1
    show (∃ v s', lift (readVal kd) _ = _ ∧ _) ∨ ∃ e, lift (readVal kd) _ = _ ∧ _
    unfold lift
    rcases readVal_runs kd hk d p hl h2 with ⟨v, p', e, b, l, hf⟩ | ⟨e, he, ha⟩
    · dsimp only
      rw [e]
      refine .inl ⟨v, _, rfl, hf, ⟨rfl, l, h3, fun hp => h4 ?_⟩, b⟩
      dsimp only at hp ⊢
      omega
    · dsimp only
      rw [he]
      exact .inr ⟨e, rfl, ha⟩
  start := by
    intro E s ⟨h1, h2, h3, h4⟩
    obtain ⟨⟨d, p⟩, ends⟩ := s
    obtain rfl := h1
    show (∃ s', readObjBegin _ = _ ∧ _) ∨ (∃ h s' k', readObjBegin _ = _ ∧ _) ∨ ∃ e, readObjBegin _ = _ ∧ _
    unfold readObjBegin
    dsimp only at h2 h4 ⊢
    by_cases hp : p ≥ d.length
    · rw [if_pos hp]
      exact .inl ⟨_, rfl, ⟨rfl, h2, h3, h4⟩, Nat.le_refl _⟩
    · rw [if_neg hp]
      obtain ⟨e, h, p', eq, he, hlt, hle, hc⟩ := readHdr_runs d p hl (by omega)
      rw [eq]
      obtain rfl := h4 (by omega)
      exact .inr (.inl ⟨h, _, e :: ends, rfl, ⟨rfl, hle, List.suffix_refl _, fun _ => rfl⟩, hlt, ⟨e, he, rfl⟩, hc,
        .inl (skip_frame he rfl hle (by dsimp only; omega))⟩)
  close := by
    rintro E _ b s ⟨top, ht, rfl⟩ ⟨h1, h2, h3, h4⟩ hb
    obtain ⟨⟨d, p⟩, ends⟩ := s
    obtain rfl := h1
    dsimp only at h2 h3 h4 hb
    cases ends with
    | nil => simp at h3
    | cons x rest =>
      have hE : E <:+ rest := by
        obtain ⟨l, hl'⟩ := h3
        cases l with
        | nil => cases hl'; exact List.suffix_refl _
        | cons y l => cases hl'; exact ⟨l ++ [top], by simp⟩
      left
      have e : reader.objEnd ⟨⟨d, p⟩, x :: rest⟩ =
        if p = x then .ok (true, ⟨⟨d, p⟩, rest⟩) else .ok (decide (p ≥ d.length), ⟨⟨d, p⟩, x :: rest⟩) := rfl
      by_cases hx : p = x
      · rw [if_pos hx] at e
        refine ⟨_, endOrSkip_end e, ⟨rfl, h2, hE, fun hp => ?_⟩, hb⟩
        have := h4 hp
        injection this
      · rw [if_neg hx] at e
        by_cases hp : p ≥ d.length
        · rw [decide_eq_true hp] at e
          exact ⟨_, endOrSkip_end e, ⟨rfl, h2, hE.trans (List.suffix_cons _ _), fun h => absurd h (by dsimp only; omega)⟩, hb⟩
        · rw [decide_eq_false hp] at e
          rw [endOrSkip_skip e]
          have hxy := h4 (by omega)
          injection hxy with hx' hr
          subst hx' hr
          exact skip_frame ht rfl h2 hb
  next := by
    intro E s ⟨h1, h2, h3, h4⟩
    obtain ⟨⟨d, p⟩, ends⟩ := s
    obtain rfl := h1
    show (∃ s', lift skipNext _ = _ ∧ _) ∨ ∃ e, lift skipNext _ = _ ∧ _
    unfold lift
    have hn : Fwd (.all True) skipNext := by
      unfold skipNext
      exact Fwd.u32.bind fun _ => Fwd.seekCur _
    rcases hn d p ⟨hl, trivial⟩ h2 with ⟨v, p', e, b, l⟩ | ⟨_, x, he⟩
    · dsimp only
      rw [e]
      refine .inl ⟨_, rfl, ⟨rfl, l, h3, fun hp => h4 ?_⟩, b⟩
      dsimp only at hp ⊢
      omega
    · dsimp only
      rw [he]
      exact .inr ⟨_, rfl, x, rfl⟩

end Ar.Bin

/-! ## BINSAFE -/

namespace Ar.Bs

theorem fwd_meta (tp : BitVec 8) : Fwd (.all True) (ensureMeta tp) := by
  refine Fwd.u8.bind fun _ => ?_
  split
  · exact Fwd.throw _
  · refine (Fwd.seekCur 4).bind fun _ => Fwd.u8.bind fun _ => ?_
    split
    · exact Fwd.throw _
    · exact .pure _

theorem fwd_metaLen (tp : BitVec 8) : Fwd (.all True) (ensureMetaLen tp) := (fwd_meta tp).bind fun _ => Fwd.u16.bind fun _ => .pure _

theorem fwd_prefix {α} (tp : BitVec 8) (size : Nat) {p : Rd α} (hp : Fwd (.all True) p) : Fwd (.all True) (readPrefix tp size p) := by
  refine (fwd_metaLen tp).bind fun len => ?_
  split
  · exact Fwd.throw _
  · exact hp.bind fun _ => (Fwd.seekCur _).bind fun _ => .pure _

theorem readVal_runs (k : Kind) : Runs Thrown (Fits k) (readVal k) := by
  have f {α} {p : Rd α} (h : Fwd (.all True) p) : Runs Thrown (fun _ => True) p := .of_fwd h fun _ x => ⟨x, rfl⟩
  have g {α} {p : Rd α} (h : Fwd (.all True) p) (tp : BitVec 8) (q : α → Val) (k : Kind) (hq : ∀ a, Fits k (q a)) :
      Runs Thrown (Fits k) (do ensureMeta tp; return q (← p)) := (f (fwd_meta tp)).bind fun _ _ => (f h).map fun a _ => hq a
  cases k with
  | string => exact (f ((fwd_metaLen _).bind fun _ => Fwd.padded _)).map fun _ _ => rfl
  | int => exact g Fwd.u32 _ _ _ fun _ => rfl
  | float => exact g Fwd.f32 _ _ _ fun _ => rfl
  | byte => exact g Fwd.u8 _ _ _ fun _ => rfl
  | word => exact g Fwd.u16 _ _ _ fun _ => rfl
  | enum => exact g Fwd.u32 _ _ _ fun _ => rfl
  | bool => exact g Fwd.u32 _ _ _ fun _ => rfl
  | color => exact g (Fwd.u8.bind fun _ => Fwd.u8.bind fun _ => Fwd.u8.bind fun _ => Fwd.u8.bind fun _ => .pure _) _ _ _ fun _ => rfl
  | vec3 => exact g Fwd.vec3 _ _ _ fun _ => rfl
  | vec2 => exact (f (fwd_prefix _ _ Fwd.vec2)).map fun _ _ => rfl
  | bbox => exact (f (fwd_prefix _ _ Fwd.aabb)).map fun _ _ => rfl
  | mat3 => exact (f (fwd_prefix _ _ fwd_mat3)).map fun _ _ => rfl
  | raw n =>
    refine Runs.map (Q := fun v : Bytes => n ≤ v.length ∧ v.length < 2 ^ 32) ?_ fun _ h => h
    refine Runs.bind (Q := fun len : Nat => len < 2 ^ 32) ((f (fwd_meta _)).bind fun _ _ => (f Fwd.u16).map fun a _ => ?_) fun len hlen => ?_
    · exact Nat.lt_trans a.isLt (by decide)
    · split
      · exact Runs.throw (fun _ x => ⟨x, rfl⟩) _
      · exact (Runs.padded len).mono fun v hv => by omega

theorem strtok_infix {s tok r : Bytes} (h : strtok s = some (tok, r)) : tok <:+: s ∧ r <:+: s := by
  unfold strtok at h
  dsimp only at h
  split at h
  · cases h
  · simp only [Option.some.injEq, Prod.mk.injEq] at h
    obtain ⟨rfl, rfl⟩ := h
    have hd : s.dropWhile isDelim <:+: s := (List.dropWhile_suffix _).isInfix
    exact ⟨(List.takeWhile_prefix _).isInfix.trans hd, (List.drop_suffix _ _).isInfix.trans ((List.dropWhile_suffix _).isInfix.trans hd)⟩

theorem parseHdr_infix {a : Bytes} {m : Nat} {h : Hdr} (e : parseHdr (a ++ List.replicate m 0) = some h) : h.cls <:+: a := by
  unfold parseHdr at e
  split at e
  · cases e
  split at e
  · rename_i it hit
    have h0 : it.takeWhile (· != 0) <:+: a := by
      have h1 : (91 :: it).takeWhile (· != 0) = a.takeWhile (· != 0) := by
        rw [← hit, List.takeWhile_append]
        split
        · rename_i hlen
          rw [List.takeWhile_replicate]
          simp
          exact (List.takeWhile_prefix _).eq_of_length (by simpa using hlen) |>.symm
        · rfl
      have h2 : it.takeWhile (· != 0) <:+: (91 :: it).takeWhile (· != 0) := by
        rw [List.takeWhile_cons_of_pos (by decide)]
        exact (List.suffix_cons _ _).isInfix
      rw [h1] at h2
      exact h2.trans (List.takeWhile_prefix _).isInfix
    split at e
    · cases e
    rename_i name r1 k1
    split at e
    · cases e
    rename_i cls r2 k2
    split at e
    · cases e
    split at e
    · cases e
    cases e
    exact (strtok_infix k2).1.trans ((strtok_infix k1).2.trans h0)
  · cases e

theorem objBegin_infix {data : Bytes} {pos : Nat} (hp : pos ≤ data.length) {h : Hdr} {s' : Rs}
    (e : readObjBegin ⟨data, pos⟩ = .ok (some h, s')) : h.cls <:+: data := by
  unfold readObjBegin at e
  by_cases he : pos < data.length
  · have heof : Rd.eof ⟨data, pos⟩ = .ok (false, ⟨data, pos⟩) := by simp [Rd.eof]; omega
    obtain ⟨ty, h1⟩ := word_total 8 1 data pos hp
    rw [Rd.bind_ok heof] at e
    simp only [Bool.false_eq_true, if_false] at e
    rw [Rd.bind_ok (show Rd.tell ⟨data, pos⟩ = .ok (pos, ⟨data, pos⟩) from rfl), Rd.bind_ok (p := Rd.u8) h1] at e
    split at e
    · obtain ⟨q, hq, _, _⟩ := seek_total pos .beg data (min (pos + 1) data.length) (by omega)
      rw [Rd.bind_ok hq] at e
      cases e
    · obtain ⟨len, h2⟩ := word_total 16 2 data (min (pos + 1) data.length) (by omega)
      rw [Rd.bind_ok (p := Rd.u16) h2] at e
      obtain ⟨line, h3⟩ := readPadded_total len.toNat data (min (min (pos + 1) data.length + 2) data.length) (by omega)
      rw [Rd.bind_ok (p := Rd.string len.toNat) h3] at e
      cases hh : parseHdr line with
      | none =>
        rw [hh] at e
        dsimp only at e
        obtain ⟨q, hq, _, _⟩ := seek_total pos .beg data (min (min (min (pos + 1) data.length + 2) data.length + len.toNat) data.length) (by omega)
        rw [Rd.bind_ok hq] at e
        cases e
      | some h' =>
        rw [hh] at e
        cases e
        unfold Rd.readPadded Rd.read at h3
        simp only [Except.ok.injEq, Prod.mk.injEq] at h3
        rw [← h3.1] at hh
        exact (parseHdr_infix hh).trans ((List.take_prefix _ _).isInfix.trans (List.drop_suffix _ _).isInfix)
  · have heof : Rd.eof ⟨data, pos⟩ = .ok (true, ⟨data, pos⟩) := by simp [Rd.eof]; omega
    rw [Rd.bind_ok heof] at e
    cases e

/-- The states of a reader of a file. -/
def In (data : Bytes) (_ : Unit) (s : Rs) : Prop := s.data = data ∧ s.pos ≤ data.length

theorem skip_total (data : Bytes) (pos : Nat) (hp : pos ≤ data.length) :
    ∃ p', skipObj true ⟨data, pos⟩ = .ok ((), ⟨data, p'⟩) ∧ p' ≤ data.length ∧ pos ≤ p' := by
  unfold skipObj
  exact skipLoop_total _ _ data pos hp (by simp only [if_true]; omega) (by omega)

theorem tame (data : Bytes) (hl : data.length < 2 ^ 32) :
    Tame reader data (Thrown data) (fun s => s.pos) (In data) (fun _ _ _ => True) where
  len := fun h => h.2
  throw := fun e => ⟨e, rfl⟩
  val := by
    intro _ s kd _ ⟨h1, h2⟩
    obtain ⟨d, p⟩ := s
    obtain rfl := h1
    rcases readVal_runs kd d p hl h2 with ⟨v, p', e, b, l, hf⟩ | ⟨e, he, ha⟩
    · exact .inl ⟨v, _, e, hf, ⟨rfl, l⟩, b⟩
    · exact .inr ⟨e, he, ha⟩
  start := by
    intro _ s ⟨h1, h2⟩
    obtain ⟨d, p⟩ := s
    obtain rfl := h1
    obtain ⟨o, p', e, l, hn, hs⟩ := objBegin_total d p h2
    cases o with
    | none =>
      obtain rfl := hn rfl
      exact .inl ⟨_, e, ⟨rfl, l⟩, Nat.le_refl _⟩
    | some h =>
      have hlt := hs rfl
      obtain ⟨p2, e2, l2, b2⟩ := skip_total d p' l
      exact .inr (.inl ⟨h, _, (), e, ⟨rfl, l⟩, hlt, trivial, objBegin_infix h2 e,
        .inl ⟨_, e2, ⟨rfl, l2⟩, by dsimp only; omega⟩⟩)
  close := by
    intro _ _ b s _ ⟨h1, h2⟩ hb
    obtain ⟨d, p⟩ := s
    obtain rfl := h1
    dsimp only at hb
    obtain ⟨t, p', e, l, hle, hf⟩ := objEnd_total d p h2
    cases t with
    | true => exact .inl ⟨_, endOrSkip_end e, ⟨rfl, l⟩, by dsimp only; omega⟩
    | false =>
      rw [endOrSkip_skip e]
      obtain ⟨p2, e2, l2, b2⟩ := skip_total d p' l
      exact .inl ⟨_, e2, ⟨rfl, l2⟩, by dsimp only; omega⟩
  next := by
    intro _ s ⟨h1, h2⟩
    obtain ⟨d, p⟩ := s
    obtain rfl := h1
    obtain ⟨p', e, l, b⟩ : ∃ p', skipObj false ⟨d, p⟩ = .ok ((), ⟨d, p'⟩) ∧ p' ≤ d.length ∧ p ≤ p' := by
      unfold skipObj
      exact skipLoop_total _ _ d p h2 (by simp only [Bool.false_eq_true, if_false]; omega) (by omega)
    exact .inl ⟨_, e, ⟨rfl, l⟩, b⟩

end Ar.Bs

/-! ## ASCII -/

namespace Ar.Asc

/-- What may go wrong in ASCII archives: a colour that is not written completely is undefined behaviour, and the search for the end of an
object may never end. -/
def Wrong (data : Bytes) (e : Fail) : Prop := (∃ x, e = .throw x) ∨ e = .hang ∨ e = .ub ∧ b!"color" <:+: data

theorem afterChar_infix (c : Byte) (s : Bytes) : afterChar c s <:+: s := by
  unfold afterChar
  split
  · exact (List.drop_suffix _ _).isInfix.trans (List.dropWhile_suffix _).isInfix
  · exact List.infix_refl _

theorem readEntry_cases (type data : Bytes) (pos : Nat) (hl : data.length < 2 ^ 32) (hp : pos ≤ data.length) :
    (∃ a pos', readEntry type ⟨data, pos⟩ = .ok (a, ⟨data, pos'⟩) ∧ pos ≤ pos' ∧ pos' ≤ data.length ∧ a.length < 2 ^ 32 ∧ type <:+: data) ∨
      readEntry type ⟨data, pos⟩ = .error (.throw .parser) := by
  unfold readEntry
  obtain ⟨line, p', e, b, l, hs⟩ := line_runs true data pos hl hp
  rw [Rd.bind_ok e]
  split
  · exact .inr rfl
  · rename_i hne
    have ht : (afterChar 61 line).takeWhile (· != 58) = type := by simpa using hne
    have h1 := (afterChar_infix 61 line).trans hs
    have h2 := (afterChar_infix 58 (afterChar 61 line)).trans h1
    exact .inl ⟨_, p', rfl, b, l, Nat.lt_of_le_of_lt h2.length_le hl, ht ▸ (List.takeWhile_prefix _).isInfix.trans h1⟩

theorem readEntry_runs (type : Bytes) : Runs Wrong (fun a => a.length < 2 ^ 32) (readEntry type) := by
  intro data pos hl hp
  rcases readEntry_cases type data pos hl hp with ⟨a, p', e, b, l, h, _⟩ | e
  · exact .inl ⟨a, p', e, b, l, h⟩
  · exact .inr ⟨_, e, .inl ⟨_, rfl⟩⟩

theorem wrong_throw (d : Bytes) (x : Exc) : Wrong d (.throw x) := .inl ⟨x, rfl⟩

theorem stoi_runs (t : Bytes) : Runs Wrong (fun _ => True) (stoi t) := by
  unfold stoi
  split
  · exact .throw wrong_throw _
  · split
    · exact .pure trivial
    · exact .throw wrong_throw _

theorem stoul_runs (t : Bytes) : Runs Wrong (fun _ => True) (stoul t) := by
  unfold stoul
  split
  · exact .throw wrong_throw _
  · split
    · exact .pure trivial
    · exact .throw wrong_throw _

theorem stof_runs (t : Bytes) : Runs Wrong (fun _ => True) (stof t) := by
  unfold stof
  split
  · exact .throw wrong_throw _
  · exact .throw wrong_throw _
  · split
    · exact .throw wrong_throw _
    · exact .pure trivial

theorem extractFloats_length (n : Nat) (s : Option Bytes) : (extractFloats n s).length = n := by
  induction n generalizing s with
  | zero => cases s <;> rfl
  | succ n ih => cases s <;> simp [extractFloats, ih]

theorem unhex_length (t : Bytes) : (unhex t).length = t.length / 2 := by
  fun_induction unhex t with
  | case1 a b rest ih => simp [ih]; omega
  | case2 t h =>
    match t, h with
    | [], _ => rfl
    | [_], _ => simp
    | a :: b :: r, h => exact absurd rfl (h a b r)

theorem readVal_runs (k : Kind) : Runs Wrong (Fits k) (readVal k) := by
  cases k with
  | string => exact (readEntry_runs _).map fun _ _ => rfl
  | int => exact (readEntry_runs _).bind fun _ _ => (stoi_runs _).map fun _ _ => rfl
  | float => exact (readEntry_runs _).bind fun _ _ => (stof_runs _).map fun _ _ => rfl
  | byte => exact (readEntry_runs _).bind fun _ _ => (stoul_runs _).map fun _ _ => rfl
  | word => exact (readEntry_runs _).bind fun _ _ => (stoul_runs _).map fun _ _ => rfl
  | enum => exact (readEntry_runs _).bind fun _ _ => (stoul_runs _).map fun _ _ => rfl
  | bool => exact (readEntry_runs _).bind fun _ _ => (stoul_runs _).map fun _ _ => rfl
  | color =>
    intro data pos hl hp
    simp only [readVal]
    rcases readEntry_cases b!"color" data pos hl hp with ⟨a, p', e, b, l, _, hc⟩ | e
    · rw [Rd.bind_ok e]
      cases extractColor a with
      | some c => exact .inl ⟨_, p', rfl, b, l, rfl⟩
      | none => exact .inr ⟨.ub, rfl, .inr (.inr ⟨rfl, hc⟩)⟩
    · rw [Rd.bind_err e]
      exact .inr ⟨_, rfl, wrong_throw _ _⟩
  | vec3 =>
    refine (readEntry_runs _).bind fun t _ => ?_
    have h := extractFloats_length 3 (some t)
    match extractFloats 3 (some t), h with
    | [x, y, z], _ => exact .pure rfl
  | vec2 =>
    refine (readEntry_runs _).bind fun t _ => ?_
    have h := extractFloats_length 2 (some t)
    match extractFloats 2 (some t), h with
    | [x, y], _ => exact .pure rfl
  | bbox =>
    refine (readEntry_runs _).bind fun t _ => ?_
    have h := extractFloats_length 6 (some t)
    match extractFloats 6 (some t), h with
    | [x, y, z, u, v, w], _ => exact .pure rfl
  | mat3 =>
    refine (readEntry_runs _).bind fun t _ => ?_
    split
    · exact .throw wrong_throw _
    · exact .pure rfl
  | raw n =>
    refine (readEntry_runs _).bind fun t ht => ?_
    split
    · exact .throw wrong_throw _
    · refine .pure ?_
      show n ≤ (unhex t).length ∧ (unhex t).length < 2 ^ 32
      rw [unhex_length]
      omega

theorem scanStr_infix {s tok r : Bytes} (h : scanStr s = some (tok, r)) : tok <:+: s ∧ r <:+: s := by
  unfold scanStr at h
  dsimp only at h
  split at h
  · cases h
  · simp only [Option.some.injEq, Prod.mk.injEq] at h
    obtain ⟨rfl, rfl⟩ := h
    have hd : s.dropWhile isSpace <:+: s := (List.dropWhile_suffix _).isInfix
    exact ⟨((List.take_prefix _ _).trans (List.takeWhile_prefix _)).isInfix.trans hd, (List.drop_suffix _ _).isInfix.trans hd⟩

theorem scanHdr_infix {line : Bytes} {h : Hdr} (e : scanHdr line = some h) : h.cls <:+: line := by
  unfold scanHdr at e
  split at e
  · rename_i c r
    split at e
    · cases e
    split at e
    · cases e
    rename_i name r1 k1
    split at e
    · cases e
    rename_i cls r2 k2
    split at e
    · cases e
    split at e
    · cases e
    cases e
    exact (scanStr_infix k2).1.trans ((scanStr_infix k1).2.trans (List.suffix_cons _ _).isInfix)
  · cases e

/-- A line moves on unless the file is at its end. -/
theorem line_lt (skip : Bool) (data : Bytes) (pos : Nat) (hp : pos < data.length) (a : Bytes) (s : Rs) (h : Rd.line skip ⟨data, pos⟩ = .ok (a, s)) :
    pos < s.pos := by
  obtain ⟨str', c, pos1, e1, b1, l1, c1⟩ := Fwd.lineLoop_total data (data.length - pos + 1) [] pos (by omega) (by omega)
  unfold Rd.line at h
  generalize (if skip then Rd.lineSpaces else []) = chars at h
  unfold Rd.lineThenIgnore at h
  dsimp only at h
  rw [Rd.bind_ok e1] at h
  dsimp only at h
  rw [Rd.bind_ok (show Rd.eof ⟨data, pos1⟩ = .ok (decide (pos1 ≥ data.length), ⟨data, pos1⟩) from rfl)] at h
  split at h
  · cases h; dsimp only; omega
  · rename_i hne
    have hlt : pos1 < data.length := by
      simp only [Bool.or_eq_true, decide_eq_true_eq, not_or] at hne
      omega
    have hi : ∃ c pos', Rd.ignoreLoop chars (data.length - pos + 1) ⟨data, pos1⟩ = .ok (c, ⟨data, pos'⟩) ∧ pos1 < pos' ∧
        pos' ≤ data.length := by
      simp only [Rd.ignoreLoop]
      rcases Fwd.char_cases data pos1 l1 with ⟨_, c, e⟩ | ⟨heq, _⟩
      · rw [Rd.bind_ok e]
        split
        · obtain ⟨c', pos', e', b, l⟩ := Fwd.ignoreLoop_total chars data (data.length - pos) (pos1 + 1) (by omega) (by omega)
          exact ⟨c', pos', e', by omega, l⟩
        · exact ⟨c, pos1 + 1, rfl, by omega, by omega⟩
      · omega
    obtain ⟨c', pos2, e2, b2, l2⟩ := hi
    rw [Rd.bind_ok e2, Rd.bind_ok (show Rd.eof ⟨data, pos2⟩ = .ok (decide (pos2 ≥ data.length), ⟨data, pos2⟩) from rfl)] at h
    split at h
    · cases h; dsimp only; omega
    · rw [Rd.bind_ok (Rd.seek_ok (t := pos2 - 1) (by simp [Rd.seekTarget]; omega) (by omega))] at h
      cases h; dsimp only; omega

theorem objBegin_cases (data : Bytes) (pos : Nat) (hl : data.length < 2 ^ 32) (hp : pos ≤ data.length) :
    readObjBegin ⟨data, pos⟩ = .ok (none, ⟨data, pos⟩) ∨
      ∃ h p', readObjBegin ⟨data, pos⟩ = .ok (some h, ⟨data, p'⟩) ∧ pos < p' ∧ p' ≤ data.length ∧ h.cls <:+: data := by
  unfold readObjBegin
  by_cases he : pos < data.length
  · have heof : Rd.eof ⟨data, pos⟩ = .ok (false, ⟨data, pos⟩) := by simp [Rd.eof]; omega
    obtain ⟨line, p', e, b, l, hs⟩ := line_runs true data pos hl hp
    rw [Rd.bind_ok heof]
    simp only [Bool.false_eq_true, if_false]
    rw [Rd.bind_ok (show Rd.tell ⟨data, pos⟩ = .ok (pos, ⟨data, pos⟩) from rfl), Rd.bind_ok e]
    cases hh : (if line.length ≤ 2 then none else scanHdr line) with
    | none =>
      dsimp only
      rw [Rd.bind_ok (Rd.seek_beg hp)]
      exact .inl rfl
    | some h =>
      have hc : scanHdr line = some h := by
        split at hh
        · cases hh
        · exact hh
      exact .inr ⟨h, p', rfl, line_lt true data pos he line _ e, l, (scanHdr_infix hc).trans hs⟩
  · have heof : Rd.eof ⟨data, pos⟩ = .ok (true, ⟨data, pos⟩) := by simp [Rd.eof]; omega
    rw [Rd.bind_ok heof]
    exact .inl rfl

theorem objEnd_cases (data : Bytes) (pos : Nat) (hl : data.length < 2 ^ 32) (hp : pos ≤ data.length) :
    ∃ b p', readObjEnd ⟨data, pos⟩ = .ok (b, ⟨data, p'⟩) ∧ pos ≤ p' ∧ p' ≤ data.length := by
  unfold readObjEnd
  by_cases he : pos < data.length
  · have heof : Rd.eof ⟨data, pos⟩ = .ok (false, ⟨data, pos⟩) := by simp [Rd.eof]; omega
    obtain ⟨line, p', e, b, l, hs⟩ := line_runs true data pos hl hp
    rw [Rd.bind_ok heof]
    simp only [Bool.false_eq_true, if_false]
    rw [Rd.bind_ok (show Rd.tell ⟨data, pos⟩ = .ok (pos, ⟨data, pos⟩) from rfl), Rd.bind_ok e]
    split
    · rw [Rd.bind_ok (Rd.seek_beg hp)]
      exact ⟨_, _, rfl, Nat.le_refl _, hp⟩
    · exact ⟨_, _, rfl, b, l⟩
  · have heof : Rd.eof ⟨data, pos⟩ = .ok (true, ⟨data, pos⟩) := by simp [Rd.eof]; omega
    rw [Rd.bind_ok heof]
    exact ⟨_, _, rfl, Nat.le_refl _, hp⟩

theorem skipLoop_cases (fuel : Nat) (level : Int) (data : Bytes) (pos : Nat) (hl : data.length < 2 ^ 32) (hp : pos ≤ data.length) :
    (∃ p', skipLoop fuel level ⟨data, pos⟩ = .ok ((), ⟨data, p'⟩) ∧ p' ≤ data.length ∧ pos ≤ p') ∨
      skipLoop fuel level ⟨data, pos⟩ = .error .hang := by
  induction fuel generalizing level pos with
  | zero => exact .inr rfl
  | succ fuel ih =>
    have hs : ∃ d p', skipStep ⟨data, pos⟩ = .ok (d, ⟨data, p'⟩) ∧ p' ≤ data.length ∧ pos ≤ p' := by
      unfold skipStep
      rcases objBegin_cases data pos hl hp with e | ⟨h, p', e, b, l, _⟩
      · rw [Rd.bind_ok e]
        dsimp only
        obtain ⟨b, p2, e2, b2, l2⟩ := objEnd_cases data pos hl hp
        rw [Rd.bind_ok e2]
        cases b with
        | true => exact ⟨-1, p2, rfl, l2, b2⟩
        | false =>
          simp only [Bool.false_eq_true, if_false]
          obtain ⟨line, p3, e3, b3, l3, _⟩ := line_runs true data p2 hl l2
          rw [Rd.bind_ok e3]
          exact ⟨0, p3, rfl, l3, by omega⟩
      · rw [Rd.bind_ok e]
        exact ⟨1, p', rfl, l, by omega⟩
    obtain ⟨d, p1, e1, l1, b1⟩ := hs
    unfold skipLoop
    rw [Rd.bind_ok e1]
    split
    · rcases ih (level + d) p1 l1 with ⟨p2, e2, l2, b2⟩ | e2
      · exact .inl ⟨p2, e2, l2, by omega⟩
      · exact .inr e2
    · exact .inl ⟨p1, rfl, l1, b1⟩

theorem tame (data : Bytes) (hl : data.length < 2 ^ 32) :
    Tame reader data (Wrong data) (fun s => s.pos) (Bs.In data) (fun _ _ _ => True) where
  len := fun h => h.2
  throw := wrong_throw data
  val := by
    intro _ s kd _ ⟨h1, h2⟩
    obtain ⟨d, p⟩ := s
    obtain rfl := h1
    rcases readVal_runs kd d p hl h2 with ⟨v, p', e, b, l, hf⟩ | ⟨e, he, ha⟩
    · exact .inl ⟨v, _, e, hf, ⟨rfl, l⟩, b⟩
    · exact .inr ⟨e, he, ha⟩
  start := by
    intro _ s ⟨h1, h2⟩
    obtain ⟨d, p⟩ := s
    obtain rfl := h1
    rcases objBegin_cases d p hl h2 with e | ⟨h, p', e, b, l, hc⟩
    · exact .inl ⟨_, e, ⟨rfl, h2⟩, Nat.le_refl _⟩
    · refine .inr (.inl ⟨h, _, (), e, ⟨rfl, l⟩, b, trivial, hc, ?_⟩)
      rcases skipLoop_cases (d.length - p' + 2) 1 d p' hl l with ⟨p2, e2, l2, b2⟩ | e2
      · exact .inl ⟨_, e2, ⟨rfl, l2⟩, by dsimp only; omega⟩
      · exact .inr ⟨_, e2, .inr (.inl rfl)⟩
  close := by
    intro _ _ b s _ ⟨h1, h2⟩ hb
    obtain ⟨d, p⟩ := s
    obtain rfl := h1
    dsimp only at hb
    obtain ⟨t, p', e, hle, l⟩ := objEnd_cases d p hl h2
    cases t with
    | true => exact .inl ⟨_, endOrSkip_end e, ⟨rfl, l⟩, by dsimp only; omega⟩
    | false =>
      rw [endOrSkip_skip e]
      rcases skipLoop_cases (d.length - p' + 2) 1 d p' hl l with ⟨p2, e2, l2, b2⟩ | e2
      · exact .inl ⟨_, e2, ⟨rfl, l2⟩, by dsimp only; omega⟩
      · exact .inr ⟨_, e2, .inr (.inl rfl)⟩
  next := by
    intro _ s ⟨h1, h2⟩
    obtain ⟨d, p⟩ := s
    obtain rfl := h1
    rcases skipLoop_cases (d.length - p + 2) 0 d p hl h2 with ⟨p2, e2, l2, b2⟩ | e2
    · exact .inl ⟨_, e2, ⟨rfl, l2⟩, b2⟩
    · exact .inr ⟨_, e2, .inr (.inl rfl)⟩

end Ar.Asc

end Verif
