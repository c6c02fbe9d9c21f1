import Verif.Lemmas.Mds
import Verif.Lemmas.Vfs
import Verif.Spec.MdsParser

namespace Verif.Mds

open Vfs (iequals)

/-! ## Tokens that are left -/

theorem lexN_stable (n : Nat) : ∀ (m : Nat) (s : Bytes), Ended s → s.length ≤ n → s.length ≤ m → lexN n s = lexN m s := by
  induction n with
  | zero =>
    intro m s he hn hm
    have : s = [] := List.length_eq_zero_iff.1 (by omega)
    subst this
    rcases m with _ | m
    · rfl
    · rfl
  | succ n ih =>
    intro m s he hn hm
    rcases m with _ | m
    · have : s = [] := List.length_eq_zero_iff.1 (by omega)
      subst this
      rfl
    · rw [lexN, lexN]
      by_cases hk : (lexOne s).1.1 = .endOfFile
      · rw [if_pos hk, if_pos hk]
      · rw [if_neg hk, if_neg hk]
        have hlt := lexOne_lt he hk
        rw [ih m _ (lexOne_ended he) (by omega) (by omega)]

theorem lex_step {s : Bytes} (he : Ended s) :
    lex s = if (lexOne s).1.1 = .endOfFile then [] else (lexOne s).1 :: lex (lexOne s).2 := by
  rcases s with _ | ⟨c, r⟩
  · rfl
  · rw [lex, List.length_cons, lexN]
    by_cases hk : (lexOne (c :: r)).1.1 = .endOfFile
    · rw [if_pos hk, if_pos hk]
    · rw [if_neg hk, if_neg hk, lex]
      have hlt := lexOne_lt he hk
      simp only [List.length_cons] at hlt
      rw [lexN_stable _ _ _ (lexOne_ended he) (by omega) (Nat.le_refl _)]

theorem lex_congr {s u : Bytes} (hs : Ended s) (hu : Ended u) (h : strip false u = strip false s) : lex u = lex s := by
  have : lexOne u = lexOne s := by rw [lexOne, lexOne, h]
  rw [lex_step hs, lex_step hu, this]

theorem lex_length {s : Bytes} (he : Ended s) : (lex s).length ≤ s.length :=
  (runs_lexN s.length s s 0 0 [] (Nat.le_refl _) (At.of_split [] s) he).2

/-- A token does not take the end of the last line. -/
theorem lexTok_rest {c : Byte} {r : Bytes} (h : (10 : Byte) ∈ r) : (10 : Byte) ∈ (lexTok c r).2 := by
  have hdrop : ∀ (a b : Bytes), r = a ++ b → (10 : Byte) ∉ a → (10 : Byte) ∈ b := by
    intro a b e ha
    rw [e, List.mem_append] at h
    rcases h with h | h
    · exact absurd h ha
    · exact h
  rw [lexTok_eq]
  split
  · refine hdrop (r.takeWhile isKwRest) _ (by simp) ?_
    intro hm
    have := List.all_takeWhile (p := isKwRest) (l := r)
    rw [List.all_eq_true] at this
    have := this 10 hm
    simp [isKwRest_nl] at this
  · split
    · have h1 : (10 : Byte) ∈ r.drop (strBody r).length := by
        refine hdrop (strBody r) _ ?_ ?_
        · have e := List.takeWhile_append_dropWhile (p := fun c => c != 34 && c != 10) (l := r)
          have e2 : r.drop (strBody r).length = r.dropWhile (fun c => c != 34 && c != 10) := by
            conv => lhs; rhs; rw [← e]
            exact List.drop_left
          rw [e2]
          exact e.symm
        · intro hm
          have := List.all_takeWhile (p := fun c => c != 34 && c != 10) (l := r)
          rw [List.all_eq_true] at this
          have := this 10 hm
          simp at this
      show (10 : Byte) ∈ (match r.drop (strBody r).length with
        | 34 :: q => q
        | q => q)
      split
      · rename_i q e
        rw [e] at h1
        simpa using h1
      · exact h1
    · split
      · refine hdrop (numRest r) _ (numRest_prefix r.length r (Nat.le_refl _)) ?_
        intro hm
        have key : ∀ n (r : Bytes), r.length ≤ n → ∀ x ∈ numRest r, isDigit x = true ∨ x = 46 := by
          intro n
          induction n with
          | zero =>
            intro r h x hx
            have : r = [] := List.length_eq_zero_iff.1 (by omega)
            subst this; simp [numRest] at hx
          | succ n ih =>
            intro r h x hx
            rcases r with _ | ⟨c, _ | ⟨d, r⟩⟩
            · simp [numRest] at hx
            · rw [numRest] at hx
              split at hx
              · rename_i hh
                simp at hx; subst hx; simpa using hh
              · simp at hx
            · rw [numRest] at hx
              split at hx
              · rename_i hh
                split at hx
                · rename_i hd
                  simp only [List.mem_cons] at hx
                  rcases hx with rfl | rfl | hx
                  · right; simpa using hh
                  · left; exact hd
                  · exact ih r (by simp at h; omega) x hx
                · simp at hx; subst hx; right; simpa using hh
              · split at hx
                · rename_i hd
                  rcases List.mem_cons.1 hx with rfl | hx
                  · left; exact hd
                  · exact ih (d :: r) (by simp at h; simp; omega) x hx
                · simp at hx
        rcases key r.length r (Nat.le_refl _) 10 hm with h | h
        · exact absurd h (by decide)
        · exact absurd h (by decide)
      · repeat' split
        all_goals exact h

theorem lexTok_eof (c : Byte) (r : Bytes) : (lexTok c r).1.1 ≠ .endOfFile := by
  intro h
  rw [lexTok_eq] at h
  split at h
  · cases h
  · split at h
    · cases h
    · split at h
      · revert h
        split <;> intro h <;> cases h
      · repeat' split at h
        all_goals cases h

theorem strip_head {s r : Bytes} {c : Byte} (h : strip false s = c :: r) : isIgnored c = false := by
  have key : ∀ n (b : Bool) (s : Bytes), s.length ≤ n → strip b s = c :: r → isIgnored c = false := by
    intro n
    induction n with
    | zero =>
      intro b s hs h
      have : s = [] := List.length_eq_zero_iff.1 (by omega)
      subst this; simp [strip] at h
    | succ n ih =>
      intro b s hs h
      rcases s with _ | ⟨x, _ | ⟨y, s⟩⟩
      · simp [strip] at h
      · rw [strip] at h
        split at h
        · cases h
        · rename_i hh
          cases h
          simp [isBlank_eq] at hh
          exact hh.1.2
      · rw [strip] at h
        have h1 : (y :: s).length ≤ n := by simp at hs; simp; omega
        split at h
        · exact ih _ _ h1 h
        · split at h
          · exact ih _ _ h1 h
          · split at h
            · exact ih _ _ (by simp at h1; omega) h
            · rename_i hh _
              cases h
              simpa [isBlank_eq] using hh
  exact key _ false s (Nat.le_refl _) h

theorem strip_suffix (n : Nat) : ∀ (b : Bool) (s : Bytes), s.length ≤ n → ∃ a, s = a ++ strip b s := by
  induction n with
  | zero =>
    intro b s hs
    have : s = [] := List.length_eq_zero_iff.1 (by omega)
    subst this; exact ⟨[], rfl⟩
  | succ n ih =>
    intro b s hs
    rcases s with _ | ⟨x, _ | ⟨y, s⟩⟩
    · exact ⟨[], rfl⟩
    · rw [strip]
      split
      · exact ⟨[x], rfl⟩
      · exact ⟨[], rfl⟩
    · rw [strip]
      have h1 : (y :: s).length ≤ n := by simp at hs; simp; omega
      split
      · obtain ⟨a, e⟩ := ih (x != 10) _ h1
        exact ⟨x :: a, by rw [List.cons_append, ← e]⟩
      · split
        · obtain ⟨a, e⟩ := ih false _ h1
          exact ⟨x :: a, by rw [List.cons_append, ← e]⟩
        · split
          · obtain ⟨a, e⟩ := ih true s (by simp at h1; omega)
            exact ⟨x :: y :: a, by rw [List.cons_append, List.cons_append, ← e]⟩
          · exact ⟨[], rfl⟩

theorem lexOne_rest {s : Bytes} (he : Ended s) (hk : (lexOne s).1.1 ≠ .endOfFile) : (lexOne s).2 ≠ [] := by
  rw [lexOne] at hk ⊢
  cases hs : strip false s with
  | nil => rw [hs] at hk; exact absurd rfl hk
  | cons c r =>
    obtain ⟨a, e⟩ := strip_suffix _ false s (Nat.le_refl _)
    rw [hs] at e
    rw [e] at he
    have hc : c ≠ 10 := by
      rintro rfl
      have := strip_head hs
      simp [isIgnored_nl] at this
    have := lexTok_rest (c := c) (he.suffix.tail_mem hc)
    intro h0
    rw [h0] at this
    simp at this

/-- The tokenizer has the tokens `l` left. -/
def Rem (t : Tk) (l : List Tok) : Prop :=
  ∃ s, At t.rs.data t.rs.pos s ∧ Ended s ∧ s ≠ [] ∧ lex s = l

theorem Rem.length {t : Tk} {l : List Tok} (h : Rem t l) : l.length ≤ t.rs.data.length := by
  obtain ⟨s, h1, h2, h3, rfl⟩ := h
  have := lex_length h2
  have := h1.length
  omega

theorem Rem.not_eof {t : Tk} {l : List Tok} (h : Rem t l) : t.rs.pos < t.rs.data.length := by
  obtain ⟨s, h1, h2, h3, rfl⟩ := h
  have := List.length_pos_iff.2 h3
  have := h1.length
  omega

theorem back_eq {d : Bytes} {q m : Nat} {v : Bytes} (h : m ≤ d.length) :
    backtrack ⟨⟨d, q⟩, m, v⟩ = .ok ⟨⟨d, m⟩, m, v⟩ := by
  unfold backtrack
  rw [Rd.seek_beg h]

/-- The next token, and going back. -/
theorem Rem.next {t : Tk} {k : Tok} {l : List Tok} (h : Rem t (k :: l)) :
    ∃ t', next t = .ok (k.1, t') ∧ t'.value = k.2 ∧ Rem t' l ∧ t'.rs.data = t.rs.data ∧
      ∃ t'', backtrack t' = .ok t'' ∧ Rem t'' (k :: l) ∧ t''.rs.data = t.rs.data := by
  obtain ⟨s, h1, h2, h3, h4⟩ := h
  obtain ⟨⟨d, p⟩, m, v⟩ := t
  obtain ⟨q, m', a, g1, g2, g3, g4, g5⟩ := next_eq (m := m) (v := v) h1 h2
  rw [lex_step h2] at h4
  by_cases hk : (lexOne s).1.1 = .endOfFile
  · rw [if_pos hk] at h4; cases h4
  · rw [if_neg hk] at h4
    cases h4
    refine ⟨_, g1, rfl, ⟨_, g2, lexOne_ended h2, lexOne_rest h2 hk, rfl⟩, rfl, ?_⟩
    rcases g5 with ⟨e, _⟩ | ⟨b, u, e1, e2, e3, e4⟩
    · exact absurd e h3
    · refine ⟨_, back_eq e3.1, ⟨u, e3, ?_, e2, ?_⟩, rfl⟩
      · rw [e1] at h2; exact h2.suffix
      · have hu : Ended u := by
          have := h2
          rw [e1] at this
          exact this.suffix
        rw [lex_congr h2 hu e4, lex_step h2, if_neg hk]

/-- The end of the file, and going back. -/
theorem Rem.nextEof {t : Tk} (h : Rem t []) :
    ∃ t', Mds.next t = .ok (.endOfFile, t') ∧ t'.rs.pos = t.rs.data.length ∧ t'.rs.data = t.rs.data ∧
      ∃ t'', backtrack t' = .ok t'' ∧ Rem t'' [] ∧ t''.rs.data = t.rs.data := by
  obtain ⟨s, h1, h2, h3, h4⟩ := h
  obtain ⟨⟨d, p⟩, m, v⟩ := t
  obtain ⟨q, m', a, g1, g2, g3, g4, g5⟩ := next_eq (m := m) (v := v) h1 h2
  rw [lex_step h2] at h4
  by_cases hk : (lexOne s).1.1 = .endOfFile
  · rw [hk] at g1
    refine ⟨_, g1, ?_, rfl, ?_⟩
    · have : (lexOne s).2 = [] := by
        rw [lexOne] at hk ⊢
        cases hs : strip false s with
        | nil => rfl
        | cons c r =>
          rw [hs] at hk
          exact absurd hk (lexTok_eof c r)
      rw [this] at g2
      have := g2.length
      simpa using this.symm
    · rcases g5 with ⟨e, _⟩ | ⟨b, u, e1, e2, e3, e4⟩
      · exact absurd e h3
      · have hu : Ended u := by
          have := h2
          rw [e1] at this
          exact this.suffix
        exact ⟨_, back_eq e3.1, ⟨u, e3, hu, e2, by rw [lex_congr h2 hu e4, lex_step h2, if_pos hk]⟩, rfl⟩
  · rw [if_neg hk] at h4; cases h4

/-! ## Functions that read tokens -/

/-- `p` takes the tokens `l` and returns `a` if what follows satisfies `Q`. -/
def Parses {α} (p : P α) (l : List Tok) (a : α) (Q : List Tok → Prop) : Prop :=
  ∀ (t : Tk) (rest : List Tok), Q rest → Rem t (l ++ rest) →
    ∃ t', p t = .ok (a, t') ∧ Rem t' rest ∧ t'.rs.data = t.rs.data

/-- No condition. -/
def Any : List Tok → Prop := fun _ => True

/-- There is a next token, with the property. -/
def Head (q : Tok → Prop) (l : List Tok) : Prop := ∃ k r, l = k :: r ∧ q k

namespace P

theorem bind_ok {α β} {p : P α} {f : α → P β} {t t' : Tk} {a : α} (h : p t = .ok (a, t')) : (p >>= f) t = f a t' := by
  show P.bind p f t = _
  unfold P.bind
  rw [h]

theorem bind_err {α β} {p : P α} {f : α → P β} {t : Tk} {e : Fail} (h : p t = .error e) : (p >>= f) t = .error e := by
  show P.bind p f t = _
  unfold P.bind
  rw [h]

@[simp] theorem pure_def {α} (a : α) (t : Tk) : (Pure.pure a : P α) t = .ok (a, t) := rfl

end P

namespace Parses

theorem pure {α} (a : α) (Q : List Tok → Prop) : Parses (Pure.pure a : P α) [] a Q :=
  fun t _ _ h => ⟨t, rfl, h, rfl⟩

theorem bind {α β} {p : P α} {f : α → P β} {l1 l2 : List Tok} {a : α} {b : β} {Q1 Q2 : List Tok → Prop}
    (h1 : Parses p l1 a Q1) (h2 : Parses (f a) l2 b Q2) (hq : ∀ rest, Q2 rest → Q1 (l2 ++ rest)) :
    Parses (p >>= f) (l1 ++ l2) b Q2 := by
  intro t rest hr h
  rw [List.append_assoc] at h
  obtain ⟨t1, e1, r1, d1⟩ := h1 t _ (hq rest hr) h
  obtain ⟨t2, e2, r2, d2⟩ := h2 t1 rest hr r1
  exact ⟨t2, by rw [P.bind_ok e1, e2], r2, by rw [d2, d1]⟩

theorem mono {α} {p : P α} {l : List Tok} {a : α} {Q R : List Tok → Prop} (h : Parses p l a Q) (hq : ∀ r, R r → Q r) :
    Parses p l a R := fun t rest hr => h t rest (hq rest hr)

theorem congr {α} {p : P α} {l l' : List Tok} {a a' : α} {Q : List Tok → Prop} (h : Parses p l a Q) (hl : l = l') (ha : a = a') :
    Parses p l' a' Q := by subst hl; subst ha; exact h

/-- A token first. -/
theorem cons {α β} {p : P α} {f : α → P β} {k : Tok} {l2 : List Tok} {a : α} {b : β} {Q2 : List Tok → Prop}
    (h1 : Parses p [k] a Any) (h2 : Parses (f a) l2 b Q2) : Parses (p >>= f) (k :: l2) b Q2 :=
  bind h1 h2 (fun _ _ => trivial)

theorem last {α β} {p : P α} {f : α → β} {l : List Tok} {a : α} {Q : List Tok → Prop} (h1 : Parses p l a Q) :
    Parses (p >>= fun x => (Pure.pure (f x) : P β)) l (f a) Q := by
  have := bind (l2 := []) (b := f a) (Q2 := Q) (f := fun x => (Pure.pure (f x) : P β)) h1 (Parses.pure (f a) Q) (fun _ h => h)
  simpa using this

theorem ite_true {α} {p q : P α} {l : List Tok} {a : α} {Q : List Tok → Prop} {c : Prop} [Decidable c] (hc : c)
    (h : Parses p l a Q) : Parses (if c then p else q) l a Q := by rw [if_pos hc]; exact h

theorem ite_false {α} {p q : P α} {l : List Tok} {a : α} {Q : List Tok → Prop} {c : Prop} [Decidable c] (hc : ¬ c)
    (h : Parses q l a Q) : Parses (if c then p else q) l a Q := by rw [if_neg hc]; exact h

/-- A loop that is given more turns than there are characters. -/
theorem turns {α} {f : Nat → P α} {l : List Tok} {a : α} {Q : List Tok → Prop} (h : ∀ n, l.length < n → Parses (f n) l a Q) :
    Parses (Mds.turns >>= f) l a Q := by
  intro t rest hr hrem
  have hl := hrem.length
  rw [List.length_append] at hl
  have e : Mds.turns t = .ok (t.rs.data.length + 2, t) := rfl
  rw [P.bind_ok e]
  exact h _ (by omega) t rest hr hrem

theorem lift {α} {x : Except Fail α} {a : α} (h : x = .ok a) (Q : List Tok → Prop) : Parses (Mds.lift x) [] a Q := by
  intro t rest _ hr
  exact ⟨t, by rw [h]; rfl, hr, rfl⟩

end Parses

theorem lift_ok {α} {x : Except Fail α} {a : α} (h : x = .ok a) (t : Tk) : lift x t = .ok (a, t) := by rw [h]; rfl

theorem maybe_yes (k : Tok) : ∀ t rest, Rem t (k :: rest) →
    ∃ t', maybe k.1 t = .ok (true, t') ∧ t'.value = k.2 ∧ Rem t' rest ∧ t'.rs.data = t.rs.data ∧
      ∃ t'', backtrack t' = .ok t'' ∧ Rem t'' (k :: rest) ∧ t''.rs.data = t.rs.data := by
  intro t rest h
  obtain ⟨t', e, v, r, d, b⟩ := h.next
  refine ⟨t', ?_, v, r, d, b⟩
  unfold maybe
  have e' : pNext t = .ok (k.1, t') := e
  rw [P.bind_ok e', if_neg (by simp)]
  rfl

theorem maybe_no {kind : Token} {k : Tok} (hk : k.1 ≠ kind) : ∀ t rest, Rem t (k :: rest) →
    ∃ t', maybe kind t = .ok (false, t') ∧ Rem t' (k :: rest) ∧ t'.rs.data = t.rs.data := by
  intro t rest h
  obtain ⟨t', e, v, r, d, t'', b, rb, db⟩ := h.next
  refine ⟨t'', ?_, rb, db⟩
  unfold maybe
  have e' : pNext t = .ok (k.1, t') := e
  have eb : pBack t' = .ok ((), t'') := by unfold pBack; rw [b]
  rw [P.bind_ok e', if_pos hk, P.bind_ok eb]
  rfl

namespace Parses

theorem maybe (k : Tok) : Parses (Mds.maybe k.1) [k] true Any := by
  intro t rest _ h
  obtain ⟨t', e, _, r, d, _⟩ := maybe_yes k t rest h
  exact ⟨t', e, r, d⟩

theorem maybeNot (kind : Token) : Parses (Mds.maybe kind) [] false (Head (fun k => k.1 ≠ kind)) := by
  rintro t rest ⟨k, r, rfl, hk⟩ h
  exact maybe_no hk t r h

theorem expect (k : Tok) : Parses (Mds.expect k.1) [k] () Any := by
  have := cons (f := fun b : Bool => if b then (Pure.pure () : P Unit) else syntaxError) (maybe k)
    (Parses.pure (α := Unit) () Any)
  exact this

/-- A token of some kind, and its text. -/
theorem value {k : Tok} : ∀ t rest, Rem t (k :: rest) →
    ∃ t', (do Mds.expect k.1; pValue : P Bytes) t = .ok (k.2, t') ∧ Rem t' rest ∧ t'.rs.data = t.rs.data := by
  intro t rest h
  obtain ⟨t', e, v, r, d, _⟩ := maybe_yes k t rest h
  refine ⟨t', ?_, r, d⟩
  have e2 : Mds.expect k.1 t = .ok ((), t') := by
    unfold Mds.expect
    rw [P.bind_ok e]
    rfl
  rw [P.bind_ok e2]
  unfold pValue
  rw [v]

theorem string (s : Bytes) : Parses expectString [str s] s Any := fun t rest _ h => value (k := str s) t rest h

theorem keyword (s : Bytes) : Parses expectKeyword [(.keyword, s)] s Any := fun t rest _ h => value (k := (.keyword, s)) t rest h

theorem thisKeyword {n : Bytes} (k : Kw n) : Parses (expectThisKeyword n) [k.tok] () Any := by
  intro t rest _ h
  obtain ⟨t', e, v, r, d, _⟩ := maybe_yes k.tok t rest h
  refine ⟨t', ?_, r, d⟩
  have e' : Mds.maybe .keyword t = .ok (true, t') := e
  have e2 : Mds.expect .keyword t = .ok ((), t') := by
    unfold Mds.expect
    rw [P.bind_ok e']
    rfl
  have e3 : pValue t' = .ok (k.txt, t') := by unfold pValue; rw [v]; rfl
  unfold expectThisKeyword
  rw [P.bind_ok e2, P.bind_ok e3, if_pos k.ok]
  rfl

theorem stoi (i : IntLit) : Mds.stoi i.txt = .ok i.val := by
  unfold Mds.stoi
  rw [i.ok]
  simp only
  have h1 := BitVec.toInt_lt (x := i.val)
  have h2 := BitVec.le_toInt i.val
  rw [if_pos (by omega), BitVec.ofInt_toInt]

theorem stof (i : NumLit) : Mds.stof i.txt = .ok i.val := by
  unfold Mds.stof
  rw [i.ok]

theorem int (i : IntLit) : Parses expectInt [i.tok] i.val Any := by
  intro t rest _ h
  obtain ⟨t', e, v, r, d, _⟩ := maybe_yes i.tok t rest h
  refine ⟨t', ?_, r, d⟩
  have e' : Mds.maybe .integer t = .ok (true, t') := e
  have e2 : Mds.expect .integer t = .ok ((), t') := by
    unfold Mds.expect
    rw [P.bind_ok e']
    rfl
  have e3 : pValue t' = .ok (i.txt, t') := by unfold pValue; rw [v]; rfl
  unfold expectInt
  rw [P.bind_ok e2, P.bind_ok e3, lift_ok (stoi i)]

theorem maybeInt (i : IntLit) : Parses Mds.maybeInt [i.tok] (some i.val) Any := by
  intro t rest _ h
  obtain ⟨t', e, v, r, d, _⟩ := maybe_yes i.tok t rest h
  refine ⟨t', ?_, r, d⟩
  have e3 : pValue t' = .ok (i.txt, t') := by unfold pValue; rw [v]; rfl
  have e4 : Mds.lift (Mds.stoi i.txt) t' = .ok (i.val, t') := lift_ok (stoi i) t'
  unfold Mds.maybeInt
  have e' : Mds.maybe .integer t = .ok (true, t') := e
  rw [P.bind_ok e', if_pos rfl, P.bind_ok e3, P.bind_ok e4]
  rfl

theorem maybeIntNot : Parses Mds.maybeInt [] none (Head (fun k => k.1 ≠ .integer)) := by
  unfold Mds.maybeInt
  exact bind (l2 := []) (maybeNot .integer) (Parses.pure (α := Option (BitVec 32)) none _) (fun _ h => h)

theorem maybeString (s : Bytes) : Parses Mds.maybeString [str s] (some s) Any := by
  intro t rest _ h
  obtain ⟨t', e, v, r, d, _⟩ := maybe_yes (str s) t rest h
  refine ⟨t', ?_, r, d⟩
  have e3 : pValue t' = .ok (s, t') := by unfold pValue; rw [v]; rfl
  unfold Mds.maybeString
  have e' : Mds.maybe .string t = .ok (true, t') := e
  rw [P.bind_ok e', if_pos rfl, P.bind_ok e3]
  rfl

theorem maybeStringNot : Parses Mds.maybeString [] none (Head (fun k => k.1 ≠ .string)) := by
  unfold Mds.maybeString
  exact bind (l2 := []) (maybeNot .string) (Parses.pure (α := Option Bytes) none _) (fun _ h => h)

theorem maybeNumber (i : NumLit) : Parses Mds.maybeNumber [i.tok] (some i.val) Any := by
  intro t rest _ h
  obtain ⟨t', e, v, r, d, _⟩ := Rem.next h
  refine ⟨t', ?_, r, d⟩
  have e1 : pNext t = .ok (i.tok.1, t') := e
  have e3 : pValue t' = .ok (i.txt, t') := by unfold pValue; rw [v]; rfl
  have e4 : Mds.lift (Mds.stof i.txt) t' = .ok (i.val, t') := lift_ok (stof i) t'
  unfold Mds.maybeNumber
  rw [P.bind_ok e1, if_neg ?_, P.bind_ok e3, P.bind_ok e4]
  · rfl
  · unfold NumLit.tok
    cases i.dot <;> simp

theorem maybeNumberNot : Parses Mds.maybeNumber [] none (Head (fun k => k.1 ≠ .integer ∧ k.1 ≠ .float)) := by
  rintro t rest ⟨k, r, rfl, hk⟩ h
  obtain ⟨t', e, v, rr, d, t'', b, rb, db⟩ := Rem.next (l := r) (k := k) h
  refine ⟨t'', ?_, rb, db⟩
  have e1 : pNext t = .ok (k.1, t') := e
  have eb : pBack t' = .ok ((), t'') := by unfold pBack; rw [b]
  unfold Mds.maybeNumber
  rw [P.bind_ok e1, if_pos hk, P.bind_ok eb]
  rfl

theorem number (i : NumLit) : Parses expectNumber [i.tok] i.val Any := by
  unfold expectNumber
  exact cons (maybeNumber i) (Parses.pure (α := BitVec 32) i.val Any)

theorem maybeKeyword {n : Bytes} (k : Kw n) : Parses (Mds.maybeKeyword n) [k.tok] true Any := by
  intro t rest _ h
  obtain ⟨t', e, v, r, d, _⟩ := maybe_yes k.tok t rest h
  refine ⟨t', ?_, r, d⟩
  have e3 : pValue t' = .ok (k.txt, t') := by unfold pValue; rw [v]; rfl
  unfold Mds.maybeKeyword
  have e' : Mds.maybe .keyword t = .ok (true, t') := e
  rw [P.bind_ok e', if_pos rfl, P.bind_ok e3, if_pos k.ok]
  rfl

end Parses

/-- The token is not this keyword. -/
def NotKw (n : Bytes) (k : Tok) : Prop := k.1 ≠ .keyword ∨ iequals k.2 n = false

namespace Parses

theorem maybeKeywordNot (n : Bytes) : Parses (Mds.maybeKeyword n) [] false (Head (NotKw n)) := by
  rintro t rest ⟨k, r, rfl, hk⟩ h
  by_cases hkw : k.1 = .keyword
  · have hn : iequals k.2 n = false := by
      rcases hk with hk | hk
      · exact absurd hkw hk
      · exact hk
    obtain ⟨t', e, v, _, _, t'', b, rb, db⟩ := maybe_yes k t r h
    refine ⟨t'', ?_, rb, db⟩
    have e3 : pValue t' = .ok (k.2, t') := by unfold pValue; rw [v]
    have eb : pBack t' = .ok ((), t'') := by unfold pBack; rw [b]
    unfold Mds.maybeKeyword
    rw [hkw] at e
    rw [P.bind_ok e, if_pos rfl, P.bind_ok e3, if_neg (by simp [hn]), P.bind_ok eb]
    rfl
  · obtain ⟨t', e, rr, d⟩ := maybe_no hkw t r h
    refine ⟨t', ?_, rr, d⟩
    unfold Mds.maybeKeyword
    rw [P.bind_ok e]
    rfl

theorem maybeNamed {n : Bytes} (k : Named n) : Parses (Mds.maybeNamed n) k.toks (some k.num.val) Any := by
  unfold Mds.maybeNamed
  refine cons (maybeKeyword k.key) ?_
  rw [if_pos rfl]
  exact cons (expect colonTok) (last (f := some) (number k.num))

theorem maybeNamedNot (n : Bytes) : Parses (Mds.maybeNamed n) [] none (Head (NotKw n)) := by
  unfold Mds.maybeNamed
  exact bind (l2 := []) (maybeKeywordNot n) (Parses.pure (α := Option (BitVec 32)) none _) (fun _ h => h)

theorem orLeft {a b : P Bool} {l : List Tok} {Q : List Tok → Prop} (h : Parses a l true Q) : Parses (orElse a b) l true Q := by
  unfold orElse
  have := bind (l2 := []) (Q2 := Q) (f := fun x : Bool => if x then (Pure.pure true : P Bool) else b) h
    (Parses.pure (α := Bool) true Q) (fun _ h => h)
  simpa using this

theorem orRight {a b : P Bool} {l : List Tok} {v : Bool} {Q R : List Tok → Prop} (h1 : Parses a [] false Q)
    (h2 : Parses b l v R) (hq : ∀ r, R r → Q (l ++ r)) : Parses (orElse a b) l v R := by
  unfold orElse
  exact bind (l1 := []) (f := fun x : Bool => if x then (Pure.pure true : P Bool) else b) h1 h2 hq

end Parses

/-! ## Keywords -/

theorem iequals_of {a n : Bytes} (h : iequals a n = true) (m : Bytes) : iequals a m = iequals n m := by
  have h1 := (Vfs.iequals_iff a n).1 h
  have e : ∀ x y : Bytes, iequals x m = true → Spec.fold x = Spec.fold y → iequals y m = true := by
    intro x y hx hxy
    rw [Vfs.iequals_iff] at hx ⊢
    rw [← hxy, hx]
  rcases hb : iequals n m with _ | _
  · rcases ha : iequals a m with _ | _
    · rfl
    · rw [e a n ha h1] at hb; cases hb
  · exact e n a hb h1.symm

end Verif.Mds
