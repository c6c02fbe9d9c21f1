import Verif.Lemmas.Mds

/-!
# C53: the tokenizer of model scripts ends
-/

namespace Verif.Props

open Mds

/-- C53, restricted: a text of whole lines whose last line does not end with a slash is read token by token, as the
description of tokens (`Spec/Mds.lean`) says, until the end of the file is reported; there are no more tokens than characters.
Missing: other texts, see the violations below. -/
theorem c53_tokens_partial (s : Bytes) (h : Ended s) : Runs (start s) (lex s) ∧ (lex s).length ≤ s.length :=
  runs_lexN s.length s s 0 0 [] (Nat.le_refl _) (At.of_split [] s) h

example : Ended b!"Model (\"HUM\") // x\n{ ani 1.5 }\n" ∧
    lex b!"Model (\"HUM\") // x\n{ ani -1.5 }\n" =
      [(.keyword, b!"Model"), (.string, b!"HUM"), (.lbrace, []), (.keyword, b!"ani"), (.float, b!"-1.5"), (.rbrace, [])] := by
  refine ⟨.inr (.inr ⟨b!"Model (\"HUM\") // x\n{ ani 1.5 ", 125, by decide, by decide⟩), by decide +kernel⟩

/-- C53, restricted: from wherever the tokenizer is in such a text, with whatever mark and value, the next token is found
and is behind the place where the search began, or the end of the file is reported. -/
theorem c53_next_partial (t : Tk) (hp : t.rs.pos ≤ t.rs.data.length) (h : Ended t.rs.data) :
    ∃ k t', next t = .ok (k, t') ∧ t'.rs.data = t.rs.data ∧ t'.rs.pos ≤ t.rs.data.length ∧
      (k ≠ .endOfFile → t.rs.pos < t'.rs.pos) ∧ (k = .endOfFile → t'.rs.pos = t.rs.data.length) := by
  obtain ⟨⟨d, p⟩, m, v⟩ := t
  have hat : At d p (d.drop p) := ⟨hp, rfl⟩
  have he : Ended (d.drop p) := by
    have : Ended (d.take p ++ d.drop p) := by rw [List.take_append_drop]; exact h
    exact this.suffix
  obtain ⟨q, m', a, g1, g2, g3, g4, _⟩ := next_eq (m := m) (v := v) hat he
  refine ⟨_, _, g1, rfl, g2.1, ?_, ?_⟩
  · intro hk
    have h1 := List.length_pos_iff.2 (g4 hk)
    have h2 := congrArg List.length g3
    have h3 := g2.length
    have h4 := hat.length
    rw [List.length_append] at h2
    simp only
    omega
  · intro hk
    have : (lexOne (d.drop p)).2 = [] := by
      revert hk
      rw [lexOne]
      cases strip false (d.drop p) with
      | nil => intro; rfl
      | cons c r =>
        intro hk
        exfalso
        revert hk
        simp only [lexTok_eq]
        repeat' split
        all_goals simp
    have h3 := g2.length
    rw [this] at h3
    simpa using h3.symm

example : ∃ t : Tk, t.rs.pos ≤ t.rs.data.length ∧ Ended t.rs.data ∧ 0 < t.rs.pos ∧ t.rs.pos < t.rs.data.length :=
  ⟨⟨⟨b!"ani }\n", 2⟩, 0, []⟩, by decide, .inr (.inr ⟨b!"ani ", 125, by decide, by decide⟩), by decide, by decide⟩

/-- Against C53: a comment in the last line of a text, without an end of line, is read forever. -/
theorem c53_comment_violation (pre rest : Bytes) (h : (10 : Byte) ∉ rest.drop 1) (m : Nat) (v : Bytes) :
    next ⟨⟨pre ++ 47 :: rest, pre.length⟩, m, v⟩ = .error .hang := by
  have hat := At.of_split pre (47 :: rest)
  obtain ⟨fuel, e⟩ := next_step (m := m) (v := v) hat
  rw [e, if_neg (by decide), if_pos (by decide)]
  have : comment ((pre ++ 47 :: rest).length + 2) ⟨pre ++ 47 :: rest, pre.length + 1⟩ = .error .hang := by
    rcases rest with _ | ⟨c, r⟩
    · have hl : pre.length + 1 = (pre ++ [47]).length := by simp
      rw [comment, hl, Rd.bind_ok char_eof]
      exact lineLoop_hang _ [] _ _ ⟨Nat.le_refl _, by simp⟩ (by simp)
    · rw [comment, Rd.bind_ok (char_at hat.succ)]
      exact lineLoop_hang _ r _ _ hat.succ.succ (by simpa using h)
  rw [this]

example : next (start b!"// end") = .error .hang := c53_comment_violation [] b!"/ end" (by decide) 0 []

/-- Against C53: so is a single slash at the end of the last line, although the line is ended. -/
theorem c53_slash_violation (pre : Bytes) (m : Nat) (v : Bytes) :
    next ⟨⟨pre ++ [47, 10], pre.length⟩, m, v⟩ = .error .hang :=
  c53_comment_violation pre [10] (by decide) m v

/-- Against C53: a string without a closing quotation mark in a last line without an end is read forever. -/
theorem c53_string_violation (pre body : Bytes) (h : ∀ c ∈ body, c ≠ 34 ∧ c ≠ 10) (m : Nat) (v : Bytes) :
    next ⟨⟨pre ++ 34 :: body, pre.length⟩, m, v⟩ = .error .hang := by
  have hat := At.of_split pre (34 :: body)
  obtain ⟨fuel, e⟩ := next_step (m := m) (v := v) hat
  rw [e, if_neg (by decide), if_neg (by decide), token_string]
  rcases body with _ | ⟨c, r⟩
  · have hl : pre.length + 1 = (pre ++ [34]).length := by simp
    rw [hl, Rd.bind_ok char_eof, Rd.bind_err
      (strLoop_hang _ [] _ _ 0 _ _ ⟨Nat.le_refl _, by simp⟩ (by decide) (by simp))]
  · have hg : ∀ x ∈ c :: r, (x != 34 && x != 10) = true := fun x hx => by
      have := h x hx; simpa using this
    rw [Rd.bind_ok (char_at hat.succ), Rd.bind_err
      (strLoop_hang _ r _ _ c _ _ hat.succ.succ (hg c (by simp)) (fun x hx => hg x (by simp [hx])))]

example : next (start b!"\"HUM.ASC)") = .error .hang := c53_string_violation [] b!"HUM.ASC)" (by decide) 0 []

/-- Against C53: a text that ends with a letter, or another character a keyword may start with, is never read to its end:
the last character is a token again and again. -/
theorem c53_keyword_violation (pre : Bytes) (c : Byte) (h : isKwFirst c = true) (m : Nat) (v : Bytes) (l : List (Token × Bytes)) :
    ¬ Runs ⟨⟨pre ++ [c], pre.length⟩, m, v⟩ l := by
  have hat := At.of_split pre [c]
  have hi := kwFirst_char h
  have hlen : (pre ++ [c]).length = pre.length + 1 := by simp
  have hn : ∀ m v, next ⟨⟨pre ++ [c], pre.length⟩, m, v⟩ = .ok (.keyword, ⟨⟨pre ++ [c], pre.length⟩, pre.length, [c]⟩) := by
    intro m v
    obtain ⟨fuel, e⟩ := next_step (m := m) (v := v) hat
    have hk : kwLoop ((pre ++ [c]).length + 2) c [] ⟨pre ++ [c], pre.length + 1⟩ = .ok ([c], ⟨pre ++ [c], pre.length + 1⟩) := by
      have he := char_eof (d := pre ++ [c])
      rw [hlen] at he
      rw [kwLoop, Rd.bind_ok he]
      rfl
    rw [e, if_neg (by simp [hi.1]), if_neg (by simpa using hi.2), token, if_pos h, Rd.bind_ok hk,
      Rd.bind_ok (seek_back (by omega))]
    rfl
  intro hr
  generalize ht : (⟨⟨pre ++ [c], pre.length⟩, m, v⟩ : Tk) = t at hr
  induction hr generalizing m v with
  | stop h => subst ht; rw [hn] at h; simp at h
  | step h1 h2 h3 ih =>
    subst ht
    rw [hn] at h1
    cases h1
    exact ih _ _ rfl

example : isKwFirst 84 = true := rfl

/-- Against C53: and one that ends with a digit. -/
theorem c53_number_violation (pre : Bytes) (c : Byte) (h : isDigit c = true) (m : Nat) (v : Bytes) (l : List (Token × Bytes)) :
    ¬ Runs ⟨⟨pre ++ [c], pre.length⟩, m, v⟩ l := by
  have hat := At.of_split pre [c]
  have hi := digit_char h
  have hlen : (pre ++ [c]).length = pre.length + 1 := by simp
  have hn : ∀ m v, next ⟨⟨pre ++ [c], pre.length⟩, m, v⟩ = .ok (.integer, ⟨⟨pre ++ [c], pre.length⟩, pre.length, [c]⟩) := by
    intro m v
    obtain ⟨fuel, e⟩ := next_step (m := m) (v := v) hat
    have hk : numLoop ((pre ++ [c]).length + 2) c false [] ⟨pre ++ [c], pre.length + 1⟩ =
        .ok ((false, [c]), ⟨pre ++ [c], pre.length + 1⟩) := by
      have he := char_eof (d := pre ++ [c])
      rw [hlen] at he
      rw [numLoop, Rd.bind_ok he]
      rfl
    rw [e, if_neg (by simp [hi.1]), if_neg (by simpa using hi.2.1), token_num hi.2.2.1 hi.2.2.2 (by simp [h]), Rd.bind_ok hk]
    simp only
    rw [Rd.bind_ok (seek_back (by omega))]
    rfl
  intro hr
  generalize ht : (⟨⟨pre ++ [c], pre.length⟩, m, v⟩ : Tk) = t at hr
  induction hr generalizing m v with
  | stop h => subst ht; rw [hn] at h; simp at h
  | step h1 h2 h3 ih =>
    subst ht
    rw [hn] at h1
    cases h1
    exact ih _ _ rfl

example : isDigit 53 = true := rfl

/-- Against C53: the block of an `aniComb` or `aniBlend` that is not closed is skipped forever, even in a text of whole lines. -/
theorem c53_block_violation (fuel : Nat) (t : Tk) (hp : t.rs.pos ≤ t.rs.data.length) (h : Ended t.rs.data)
    (hb : (125 : Byte) ∉ t.rs.data) : ignoreBlock fuel t = .error .hang := by
  induction fuel generalizing t with
  | zero => rfl
  | succ fuel ih =>
    obtain ⟨⟨d, p⟩, m, v⟩ := t
    have hat : At d p (d.drop p) := ⟨hp, rfl⟩
    have he : Ended (d.drop p) := by
      have : Ended (d.take p ++ d.drop p) := by rw [List.take_append_drop]; exact h
      exact this.suffix
    obtain ⟨q, m', a, g1, g2, g3, g4, _⟩ := next_eq (m := m) (v := v) hat he
    rw [ignoreBlock, g1]
    have hk : (lexOne (d.drop p)).1.1 ≠ .rbrace := by
      intro hk
      rw [lexOne] at hk
      cases hs : strip false (d.drop p) with
      | nil => rw [hs] at hk; cases hk
      | cons c r =>
        rw [hs] at hk
        have hc := lexTok_rbrace hk
        subst hc
        exact hb (List.mem_of_mem_drop (strip_mem _ false (d.drop p) (Nat.le_refl _) 125 (by rw [hs]; simp)))
    simp only [if_neg hk]
    exact ih _ g2.1 h hb

example : ∃ t : Tk, t.rs.pos ≤ t.rs.data.length ∧ Ended t.rs.data ∧ (125 : Byte) ∉ t.rs.data ∧ t.rs.data.length = 6 :=
  ⟨start b!"{ ani\n", by decide, .inr (.inr ⟨b!"{ an", 105, by decide, by decide⟩), by decide, by decide⟩

end Verif.Props
