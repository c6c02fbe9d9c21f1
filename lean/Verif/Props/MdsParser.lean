import Verif.Lemmas.MdsItems

/-!
# C75: a model script is read as it is written
-/

namespace Verif.Props

open Mds

/-- C75, restricted: a text of whole lines whose tokens are those of a model script gives exactly what the script says, added
to what was there; whatever follows the closing brace of the script is not looked at.
Missing: animations without braces at the end of a list, blends without flags before a keyword that does not have `ani` or
`model` in small letters (see the violations), and texts that the tokenizer does not finish (C53). -/
theorem c75_script_partial (src : Source) (h : src.Ok) (s : Bytes) (he : Ended s) (hl : lex s = src.toks) (script : Script) :
    ∃ t, parseScript script (start s) = .ok (src.apply script, t) := by
  have hne : s ≠ [] := by
    rintro rfl
    cases hl
  have e : src.toks = (src.key.tok :: str src.name :: openTok :: (src.tops.flatMap Top.toks ++ [closeTok])) ++ src.rest := by
    simp [Source.toks]
  obtain ⟨t, ht, _⟩ := script_parses src script h (start s) src.rest trivial
    ⟨s, At.of_split [] s, he, hne, by rw [hl, e]⟩
  exact ⟨t, ht⟩

/-- An animation with events, a blend and a mesh, in other letter cases, without and with braces, with text behind. -/
def sampleSource : Source :=
  let int (txt : Bytes) (v : BitVec 32) (h : strtol txt = some (v.toInt, []) := by decide +kernel) : IntLit := ⟨txt, v, h⟩
  let num (txt : Bytes) (v : BitVec 32) (h : (FText.strtof txt).1 = .num v false := by decide +kernel) : NumLit := ⟨46 ∈ txt, txt, v, h⟩
  let c : Common := ⟨b!"S_RUN", int b!"1" 1, b!"S_WALK", num b!"0.5" 0x3F000000, num b!"0" 0, ⟨b!"ME", true⟩, b!"Hum.asc"⟩
  ⟨⟨b!"MODEL", by decide⟩, b!"HuS",
    [.meshAndTree (kw b!"meshAndTree") b!"Hum.asc" (some (kw b!"DONT_USE_MESH")),
     .aniEnum (kw b!"aniEnum")
      [.ani (kw b!"ani") ⟨c, ⟨.backward, kw b!"R"⟩, int b!"0" 0, int b!"-7" (-7), some ⟨kw b!"FPS", num b!"10" 0x41200000⟩, none, false,
        [.frames (kw b!"*eventTag") none b!"DEF_OPT_FRAME" [3, -4] none none (by decide) (by decide),
         .sfx (kw b!"*eventSFX") (int b!"9" 9) b!"STEP" (some ⟨kw b!"R", num b!"10" 0x41200000⟩) (.wrong (kw b!"EMTPY_SLOT"))]⟩,
       .blend (kw b!"aniBlend") ⟨b!"A", none, b!"B", .one (num b!"0.5" 0x3F000000), none, none⟩,
       .alias_ (kw b!"aniAlias") c (some ⟨.forward, kw b!"F"⟩)],
     .registerMesh ⟨b!"REGISTERMESH", by decide⟩ b!"ARMOR"], [closeTok]⟩

def sampleText : Bytes :=
  b!"MODEL (\"HuS\") {\n meshAndTree (\"Hum.asc\" DONT_USE_MESH)\n aniEnum { // list\n  ani (\"S_RUN\" 1 \"S_WALK\" 0.5 0 ME: \"Hum.asc\" R 0 -7 FPS:10)\n *eventTag (\"DEF_OPT_FRAME\" \"3 -4\")\n *eventSFX (9 \"STEP\" R:10 EMTPY_SLOT)\n aniBlend (\"A\" \"B\" 0.5)\n aniAlias (\"S_RUN\" 1 \"S_WALK\" 0.5 0 ME: \"Hum.asc\" F)\n }\n REGISTERMESH (\"ARMOR\")\n}\n}\n"

example : sampleSource.Ok ∧ Ended sampleText ∧ lex sampleText = sampleSource.toks ∧
    (sampleSource.apply {}).animations.length = 1 ∧ (sampleSource.apply {}).meshes = [b!"ARMOR"] := by
  refine ⟨?_, .inr (.inr ⟨sampleText.dropLast.dropLast, 125, by decide, by decide +kernel⟩), by decide +kernel, by decide +kernel,
    by decide +kernel⟩
  intro t ht
  simp only [sampleSource, List.mem_cons, List.not_mem_nil, or_false] at ht
  rcases ht with rfl | rfl | rfl
  · trivial
  · refine ⟨.inr (by decide), ⟨fun f hf => (by cases hf), fun _ _ k hk => ?_⟩, trivial, trivial⟩
    have : k = b!"aniAlias" := (Option.some.inj hk).symm
    subst this
    exact .inl ⟨[], b!"Alias", rfl⟩
  · trivial

/-- C75, the rest of the claim fails: the events of an animation without braces take the brace that closes the list. The list
then goes on, a mesh registered behind it is skipped as an unknown keyword of the list, and no error is reported. -/
theorem c75_brace_violation :
    (parseScript {} (start b!"Model (\"H\") {\naniEnum {\nani (\"A\" 1 \"A\" 0 0 M \"M\" F 0 9)\n}\nregisterMesh (\"ARMOR\")\n}\n")).map
      (fun r => (r.1.animations.length, r.1.meshes)) = .ok (1, []) ∧
    (parseScript {} (start b!"Model (\"H\") {\naniEnum {\nani (\"A\" 1 \"A\" 0 0 M \"M\" F 0 9) {}\n}\nregisterMesh (\"ARMOR\")\n}\n")).map
      (fun r => (r.1.animations.length, r.1.meshes)) = .ok (1, [b!"ARMOR"]) := by
  decide +kernel

/-- C75, the rest of the claim fails: a keyword behind a blend without flags is taken for its flags when it is not written
in small letters, though keywords may otherwise be in any letter case; the script is then rejected. -/
theorem c75_case_violation :
    (parseScript {} (start b!"Model (\"H\") {\naniEnum {\naniBlend (\"A\" \"B\")\nANIDISABLE (\"C\")\n}\n}\n")).map (fun r => r.1)
      = .error (.throw .parser) ∧
    (parseScript {} (start b!"Model (\"H\") {\naniEnum {\naniBlend (\"A\" \"B\")\naniDisable (\"C\")\n}\n}\n")).map (fun r => r.1.disabled)
      = .ok [b!"C"] ∧
    (parseScript {} (start b!"Model (\"H\") {\naniEnum {\nANIDISABLE (\"C\")\n}\n}\n")).map (fun r => r.1.disabled)
      = .ok [b!"C"] := by
  decide +kernel

/-- C75, the rest of the claim fails: a space behind the last number of a list of frames repeats that frame, and an empty list
of frames gives the frame 0. -/
theorem c75_frames_violation :
    (parseScript {} (start b!"Model (\"H\") {\naniEnum {\nani (\"A\" 1 \"A\" 0 0 M \"M\" F 0 9) {\n*eventTag (0 \"DEF_HIT_END\" \"3 5 \")\n*eventTag (0 \"DEF_HIT_END\" \"\")\n}\n}\n}\n")).map
      (fun r => r.1.animations.map (fun a => a.events.map (·.frames))) = .ok [[[3, 5, 5], [0]]] := by
  decide +kernel

/-- C75, the rest of the claim fails: a string that ends with a closing parenthesis loses it. -/
theorem c75_paren_violation :
    (parseScript {} (start b!"Model (\"H\") {\nregisterMesh (\"ARMOR(1)\")\n}\n")).map (fun r => r.1.meshes) = .ok [b!"ARMOR(1"] := by
  decide +kernel

/-- C75: what is not a model script is rejected: whatever the text, if its first token is not `Model` in some letter case, the
parser reports a syntax error. -/
theorem c75_not_model (s : Bytes) (he : Ended s) (k : Tok) (l : List Tok) (hl : lex s = k :: l)
    (hk : ¬ (k.1 = .keyword ∧ Vfs.iequals k.2 b!"Model" = true)) (script : Script) :
    parseScript script (start s) = .error (.throw .parser) := by
  have hne : s ≠ [] := by rintro rfl; cases hl
  have hr : Rem (start s) (k :: l) := ⟨s, At.of_split [] s, he, hne, hl⟩
  have key : expectThisKeyword b!"Model" (start s) = .error (.throw .parser) := by
    unfold expectThisKeyword
    by_cases h1 : k.1 = .keyword
    · obtain ⟨k1, k2⟩ := k
      simp only at h1
      subst h1
      obtain ⟨t', e, v, _⟩ := maybe_yes (.keyword, k2) _ l hr
      have e2 : expect .keyword (start s) = .ok ((), t') := by
        unfold expect
        have e' : maybe .keyword (start s) = .ok (true, t') := e
        rw [P.bind_ok e']
        rfl
      have e3 : pValue t' = .ok (k2, t') := by unfold pValue; rw [v]
      rw [P.bind_ok e2, P.bind_ok e3]
      have : Vfs.iequals k2 b!"Model" = false := by
        cases h : Vfs.iequals k2 b!"Model" with
        | false => rfl
        | true => exact absurd ⟨rfl, h⟩ hk
      rw [this]
      rfl
    · obtain ⟨t', e, _⟩ := maybe_no (kind := .keyword) (k := k) h1 _ l hr
      have e2 : expect .keyword (start s) = .error (.throw .parser) := by
        unfold expect
        rw [P.bind_ok e]
        rfl
      rw [P.bind_err e2]
  unfold parseScript
  rw [P.bind_err key]

example : ∃ k l, lex b!"{ Model\n" = k :: l ∧ ¬ (k.1 = .keyword ∧ Vfs.iequals k.2 b!"Model" = true) :=
  ⟨(.lbrace, []), [(.keyword, b!"Model")], by decide +kernel, by decide⟩

/-- C75: the integers of a script are the 32 bit ones: an integer whose decimal text stands in the script is that integer, and one
that 32 bits cannot hold is never wrapped around but reported. -/
theorem c75_integer (i : Int) (s : Bytes) (he : Ended s) (l : List Tok) (hl : lex s = (.integer, decInt i) :: l) :
    (-2 ^ 31 ≤ i ∧ i < 2 ^ 31 → ∃ v t, expectInt (start s) = .ok (v, t) ∧ v.toInt = i) ∧
    (¬(-2 ^ 31 ≤ i ∧ i < 2 ^ 31) → expectInt (start s) = .error (.throw .stdConversion)) := by
  have hne : s ≠ [] := by rintro rfl; cases hl
  have hr : Rem (start s) ((.integer, decInt i) :: l) := ⟨s, At.of_split [] s, he, hne, hl⟩
  obtain ⟨t', e, v, _⟩ := maybe_yes (.integer, decInt i) _ l hr
  have e2 : expect .integer (start s) = .ok ((), t') := by
    unfold expect
    have e' : maybe .integer (start s) = .ok (true, t') := e
    rw [P.bind_ok e']
    rfl
  have e3 : pValue t' = .ok (decInt i, t') := by unfold pValue; rw [v]
  unfold expectInt
  rw [P.bind_ok e2, P.bind_ok e3]
  unfold lift stoi
  rw [strtol_decInt']
  constructor
  · intro h
    simp only [h, and_self, if_true]
    exact ⟨_, _, rfl, by rw [BitVec.toInt_ofInt]; exact Int.bmod_eq_of_le (by omega) (by omega)⟩
  · intro h
    simp only [h, if_false]

example : lex b!"-2147483649 x\n" = (.integer, decInt (-2147483649)) :: [(.keyword, b!"x")] := by decide +kernel

end Verif.Props
