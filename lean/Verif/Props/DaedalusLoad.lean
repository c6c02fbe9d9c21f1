import Verif.Lemmas.DaedalusLookup

/-!
# Loading of scripts and lookups in them (C67, C68, C78, C80)
-/

namespace Verif.Props

open Verif.Daedalus Verif.Spec.Daedalus

/-! ## C68: a loaded script says what the file says -/

/-- For every well-formed file without a constant string whose parent looks like white space, whatever surrounds it in
the stream: loading ends exactly behind it, keeps version and code, and every symbol tells what its entry says. -/
theorem c68_load_partial (f : File) (h : f.Ok) (hs : ∀ e ∈ f.entries, ¬ e.Suspicious) (pre post : Bytes) :
    ∃ sc, ({ } : Script).load ⟨pre ++ f.bytes ++ post, pre.length⟩ =
        .ok (sc, ⟨pre ++ f.bytes ++ post, pre.length + f.bytes.length⟩) ∧
      sc.version = f.version ∧ sc.text = some f.code ∧ sc.syms.length = f.entries.length ∧
      ∀ (i : Nat) e, f.entries[i]? = some e → ∃ s, sc.findByIndex i = some s ∧ Shows e i s := by
  have hn : (BitVec.ofNat 32 f.entries.length).toNat = f.entries.length := by
    rw [BitVec.toNat_ofNat, Nat.mod_eq_of_lt h.size]
  have hk : (BitVec.ofNat 32 f.code.length).toNat = f.code.length := by
    rw [BitVec.toNat_ofNat, Nat.mod_eq_of_lt h.code]
  have hskip : Reads (Rd.seek (f.entries.length * 4) .cur) (f.sort.map (encW 4)).flatten () := by
    intro pre post
    have hl : ((f.sort.map (encW 4)).flatten).length = 4 * f.entries.length := by
      rw [← h.sort]; exact floatMem_length f.sort
    refine Rd.seek_ok ?_ ?_
    · simp only [Rd.seekTarget]
      omega
    · simp
  have hsyms := reads_syms f.entries (fun e he => ⟨h.entries e he, hs e he⟩) { version := f.version }
  obtain ⟨hv, hg⟩ := entered_syms f.entries { version := f.version }
  have hlen : (entered f.entries { version := f.version }).syms.length = f.entries.length := by
    apply Nat.le_antisymm
    · apply Nat.le_of_not_lt
      intro hlt
      have := hg f.entries.length
      rw [List.getElem?_eq_getElem hlt] at this
      simp at this
    · apply Nat.le_of_not_lt
      intro hlt
      have := hg (entered f.entries { version := f.version }).syms.length
      rw [List.getElem?_eq_none (Nat.le_refl _)] at this
      simp only [List.length_nil, Nat.not_lt_zero, if_false, Nat.sub_zero] at this
      rw [List.getElem?_eq_getElem hlt] at this
      cases this
  refine ⟨{ entered f.entries { version := f.version } with text := some f.code }, ?_, hv, rfl, hlen, ?_⟩
  · have hr : Reads ({ } : Script).load f.bytes { entered f.entries { version := f.version } with text := some f.code } := by
      unfold Script.load File.bytes
      simp only [List.append_assoc]
      refine (Reads.u8 f.version).bind ((Reads.u32 _).bind ?_)
      rw [hn]
      refine hskip.bind ?_
      have : resized [] f.entries.length = List.replicate f.entries.length { : LSym } := by simp [resized]
      rw [this]
      refine hsyms.bind ((Reads.u32 _).bind ?_)
      rw [hk]
      exact (Reads.readPadded f.code).bind_pure
    exact hr pre post
  · intro i e he
    refine ⟨placed e i, ?_, placed_shows (h.entries e (List.mem_of_getElem? he)) i⟩
    show (entered f.entries { version := f.version }).syms[i]? = _
    rw [hg i]
    simp [he]

/-- A file with a class, a prototype, an instance, a generated string with an escape, a member, a function with a parameter
and a local variable, and a number behind it. -/
def scriptFile : File :=
  let e : Entry := ⟨none, 0, 0, 0, 0, 0, 1, 2, 3, 4, 5, .none, BitVec.allOnes 32⟩
  { version := 50
    sort := [0, 1, 2, 3, 4, 5, 6, 7, 8]
    entries := [
      { e with name := some b!"C_NPC", type := 4, count := 1, vary := 4, body := .word 0 },
      { e with name := some b!"C_NPC.LEVEL", type := 2, count := 1, flags := 4, parent := 0 },
      { e with name := some b!"P", type := 6, body := .word 0, parent := 0 },
      { e with name := some b!"HERO", type := 7, flags := 1, body := .word 5, parent := 2 },
      { e with name := some ([255] ++ b!"S"), type := 3, flags := 1, count := 1, spare := 512, body := .texts [[97, 92, 110, 98]] },
      { e with name := some b!"F", type := 5, flags := 3, count := 1, vary := 2, body := .word 10 },
      { e with name := some b!"F.A", type := 2, count := 1, body := .words [7] },
      { e with name := some b!"F.X", type := 1, count := 2, body := .words [8, 9] },
      { e with name := some b!"N", type := 2, flags := 1, count := 1, body := .words [42] }]
    code := [60, 60, 60, 60, 60, 60] }

theorem scriptFile_ok : scriptFile.Ok ∧ ∀ e ∈ scriptFile.entries, ¬ e.Suspicious := by
  refine ⟨⟨rfl, ?_, by decide, by decide⟩, by decide⟩
  intro e he
  simp only [scriptFile, List.mem_cons, List.not_mem_nil, or_false] at he
  rcases he with rfl | rfl | rfl | rfl | rfl | rfl | rfl | rfl | rfl
  · exact ⟨by simp; decide, by decide, by decide, by decide, by decide, ⟨0, rfl⟩⟩
  · exact ⟨by simp; decide, by decide, by decide, by decide, by decide, rfl⟩
  · exact ⟨by simp; decide, by decide, by decide, by decide, by decide, ⟨0, rfl⟩⟩
  · exact ⟨by simp; decide, by decide, by decide, by decide, by decide, ⟨5, rfl⟩⟩
  · exact ⟨by simp; decide, by decide, by decide, by decide, by decide, ⟨_, rfl, rfl, by decide⟩⟩
  · exact ⟨by simp; decide, by decide, by decide, by decide, by decide, ⟨10, rfl⟩⟩
  · exact ⟨by simp; decide, by decide, by decide, by decide, by decide, ⟨_, rfl, rfl⟩⟩
  · exact ⟨by simp; decide, by decide, by decide, by decide, by decide, ⟨_, rfl, rfl⟩⟩
  · exact ⟨by simp; decide, by decide, by decide, by decide, by decide, ⟨_, rfl, rfl⟩⟩

example : ∃ sc, ({ } : Script).load ⟨scriptFile.bytes, 0⟩ = .ok (sc, ⟨scriptFile.bytes, scriptFile.bytes.length⟩) ∧
    sc.syms.length = 9 := by
  obtain ⟨sc, h, -, -, hl, -⟩ := c68_load_partial scriptFile scriptFile_ok.1 scriptFile_ok.2 [] []
  rw [List.nil_append, List.append_nil] at h
  exact ⟨sc, by simpa using h, hl⟩

/-- Texts come back when line feeds and tabs were written as `\n` and `\t` and the text itself contains neither
sequence: reading undoes writing. -/
theorem c68_escape (t : Bytes) (h : ∀ pre c post, t = pre ++ 92 :: c :: post → c ≠ 110 ∧ c ≠ 116) : Unescapes (escape t) t := by
  induction t with
  | nil => exact .nil
  | cons c t ih =>
    have ih := ih (fun pre d post e => h (c :: pre) d post (by rw [e]; rfl))
    unfold escape
    by_cases h1 : c = 10
    · subst h1; exact .newline ih
    · rw [if_neg h1]
      by_cases h2 : c = 9
      · subst h2; exact .tab ih
      · rw [if_neg h2]
        refine .other ?_ ih
        intro hc d q hq
        subst hc
        cases t with
        | nil => cases hq
        | cons x t =>
          have hx := h [] x t rfl
          unfold escape at hq
          split at hq
          · cases hq; decide
          · split at hq
            · cases hq; decide
            · cases hq; exact hx

/-- Only one text is read from a text. -/
theorem c68_escape_unique {l a b : Bytes} (ha : Unescapes l a) (hb : Unescapes l b) : a = b := by
  induction ha generalizing b with
  | nil => cases hb; rfl
  | newline h ih =>
    cases hb with
    | newline h' => rw [ih h']
    | other hc h' => exact absurd rfl (hc rfl 110 _ rfl).1
  | tab h ih =>
    cases hb with
    | tab h' => rw [ih h']
    | other hc h' => exact absurd rfl (hc rfl 116 _ rfl).2
  | other hc h ih =>
    cases hb with
    | newline h' => exact absurd rfl (hc rfl 110 _ rfl).1
    | tab h' => exact absurd rfl (hc rfl 116 _ rfl).2
    | other hc' h' => rw [ih h']

example : escape [92, 10, 9, 97] = [92, 92, 110, 92, 116, 97] := rfl

/-- Left over bytes of a broken line before the parent -1 of a constant string are skipped: up to four, the first of them white
space and the last not 0xFF. -/
theorem c68_recover {e : Entry} (h : e.Ok) (ht : e.type = 3) (hc : e.const = true) (hm : e.member = false)
    (hp : e.parent = BitVec.allOnes 32) (x : Byte) (J : Bytes) (hx : x.toNat = 32 ∨ 9 ≤ x.toNat ∧ x.toNat ≤ 13)
    (hJ : J.length ≤ 3) (hl : ∀ c, J.getLast? = some c → c ≠ 255) (pre post : Bytes) (i : Nat) :
    ∃ s, ({ } : LSym).load ⟨pre ++ (e.head ++ (x :: J ++ encW 4 e.parent)) ++ post, pre.length⟩ =
        .ok (s, ⟨pre ++ (e.head ++ (x :: J ++ encW 4 e.parent)) ++ post,
          pre.length + (e.head ++ (x :: J ++ encW 4 e.parent)).length⟩) ∧
      Shows e i { s with sym := { s.sym with index := BitVec.ofNat 32 i } } := by
  refine ⟨loaded e, ?_, placed_shows h i⟩
  have hr : Reads (({ } : LSym).load) (e.head ++ (x :: J ++ encW 4 e.parent)) (loaded e) := by
    unfold LSym.load Entry.head
    simp only [List.append_assoc]
    refine (reads_name e h).bind ?_
    rw [← List.append_assoc]
    refine (reads_props _ e.vary e.props).bind ?_
    have hpl := reads_place (({ sym := { name := e.shownName, generated := e.isGenerated } } : LSym).setProps e.vary e.props)
      e.file e.line e.lines e.char e.chars
    rw [show encW 4 e.file ++ (encW 4 e.line ++ (encW 4 e.lines ++ (encW 4 e.char ++ (encW 4 e.chars ++
        (e.body.bytes ++ (x :: J ++ encW 4 e.parent)))))) = (encW 4 e.file ++ (encW 4 e.line ++ (encW 4 e.lines ++ (encW 4 e.char ++
        encW 4 e.chars)))) ++ (e.body.bytes ++ (x :: J ++ encW 4 e.parent)) by simp only [List.append_assoc]]
    refine hpl.bind ?_
    change Reads (do
      let s ← (if (begun e).sym.isMember then Pure.pure (begun e) else (begun e).loadValue)
      s.loadParent) _ _
    rw [begun_member h, hm]
    simp only [Bool.false_eq_true, if_false]
    refine (reads_value _ e h hm (begun_count h) (begun_type h)).bind ?_
    obtain ⟨h1, h2, -⟩ := valued_same (begun e) e
    unfold loaded
    rw [hm, hp]
    simp only [Bool.false_eq_true, if_false]
    intro pre post
    refine recovers_parent _ pre x J post ?_ ?_ ?_ hx hJ hl
    · rw [h1, begun_type h, ht]; rfl
    · unfold Sym.isMember
      rw [h2, begun_flag h]; exact hm
    · unfold Sym.isConst
      rw [h2, begun_flag h]; exact hc
  exact hr pre post

/-- A constant string of the class at index 32, then a number. -/
def spaceFile : File :=
  let e : Entry := ⟨none, 0, 0, 0, 0, 0, 1, 2, 3, 4, 5, .none, BitVec.allOnes 32⟩
  { version := 50
    sort := [0, 1]
    entries := [
      { e with name := some b!"S", type := 3, flags := 1, count := 1, body := .texts [b!"text"], parent := 32 },
      { e with name := some b!"N", type := 2, flags := 1, count := 1, body := .words [42] }]
    code := [60] }

theorem spaceFile_ok : spaceFile.Ok := by
  refine ⟨rfl, ?_, by decide, by decide⟩
  intro e he
  simp only [spaceFile, List.mem_cons, List.not_mem_nil, or_false] at he
  rcases he with rfl | rfl
  · exact ⟨by simp; decide, by decide, by decide, by decide, by decide, ⟨_, rfl, rfl, by decide⟩⟩
  · exact ⟨by simp; decide, by decide, by decide, by decide, by decide, ⟨_, rfl, rfl⟩⟩

/-- Not every well-formed file: a constant string with the parent 32 takes the bytes of the next symbol for its parent,
and the next symbol is lost. -/
theorem c68_load_violation : spaceFile.Ok ∧
    (do
      let (sc, _) ← ({ } : Script).load ⟨spaceFile.bytes, 0⟩
      return ((sc.findByIndex 0).map fun s => s.sym.parent, (sc.findByIndex 1).map fun s => (s.sym.name, s.sym.type))) =
      (.ok (some 1, some ([], .void)) : Except Fail _) :=
  ⟨spaceFile_ok, by decide +kernel⟩

/-- A function variable of two elements: the loader makes room for one, so reading the second is undefined. -/
theorem c68_function_array_violation :
    let e : Entry := ⟨some b!"V", 0, 2, 5, 0, 0, 0, 0, 0, 0, 0, .word 0, BitVec.allOnes 32⟩
    e.Ok ∧ (do
      let (s, _) ← ({ } : LSym).load ⟨e.bytes, 0⟩
      return (s.sym.count, s.sym.getInt 1 none)) = (.ok (2, .error .ub) : Except Fail _) := by
  refine ⟨⟨by simp; decide, by decide, by decide, by decide, by decide, ⟨0, rfl⟩⟩, by decide +kernel⟩

/-- A function variable has no value before a script assigns one. -/
theorem c68_function_variable_violation :
    let e : Entry := ⟨some b!"V", 0, 1, 5, 0, 0, 0, 0, 0, 0, 0, .word 0, BitVec.allOnes 32⟩
    e.Ok ∧ (do
      let (s, _) ← ({ } : LSym).load ⟨e.bytes, 0⟩
      return (s.sym.count, s.sym.getInt 0 none)) = (.ok (1, .error .ub) : Except Fail _) := by
  refine ⟨⟨by simp; decide, by decide, by decide, by decide, by decide, ⟨0, rfl⟩⟩, by decide +kernel⟩

/-! ## C67: symbols are found by name and by address -/

/-- In every script loaded from whatever bytes, if its names contain no lower case letters: a name in any spelling finds the
last symbol with these letters, and nothing only if there is none. -/
theorem c67_name_partial {st st' : Rs} {sc : Script} (h : ({ } : Script).load st = .ok (sc, st'))
    (hu : ∀ s ∈ sc.syms, Upper s.sym.name) (q : Bytes) :
    match sc.findByName q with
    | some s => ∃ i : Nat, sc.syms[i]? = some s ∧ sameLetters s.sym.name q ∧
        ∀ j > i, ∀ t : LSym, sc.syms[j]? = some t → ¬ sameLetters t.sym.name q
    | none => ∀ s ∈ sc.syms, ¬ sameLetters s.sym.name q := by
  have hi := (load_inv h).1
  have hf := found (sc := sc) (p := fun s => s.name == q.map toupper)
  unfold Script.findByName
  rw [hi.name]
  split
  · rename_i s hs
    rw [hs] at hf
    obtain ⟨i, h1, h2, h3⟩ := hf
    refine ⟨i, h1, (sameLetters_upper _ _ (hu s (List.mem_of_getElem? h1))).mpr (by simpa using h2), ?_⟩
    intro j hj t ht hl
    have := h3 j hj t ht
    rw [(sameLetters_upper _ _ (hu t (List.mem_of_getElem? ht))).mp hl] at this
    simp at this
  · rename_i hs
    rw [hs] at hf
    intro s hs hl
    have := hf s hs
    rw [(sameLetters_upper _ _ (hu s hs)).mp hl] at this
    simp at this

/-- When no two names have the same letters, every symbol is found under its name in any spelling. -/
theorem c67_distinct_partial {st st' : Rs} {sc : Script} (h : ({ } : Script).load st = .ok (sc, st'))
    (hu : ∀ s ∈ sc.syms, Upper s.sym.name)
    (hd : ∀ (i j : Nat) (s t : LSym), sc.syms[i]? = some s → sc.syms[j]? = some t → s.sym.name = t.sym.name → i = j)
    {i : Nat} {s : LSym} (hs : sc.syms[i]? = some s) (q : Bytes) (hq : sameLetters s.sym.name q) : sc.findByName q = some s := by
  have hf := c67_name_partial h hu q
  split at hf
  · rename_i t ht
    obtain ⟨j, h1, h2, -⟩ := hf
    have e1 := (sameLetters_upper _ _ (hu t (List.mem_of_getElem? h1))).mp h2
    have e2 := (sameLetters_upper _ _ (hu s (List.mem_of_getElem? hs))).mp hq
    have := hd i j s t hs h1 (by rw [e1, e2])
    subst this
    rw [hs] at h1
    rw [ht, ← h1]
  · exact absurd hq (hf s (List.mem_of_getElem? hs))

/-- In every loaded script an address finds the last prototype, instance or constant function with it, and nothing only if there
is none. -/
theorem c67_address {st st' : Rs} {sc : Script} (h : ({ } : Script).load st = .ok (sc, st')) (a : BitVec 32) :
    let runs (s : LSym) : Prop := (s.sym.type = .prototype ∨ s.sym.type = .instance ∨
      s.sym.type = .function ∧ s.sym.isConst = true ∧ s.sym.isMember = false) ∧ s.sym.address = a
    match sc.findByAddress a with
    | some s => ∃ i : Nat, sc.syms[i]? = some s ∧ runs s ∧ ∀ j > i, ∀ t : LSym, sc.syms[j]? = some t → ¬ runs t
    | none => ∀ s ∈ sc.syms, ¬ runs s := by
  intro runs
  have hi := (load_inv h).1
  have hf := found (sc := sc) (p := fun s => hasCode s && s.address == a)
  have hr : ∀ s : LSym, runs s ↔ (hasCode s.sym && s.sym.address == a) = true := by
    intro s
    simp only [runs, hasCode, Bool.and_eq_true, Bool.or_eq_true, beq_iff_eq, Bool.not_eq_true']
    refine and_congr_left fun _ => ?_
    rw [or_assoc, and_assoc]
  unfold Script.findByAddress
  rw [hi.address]
  split
  · rename_i s hs
    rw [hs] at hf
    obtain ⟨i, h1, h2, h3⟩ := hf
    refine ⟨i, h1, (hr s).mpr h2, ?_⟩
    intro j hj t ht hl
    have := h3 j hj t ht
    rw [(hr t).mp hl] at this
    cases this
  · rename_i hs
    rw [hs] at hf
    intro s hs hl
    have := hf s hs
    rw [(hr s).mp hl] at this
    cases this

/-- An index finds the symbol with that index, in every loaded script. -/
theorem c67_index {st st' : Rs} {sc : Script} (h : ({ } : Script).load st = .ok (sc, st')) (i : Nat) (hi : i < sc.syms.length) :
    ∃ s, sc.findByIndex i = some s ∧ s.sym.index.toNat = i := by
  obtain ⟨hinv, hl⟩ := load_inv h
  refine ⟨sc.syms[i], List.getElem?_eq_getElem hi, ?_⟩
  rw [hinv.index i sc.syms[i] (List.getElem?_eq_getElem hi), BitVec.toNat_ofNat, Nat.mod_eq_of_lt (by omega)]

example : (do
      let (sc, _) ← ({ } : Script).load ⟨scriptFile.bytes, 0⟩
      return (decide (∀ s ∈ sc.syms, Upper s.sym.name), (sc.findByName b!"c_npc.level").map fun s => s.sym.index,
        (sc.findByAddress 10).map fun s => s.sym.index)) = (.ok (true, some 1, some 5) : Except Fail _) := by
  decide +kernel

/-- A number named `n`. -/
def lowerFile : File :=
  { version := 50
    sort := [0]
    entries := [⟨some b!"n", 0, 1, 2, 1, 0, 0, 0, 0, 0, 0, .words [42], BitVec.allOnes 32⟩]
    code := [60] }

/-- A name with lower case letters is not found, not even in its own spelling. -/
theorem c67_name_violation :
    (do
      let (sc, _) ← ({ } : Script).load ⟨lowerFile.bytes, 0⟩
      return ((sc.findByIndex 0).map fun s => s.sym.name, sc.findByName b!"n", sc.findByName b!"N")) =
      (.ok (some b!"n", none, none) : Except Fail _) := by
  decide +kernel

/-- Loading a second file into the same script keeps the names of the first: they find symbols that have other names. -/
theorem c67_reload_violation :
    (do
      let (sc, _) ← ({ } : Script).load ⟨scriptFile.bytes, 0⟩
      let (sc, _) ← sc.load ⟨spaceFile.bytes, 0⟩
      return ((sc.findByName b!"C_NPC").map fun s => s.sym.name)) =
      (.ok (some b!"S") : Except Fail _) := by
  decide +kernel

/-! ## C78: the instances of a class -/

/-- What the loop passes to the callback is an instance of the class, and it follows the order of the table. -/
theorem c78_sound {st st' : Rs} {sc : Script} (h : ({ } : Script).load st = .ok (sc, st')) (name : Bytes) :
    (sc.enumerate name).Sublist sc.syms ∧
      ∀ s ∈ sc.enumerate name, ∃ cls, sc.findByName name = some cls ∧ InstanceOf sc.syms cls.sym.index.toNat s := by
  obtain ⟨hinv, hl⟩ := load_inv h
  unfold Script.enumerate
  cases hn : sc.findByName name with
  | none => exact ⟨List.nil_sublist _, by simp⟩
  | some cls =>
    refine ⟨enumLoop_sublist _ _ _, ?_⟩
    intro s hs
    have := (enumLoop_eq cls.sym.index sc.syms [] sc.syms [] rfl hinv.index (by simp) s).mp hs
    obtain ⟨i, h1, -, h3, h4, h5⟩ := this
    refine ⟨cls, rfl, h3, h4, ?_⟩
    rcases h5 with h5 | ⟨j, p, -, h6, h7, h8, h9⟩
    · exact .direct (by rw [h5])
    · refine .through (p := p) ?_ h7 (.direct (by rw [h8]))
      rw [← h9, hinv.index j p h6, BitVec.toNat_ofNat, Nat.mod_eq_of_lt]
      · exact h6
      · have := (List.getElem?_eq_some_iff.mp h6).1
        omega

/-- In every loaded script in which prototypes of the class derive from it directly and stand before their instances: exactly the
instances of the class are passed on. -/
theorem c78_complete_partial {st st' : Rs} {sc : Script} (h : ({ } : Script).load st = .ok (sc, st')) {name : Bytes} {cls : LSym}
    (hn : sc.findByName name = some cls)
    (hflat : ∀ p ∈ sc.syms, p.sym.type = .prototype → Derives sc.syms cls.sym.index.toNat p → p.sym.parent = cls.sym.index)
    (hbefore : ∀ (i : Nat) s p, sc.syms[i]? = some s → s.sym.type = .instance → sc.syms[s.sym.parent.toNat]? = some p →
      p.sym.type = .prototype → s.sym.parent.toNat < i)
    (s : LSym) (hs : s ∈ sc.syms) :
    s ∈ sc.enumerate name ↔ InstanceOf sc.syms cls.sym.index.toNat s := by
  obtain ⟨hinv, hl⟩ := load_inv h
  constructor
  · intro hm
    obtain ⟨cls', h1, h2⟩ := (c78_sound h name).2 s hm
    rw [hn] at h1
    cases h1
    exact h2
  · rintro ⟨h1, h2, h3⟩
    obtain ⟨i, hi, rfl⟩ := List.getElem_of_mem hs
    have hi' := List.getElem?_eq_getElem hi
    unfold Script.enumerate
    rw [hn]
    refine (enumLoop_eq cls.sym.index sc.syms [] sc.syms [] rfl hinv.index (by simp) _).mpr ⟨i, hi', by simp, h1, h2, ?_⟩
    cases h3 with
    | direct hd => exact .inl (BitVec.eq_of_toNat_eq hd)
    | @through _ p hp ht hd =>
      right
      refine ⟨_, p, hbefore i _ p hi' h1 hp ht, hp, ht, hflat p (List.mem_of_getElem? hp) ht hd, ?_⟩
      rw [hinv.index _ p hp]
      apply BitVec.eq_of_toNat_eq
      simp

example : (do
      let (sc, _) ← ({ } : Script).load ⟨scriptFile.bytes, 0⟩
      return (sc.enumerate b!"C_NPC").map fun s => s.sym.name) = (.ok [b!"HERO"] : Except Fail _) := by
  decide +kernel

/-- A class, a prototype of it, a prototype of that, an instance of the latter; a prototype behind its instance. -/
def protoFile : File :=
  let e : Entry := ⟨none, 0, 0, 0, 0, 0, 1, 2, 3, 4, 5, .none, BitVec.allOnes 32⟩
  { version := 50
    sort := [0, 1, 2, 3, 4, 5]
    entries := [
      { e with name := some b!"C", type := 4, body := .word 0 },
      { e with name := some b!"P", type := 6, body := .word 0, parent := 0 },
      { e with name := some b!"Q", type := 6, body := .word 0, parent := 1 },
      { e with name := some b!"I", type := 7, flags := 1, body := .word 5, parent := 2 },
      { e with name := some b!"J", type := 7, flags := 1, body := .word 5, parent := 5 },
      { e with name := some b!"R", type := 6, body := .word 0, parent := 0 }]
    code := [60] }

/-- Instances of a prototype of a prototype are left out, and so are instances in front of their prototype. -/
theorem c78_complete_violation :
    ∃ sc st, ({ } : Script).load ⟨protoFile.bytes, 0⟩ = .ok (sc, st) ∧ sc.enumerate b!"C" = [] ∧
      (∃ s, sc.syms[3]? = some s ∧ InstanceOf sc.syms 0 s) ∧ ∃ s, sc.syms[4]? = some s ∧ InstanceOf sc.syms 0 s := by
  have hd : (do
      let (sc, _) ← ({ } : Script).load ⟨protoFile.bytes, 0⟩
      return (sc.enumerate b!"C", sc.syms.map fun s => (s.sym.type, s.sym.isConst, s.sym.parent))) =
        (.ok ([], [(.class_, false, BitVec.allOnes 32), (.prototype, false, 0), (.prototype, false, 1), (.instance, true, 2),
          (.instance, true, 5), (.prototype, false, 0)]) : Except Fail _) := by
    decide +kernel
  cases hl : ({ } : Script).load ⟨protoFile.bytes, 0⟩ with
  | error e => rw [hl] at hd; cases hd
  | ok r =>
    obtain ⟨sc, st⟩ := r
    rw [hl] at hd
    injection hd with hd
    obtain ⟨h1, h2⟩ := Prod.mk.inj hd
    have get : ∀ (i : Nat) x, (sc.syms.map fun s => (s.sym.type, s.sym.isConst, s.sym.parent))[i]? = some x →
        ∃ s, sc.syms[i]? = some s ∧ s.sym.type = x.1 ∧ s.sym.isConst = x.2.1 ∧ s.sym.parent = x.2.2 := by
      intro i x hx
      rw [List.getElem?_map] at hx
      cases hs : sc.syms[i]? with
      | none => rw [hs] at hx; cases hx
      | some s => rw [hs] at hx; cases hx; exact ⟨s, rfl, rfl, rfl, rfl⟩
    obtain ⟨p, hp, p1, -, p3⟩ := get 1 (.prototype, false, 0) (by rw [h2]; rfl)
    obtain ⟨q, hq, q1, -, q3⟩ := get 2 (.prototype, false, 1) (by rw [h2]; rfl)
    obtain ⟨a, ha, a1, a2, a3⟩ := get 3 (.instance, true, 2) (by rw [h2]; rfl)
    obtain ⟨b, hb, b1, b2, b3⟩ := get 4 (.instance, true, 5) (by rw [h2]; rfl)
    obtain ⟨r, hr, r1, -, r3⟩ := get 5 (.prototype, false, 0) (by rw [h2]; rfl)
    refine ⟨sc, st, rfl, h1, ⟨a, ha, a1, a2, ?_⟩, b, hb, b1, b2, ?_⟩
    · refine .through (p := q) (by rw [a3]; exact hq) q1 (.through (p := p) (by rw [q3]; exact hp) p1 (.direct (by rw [p3]; rfl)))
    · exact .through (p := r) (by rw [b3]; exact hr) r1 (.direct (by rw [r3]; rfl))

/-! ## C80: parameters and local variables of a function -/

/-- The parameters are the symbols right behind the function, as many as it declares, if the table has them. -/
theorem c80_parameters_partial (sc : Script) (f : LSym) (h : f.sym.index.toNat + 1 + f.sym.count.toNat ≤ sc.syms.length) :
    ∃ ps, sc.parameters f = .ok ps ∧ ps.length = f.sym.count.toNat ∧
      ∀ k < f.sym.count.toNat, ps[k]? = sc.syms[f.sym.index.toNat + 1 + k]? := by
  refine ⟨_, if_pos h, ?_, ?_⟩
  · simp; omega
  · intro k hk
    rw [List.getElem?_take_of_lt hk, List.getElem?_drop]

/-- A function at the end of the table that declares parameters. -/
theorem c80_parameters_violation :
    let e : Entry := ⟨some b!"F", 0, 2, 5, 1, 0, 0, 0, 0, 0, 0, .word 0, BitVec.allOnes 32⟩
    e.Ok ∧ (do
      let (sc, _) ← ({ } : Script).load ⟨(File.mk 50 [0] [e] [60]).bytes, 0⟩
      return ((sc.findByIndex 0).map fun f => sc.parameters f)) = (.ok (some (.error .ub)) : Except Fail _) := by
  refine ⟨⟨by simp; decide, by decide, by decide, by decide, by decide, ⟨0, rfl⟩⟩, by decide +kernel⟩

/-- The local variables are the longest run of symbols behind the parameters whose names start with the name of the function and
a dot, provided that another symbol follows them. -/
theorem c80_locals_partial (sc : Script) (f : LSym) (hsum : f.sym.index.toNat + 1 + f.sym.count.toNat < 2 ^ 32)
    (h : ∃ k ≥ f.sym.index.toNat + 1 + f.sym.count.toNat, ∃ s, sc.syms[k]? = some s ∧ ¬ LocalName f.sym.name s.sym.name) :
    ∃ before next after, sc.syms = before ++ sc.locals f ++ next :: after ∧
      before.length = f.sym.index.toNat + 1 + f.sym.count.toNat ∧ (∀ s ∈ sc.locals f, LocalName f.sym.name s.sym.name) ∧
      ¬ LocalName f.sym.name next.sym.name := by
  have hfirst : (f.sym.index + 1 + f.sym.count).toNat = f.sym.index.toNat + 1 + f.sym.count.toNat := by
    rw [BitVec.toNat_add, BitVec.toNat_add]
    show ((f.sym.index.toNat + 1) % 2 ^ 32 + f.sym.count.toNat) % 2 ^ 32 = _
    omega
  obtain ⟨k, hk, s, hs, hsn⟩ := h
  have hklen := (List.getElem?_eq_some_iff.mp hs).1
  unfold Script.locals
  rw [hfirst]
  generalize hF : f.sym.index.toNat + 1 + f.sym.count.toNat = first at *
  have hspec := localsLoop_spec f.sym.name (sc.syms.drop first)
  cases hl : localsLoop f.sym.name (sc.syms.drop first) with
  | none =>
    rw [hl] at hspec
    exact absurd (hspec s (List.mem_of_getElem? (i := k - first) (by
      rw [List.getElem?_drop, show first + (k - first) = k by omega]; exact hs))) hsn
  | some v =>
    rw [hl] at hspec
    obtain ⟨x, r, h1, h2, h3⟩ := hspec
    refine ⟨sc.syms.take first, x, r, ?_, ?_, h2, h3⟩
    · simp only [Option.getD_some]
      rw [List.append_assoc, ← h1, List.take_append_drop]
    · simp; omega

example : (do
      let (sc, _) ← ({ } : Script).load ⟨scriptFile.bytes, 0⟩
      return ((sc.findByIndex 5).map fun f => ((sc.parameters f).toOption.map (·.map fun s => s.sym.name),
        (sc.locals f).map fun s => s.sym.name))) =
      (.ok (some (some [b!"F.A"], [b!"F.X"])) : Except Fail _) := by
  decide +kernel

/-- Local variables at the end of the table are not found: whatever they are, the result is empty. -/
theorem c80_locals_violation :
    (∀ (sc : Script) (f : LSym), (∀ s ∈ sc.syms.drop (f.sym.index + 1 + f.sym.count).toNat, LocalName f.sym.name s.sym.name) →
      sc.locals f = []) ∧
    (do
      let (sc, _) ← ({ } : Script).load ⟨(File.mk 50 [0, 1, 2, 3, 4, 5, 6, 7] (scriptFile.entries.take 8) [60]).bytes, 0⟩
      return ((sc.findByIndex 5).map fun f => ((sc.locals f).map fun s => s.sym.name, (sc.findByIndex 7).map fun s => s.sym.name))) =
      (.ok (some ([], some b!"F.X")) : Except Fail _) := by
  refine ⟨?_, by decide +kernel⟩
  intro sc f h
  unfold Script.locals
  have hspec := localsLoop_spec f.sym.name (sc.syms.drop (f.sym.index + 1 + f.sym.count).toNat)
  cases hl : localsLoop f.sym.name (sc.syms.drop (f.sym.index + 1 + f.sym.count).toNat) with
  | none => rfl
  | some v =>
    rw [hl] at hspec
    obtain ⟨x, r, h1, h2, h3⟩ := hspec
    exact absurd (h x (by rw [h1]; simp)) h3

end Verif.Props
