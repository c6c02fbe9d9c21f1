import Verif.Lemmas.MdsEvents

namespace Verif.Mds

open Vfs (iequals)

/-! ## Loops -/

theorem Parses.notEof : Parses pEof [] false Any := by
  intro t rest _ h
  have := h.not_eof
  refine ⟨t, ?_, h, rfl⟩
  unfold pEof
  rw [decide_eq_false (by omega)]

/-- The check at the beginning of a turn, when a keyword follows. -/
theorem Parses.go : Parses (orElse (Mds.maybe .rbrace) (Mds.maybe .endOfFile)) [] false (Head (fun k => k.1 = .keyword)) :=
  Parses.orRight (Parses.maybeNot _)
    ((Parses.maybeNot _).mono (fun _ h => Head.mono (fun k (hk : k.1 = .keyword) => by rw [hk]; decide) h))
    (fun _ h => Head.mono (fun k (hk : k.1 = .keyword) => by rw [hk]; decide) h)

theorem Parses.stop : Parses (orElse (Mds.maybe .rbrace) (Mds.maybe .endOfFile)) [closeTok] true Any :=
  Parses.orLeft (Parses.maybe closeTok)

/-- A turn of the three loops with a keyword. -/
theorem Parses.turn {α} {f : Bytes → P α} {a : α} {s : Bytes} {l : List Tok} {v : α} {Q : List Tok → Prop} (h : Parses (f s) l v Q) :
    Parses (do
      if ← pEof then return a
      else if ← orElse (Mds.maybe .rbrace) (Mds.maybe .endOfFile) then return a
      else do
        let kw ← expectKeyword
        f kw) ((.keyword, s) :: l) v Q := by
  refine Parses.bind (l1 := []) Parses.notEof ?_ (fun _ _ => trivial)
  rw [if_neg (by decide)]
  refine Parses.bind (l1 := []) Parses.go ?_ (fun r _ => ⟨_, _, rfl, rfl⟩)
  rw [if_neg (by decide)]
  exact Parses.cons (Parses.keyword s) h

theorem Parses.close {α} {f : P α} {a : α} :
    Parses (do
      if ← pEof then return a
      else if ← orElse (Mds.maybe .rbrace) (Mds.maybe .endOfFile) then return a
      else f) [closeTok] a Any := by
  refine Parses.bind (l1 := []) Parses.notEof ?_ (fun _ _ => trivial)
  rw [if_neg (by decide)]
  have := Parses.bind (l2 := []) (Q2 := Any) (f := fun b : Bool => if b then (Pure.pure a : P α) else f) Parses.stop
    (Parses.pure a Any) (fun _ _ => trivial)
  exact this

theorem KwOf.mono {ns ms : List Bytes} (h : ∀ n ∈ ns, n ∈ ms) {k : Tok} (hk : KwOf ns k) : KwOf ms k := by
  obtain ⟨h1, n, hn, h2⟩ := hk
  exact ⟨h1, n, h n hn, h2⟩

/-- Events are followed by events or by what follows them. -/
theorem events_stop (es : List Event) {l : List Tok} (h : Stop l) : Stop (es.flatMap Event.toks ++ l) := by
  cases es with
  | nil => exact h
  | cons e es =>
    rw [List.flatMap_cons, e.toks_eq]
    exact ⟨_, _, rfl, .inr (e.head.mono (by decide))⟩

/-- Events in braces. -/
theorem events_braced : ∀ (es : List Event) (n : Nat) (a : Animation), es.length < n →
    Parses (parseEvents n a) (es.flatMap Event.toks ++ [closeTok]) (es.foldl Event.apply a) Any
  | _, 0, _, h => by simp at h
  | [], n + 1, a, _ => Parses.close
  | e :: es, n + 1, a, h => by
    have ih := events_braced es n (e.apply a) (by simp at h; omega)
    rw [List.flatMap_cons, e.toks_eq, List.cons_append, List.cons_append, List.append_assoc]
    refine Parses.turn (f := fun kw => do
      match ← parseEvent a kw with
      | none => return a
      | some ani => parseEvents n ani) ?_
    exact Parses.bind (event_parses a e) ih (fun r _ => by
      rw [List.append_assoc]
      exact events_stop es ⟨closeTok, r, rfl, .inl rfl⟩)

/-- A keyword that is no event ends the events. -/
theorem event_other {a : Animation} {s : Bytes} (h : KwOf itemNames (.keyword, s)) : ∀ t rest, Rem t ((.keyword, s) :: rest) →
    ∃ t', (do
      let kw ← expectKeyword
      match ← parseEvent a kw with
      | none => return a
      | some _ => syntaxError : P Animation) t = .ok (a, t') ∧ Rem t' ((.keyword, s) :: rest) ∧ t'.rs.data = t.rs.data := by
  intro t rest hr
  obtain ⟨t', e, v, r, d, t'', b, rb, db⟩ := maybe_yes (.keyword, s) t rest hr
  have e2 : expect .keyword t = .ok ((), t') := by
    unfold expect
    have e' : maybe .keyword t = .ok (true, t') := e
    rw [P.bind_ok e']
    rfl
  have e3 : expectKeyword t = .ok (s, t') := by
    unfold expectKeyword
    rw [P.bind_ok e2]
    unfold pValue
    rw [v]
  have eb : pBack t' = .ok ((), t'') := by unfold pBack; rw [b]
  have hne : ∀ m ∈ eventNames, iequals s m = false := by
    intro m hm
    obtain ⟨_, n, hn, hs⟩ := h
    rw [iequals_of hs]
    have : ∀ n ∈ itemNames, ∀ m ∈ eventNames, iequals n m = false := by decide
    exact this n hn m hm
  have e4 : parseEvent a s t' = .ok (none, t'') := by
    unfold parseEvent
    rw [if_neg (by rw [hne _ (by decide)]; decide), if_neg (by rw [hne _ (by decide)]; decide),
      if_neg (by rw [hne _ (by decide)]; decide), if_neg (by rw [hne _ (by decide)]; decide),
      if_neg (by rw [hne _ (by decide)]; decide), if_neg (by rw [hne _ (by decide)]; decide),
      if_neg (by rw [hne _ (by decide)]; decide), P.bind_ok eb]
    rfl
  refine ⟨t'', ?_, rb, db⟩
  rw [P.bind_ok e3, P.bind_ok e4]
  rfl

/-- Events without braces, before another item. -/
theorem events_open : ∀ (es : List Event) (n : Nat) (a : Animation), es.length < n →
    Parses (parseEvents n a) (es.flatMap Event.toks) (es.foldl Event.apply a) (Head (KwOf itemNames))
  | _, 0, _, h => by simp at h
  | [], n + 1, a, _ => by
    have key : Parses (do
        let kw ← expectKeyword
        match ← parseEvent a kw with
        | none => return a
        | some ani => parseEvents n ani) [] a (Head (KwOf itemNames)) := by
      rintro t rest ⟨⟨k, s⟩, r, rfl, hk⟩ hr
      have hk1 : k = .keyword := hk.1
      subst hk1
      obtain ⟨t', e, r1, d1⟩ := event_other (a := a) hk t r hr
      refine ⟨t', ?_, r1, d1⟩
      rw [← e]
      obtain ⟨t1, e1, v1, _, _, t2, b2, _, _⟩ := maybe_yes (.keyword, s) t r hr
      have e2 : expect .keyword t = .ok ((), t1) := by
        unfold expect
        have e' : maybe .keyword t = .ok (true, t1) := e1
        rw [P.bind_ok e']
        rfl
      have e3 : expectKeyword t = .ok (s, t1) := by
        unfold expectKeyword
        rw [P.bind_ok e2]
        unfold pValue
        rw [v1]
      rw [P.bind_ok e3, P.bind_ok e3]
      rw [P.bind_ok e3] at e
      cases he : parseEvent a s t1 with
      | error x => rw [P.bind_err he] at e; cases e
      | ok y =>
        obtain ⟨o, t3⟩ := y
        rw [P.bind_ok he, P.bind_ok he]
        rw [P.bind_ok he] at e
        cases o with
        | none => rfl
        | some _ => cases e
    refine Parses.bind (l1 := []) Parses.notEof ?_ (fun _ _ => trivial)
    rw [if_neg (by decide)]
    refine Parses.bind (l1 := []) Parses.go ?_ (fun r hr => Head.mono (fun _ h => h.1) hr)
    rw [if_neg (by decide)]
    exact key
  | e :: es, n + 1, a, h => by
    have ih := events_open es n (e.apply a) (by simp at h; omega)
    rw [List.flatMap_cons, e.toks_eq, List.cons_append]
    refine Parses.turn (f := fun kw => do
      match ← parseEvent a kw with
      | none => return a
      | some ani => parseEvents n ani) ?_
    exact Parses.bind (event_parses a e) ih (fun r hr => events_stop es
      (Head.mono (fun _ h => Or.inr (h.mono (by decide))) hr))

/-! ## Flags -/

theorem flagBits_cons (c : Byte) (s : Bytes) : flagBits (c :: s) =
    (if c = 77 then 1 else if c = 82 then 2 else if c = 69 then 4 else if c = 70 then 8 else if c = 73 then 16
      else if c = 80 then 32 else 0) ||| flagBits s := by
  unfold flagBits
  simp only [List.mem_cons]
  by_cases h1 : c = 77
  · subst h1
    simp only [show ¬ ((82 : Byte) = 77) by decide, show ¬ ((69 : Byte) = 77) by decide, show ¬ ((70 : Byte) = 77) by decide,
      show ¬ ((73 : Byte) = 77) by decide, show ¬ ((80 : Byte) = 77) by decide, false_or, true_or, if_true]
    repeat' split
    all_goals rfl
  by_cases h2 : c = 82
  · subst h2
    simp only [show ¬ ((82 : Byte) = 77) by decide, show ¬ ((77 : Byte) = 82) by decide, show ¬ ((69 : Byte) = 82) by decide,
      show ¬ ((70 : Byte) = 82) by decide,
      show ¬ ((73 : Byte) = 82) by decide, show ¬ ((80 : Byte) = 82) by decide, false_or, true_or, if_true, if_false]
    repeat' split
    all_goals rfl
  by_cases h3 : c = 69
  · subst h3
    simp only [show ¬ ((69 : Byte) = 77) by decide, show ¬ ((69 : Byte) = 82) by decide, show ¬ ((77 : Byte) = 69) by decide,
      show ¬ ((82 : Byte) = 69) by decide, show ¬ ((70 : Byte) = 69) by decide,
      show ¬ ((73 : Byte) = 69) by decide, show ¬ ((80 : Byte) = 69) by decide, false_or, true_or, if_true, if_false]
    repeat' split
    all_goals rfl
  by_cases h4 : c = 70
  · subst h4
    simp only [show ¬ ((70 : Byte) = 77) by decide, show ¬ ((70 : Byte) = 82) by decide, show ¬ ((70 : Byte) = 69) by decide,
      show ¬ ((77 : Byte) = 70) by decide,
      show ¬ ((82 : Byte) = 70) by decide, show ¬ ((69 : Byte) = 70) by decide,
      show ¬ ((73 : Byte) = 70) by decide, show ¬ ((80 : Byte) = 70) by decide, false_or, true_or, if_true, if_false]
    repeat' split
    all_goals rfl
  by_cases h5 : c = 73
  · subst h5
    simp only [show ¬ ((73 : Byte) = 77) by decide, show ¬ ((73 : Byte) = 82) by decide, show ¬ ((73 : Byte) = 69) by decide,
      show ¬ ((73 : Byte) = 70) by decide, show ¬ ((77 : Byte) = 73) by decide,
      show ¬ ((82 : Byte) = 73) by decide, show ¬ ((69 : Byte) = 73) by decide,
      show ¬ ((70 : Byte) = 73) by decide, show ¬ ((80 : Byte) = 73) by decide, false_or, true_or, if_true, if_false]
    repeat' split
    all_goals rfl
  by_cases h6 : c = 80
  · subst h6
    simp only [show ¬ ((80 : Byte) = 77) by decide, show ¬ ((80 : Byte) = 82) by decide, show ¬ ((80 : Byte) = 69) by decide,
      show ¬ ((80 : Byte) = 70) by decide, show ¬ ((80 : Byte) = 73) by decide, show ¬ ((77 : Byte) = 80) by decide,
      show ¬ ((82 : Byte) = 80) by decide, show ¬ ((69 : Byte) = 80) by decide,
      show ¬ ((70 : Byte) = 80) by decide, show ¬ ((73 : Byte) = 80) by decide, false_or, true_or, if_true, if_false]
    repeat' split
    all_goals rfl
  · simp only [h1, h2, h3, h4, h5, h6, Ne.symm h1, Ne.symm h2, Ne.symm h3, Ne.symm h4, Ne.symm h5, Ne.symm h6, false_or, if_false]
    exact (BitVec.zero_or).symm

theorem flagsOf_eq (s : Bytes) : flagsOf s = flagBits s := by
  have key : ∀ (s : Bytes) (f : BitVec 8), s.foldl (fun f c =>
      if c = 77 then f ||| 1 else if c = 82 then f ||| 2 else if c = 69 then f ||| 4 else if c = 70 then f ||| 8
      else if c = 73 then f ||| 16 else if c = 80 then f ||| 32 else f) f = f ||| flagBits s := by
    intro s
    induction s with
    | nil => intro f; simp [flagBits]
    | cons c s ih =>
      intro f
      rw [List.foldl_cons, ih, flagBits_cons, ← BitVec.or_assoc]
      congr 1
      repeat' split
      all_goals simp
  unfold flagsOf
  rw [key]
  simp

theorem optColon (b : Bool) : Parses (maybe .colon) (if b then [colonTok] else []) b (Head (fun k => k.1 ≠ .colon)) := by
  cases b with
  | true => exact (Parses.maybe colonTok).mono (fun _ _ => trivial)
  | false => exact Parses.maybeNot .colon

theorem flags_parses (f : Flags) : Parses expectFlags f.toks (flagBits f.txt) (Head (fun k => k.1 ≠ .colon)) := by
  unfold expectFlags
  refine Parses.cons (Parses.keyword f.txt) ?_
  have := Parses.last (f := fun _ : Bool => flagsOf f.txt) (optColon f.colon)
  exact this.congr rfl (flagsOf_eq _)

/-! ## Items -/

/-- The common part of three items. -/
theorem common_parses {β : Type} (c : Common) {f : Bytes → BitVec 32 → Bytes → BitVec 32 → BitVec 32 → BitVec 8 → Bytes → P β}
    {l : List Tok} {v : β} {Q : List Tok → Prop}
    (h : Parses (f c.name c.layer.val c.next c.blendIn.val c.blendOut.val (flagBits c.flags.txt) c.model) l v Q) :
    Parses (do
      let name ← expectString
      let layer ← expectInt
      let nxt ← expectString
      let blendIn ← expectNumber
      let blendOut ← expectNumber
      let flags ← expectFlags
      let model ← expectString
      f name layer nxt blendIn blendOut flags model) (c.toks ++ l) v Q := by
  have e : c.toks ++ l = str c.name :: c.layer.tok :: str c.next :: c.blendIn.tok :: c.blendOut.tok ::
      (c.flags.toks ++ (str c.model :: l)) := by simp [Common.toks]
  rw [e]
  exact Parses.cons (Parses.string _) (Parses.cons (Parses.int _) (Parses.cons (Parses.string _) (Parses.cons (Parses.number _)
    (Parses.cons (Parses.number _) (Parses.bind (flags_parses _) (Parses.cons (Parses.string _) h)
      (fun r _ => ⟨str c.model, _, rfl, str_kind _ _ (by decide)⟩))))))

theorem Named.head {n : Bytes} (k : Named n) {q : Tok → Prop} (h : q k.key.tok) : Head q k.toks := ⟨_, _, rfl, h⟩

/-- What follows the numbers of an animation. -/
theorem ani_tail (a : AniSrc) {r : List Tok} (n : Bytes) (hn : ∀ m ∈ allNames, iequals m n = false) (hr : a.braces = true ∨ Stop r) :
    Head (NotKw n) ((if a.braces then [openTok] else []) ++ (a.events.flatMap Event.toks ++ if a.braces then [closeTok] else []) ++ r) := by
  cases hb : a.braces with
  | true => exact ⟨openTok, _, rfl, .inl (by decide)⟩
  | false =>
    have hr : Stop r := by
      rcases hr with h | h
      · rw [hb] at h; cases h
      · exact h
    have : Stop (a.events.flatMap Event.toks ++ r) := events_stop _ hr
    simpa using Stop.notKw n hn this

theorem ani_parses (a : AniSrc) : Parses parseAni a.toks a.value
    (fun r => a.braces = true ∨ Head (KwOf itemNames) r) := by
  unfold parseAni AniSrc.toks
  have hst : ∀ r, (a.braces = true ∨ Head (KwOf itemNames) r) → (a.braces = true ∨ Stop r) := by
    intro r hr
    rcases hr with h | h
    · exact .inl h
    · exact .inr (Head.mono (fun _ h => Or.inr (h.mono (by decide))) h)
  refine common_parses a.common ?_
  refine Parses.cons (Parses.keyword a.dir.key.txt) ?_
  have hdir : ∀ m, iequals a.dir.key.txt m = iequals (dirName a.dir.dir) m := iequals_of a.dir.key.ok
  rw [if_neg (by rw [hdir, hdir]; cases a.dir.dir <;> decide)]
  refine Parses.cons (Parses.int _) (Parses.cons (Parses.int _) (Parses.bind (Parses.optNamed _) (Parses.bind (Parses.optNamed _) ?_ ?_) ?_))
  · have hd : (if iequals a.dir.key.txt b!"R" = true then Dir.backward else Dir.forward) = a.dir.dir := by
      rw [hdir]; cases a.dir.dir <;> rfl
    rw [hd]
    have hval : ∀ x, a.events.foldl Event.apply x = a.events.foldl Event.apply x := fun _ => rfl
    cases hb : a.braces with
    | true =>
      refine Parses.cons (Parses.maybe openTok) ?_
      refine Parses.turns (fun n hn => ?_)
      refine ((events_braced a.events n _ ?_).mono (fun _ _ => trivial)).congr rfl ?_
      · have : a.events.length ≤ (a.events.flatMap Event.toks).length := by
          generalize a.events = es
          induction es with
          | nil => simp
          | cons e es ih =>
            rw [List.flatMap_cons, e.toks_eq]
            simp at ih ⊢
            omega
        simp only [if_true] at hn
        have hn' : (a.events.flatMap Event.toks ++ [closeTok]).length < n := hn
        rw [List.length_append] at hn'
        omega
      · unfold AniSrc.value
        rw [valOr_eq, valOr_eq]
        rfl
    | false =>
      refine Parses.bind (l1 := []) (Parses.maybeNot .lbrace) ?_ (fun r hr => ?_)
      · refine Parses.turns (fun n hn => ?_)
        have hp := events_open a.events n (a := { name := a.common.name, layer := a.common.layer.val, next := a.common.next, blendIn := a.common.blendIn.val, blendOut := a.common.blendOut.val, flags := flagBits a.common.flags.txt, model := a.common.model, direction := a.dir.dir, firstFrame := a.first.val, lastFrame := a.last.val, fps := (a.fps.map (·.num.val)).getD f25, speed := 0, cvs := (a.cvs.map (·.num.val)).getD f1 }) ?_
        · refine (hp.mono (fun r hr => ?_)).congr (by simp) ?_
          · rcases hr with h | h
            · cases h
            · exact h
          · unfold AniSrc.value
            rw [valOr_eq, valOr_eq]
            rfl
        · have : a.events.length ≤ (a.events.flatMap Event.toks).length := by
            generalize a.events = es
            induction es with
            | nil => simp
            | cons e es ih =>
              rw [List.flatMap_cons, e.toks_eq]
              simp at ih ⊢
              omega
          have hn' : (a.events.flatMap Event.toks ++ []).length < n := hn
          rw [List.append_nil] at hn'
          omega
      · have h2 : Stop r := by
          rcases hr with h | h
          · cases h
          · exact Head.mono (fun _ h => Or.inr (h.mono (by decide))) h
        have h3 : Stop (a.events.flatMap Event.toks ++ r) := events_stop _ h2
        simpa using Stop.kind .lbrace (by decide) h3
  · intro r hr
    exact ani_tail a _ (by decide) (hst r hr)
  · intro r hr
    rw [List.append_assoc]
    exact head_opt a.cvs (fun k => k.head (NotKw.of k.key (by decide))) (ani_tail a _ (by decide) (hst r hr))

theorem ignoreBlock_eq : ∀ (l : List Tok) (n : Nat), (∀ k ∈ l, k.1 ≠ .rbrace) → l.length < n → ∀ t rest, Rem t (l ++ closeTok :: rest) →
    ∃ t', ignoreBlock n t = .ok t' ∧ Rem t' rest ∧ t'.rs.data = t.rs.data
  | _, 0, _, h, _, _, _ => by simp at h
  | [], n + 1, _, _, t, rest, hr => by
    obtain ⟨t', e, v, r, d, _⟩ := Rem.next (k := closeTok) (l := rest) hr
    refine ⟨t', ?_, r, d⟩
    rw [ignoreBlock, e]
    rfl
  | k :: l, n + 1, hl, h, t, rest, hr => by
    obtain ⟨t', e, v, r, d, _⟩ := Rem.next (k := k) (l := l ++ closeTok :: rest) hr
    obtain ⟨t2, e2, r2, d2⟩ := ignoreBlock_eq l n (fun x hx => hl x (by simp [hx])) (by simp at h; omega) t' rest r
    refine ⟨t2, ?_, r2, by rw [d2, d]⟩
    rw [ignoreBlock, e]
    simp only [if_neg (hl k (by simp)), e2]

theorem block_parses (b : Option Block) : Parses skipBlock (opt Block.toks b) () (Head (fun k => k.1 ≠ .lbrace)) := by
  unfold skipBlock
  cases b with
  | none => exact Parses.bind (l1 := []) (l2 := []) (Parses.maybeNot .lbrace) (Parses.pure (α := Unit) () _) (fun _ h => h)
  | some b =>
    refine Parses.cons (Parses.maybe openTok) ?_
    rw [if_pos rfl]
    refine Parses.turns (fun n hn => ?_)
    intro t rest _ hr
    have hr' : Rem t (b.content ++ closeTok :: rest) := by simpa using hr
    obtain ⟨t', e, r, d⟩ := ignoreBlock_eq b.content n b.ok (by simp at hn; omega) t rest hr'
    exact ⟨t', by simp only [e], r, d⟩

theorem comb_parses (c : Common) (l : IntLit) (b : Option Block) : Parses parseAniComb (c.toks ++ (l.tok :: opt Block.toks b))
    ⟨c.name, c.layer.val, c.next, c.blendIn.val, c.blendOut.val, flagBits c.flags.txt, c.model, l.val⟩ Stop := by
  unfold parseAniComb
  refine common_parses c ?_
  exact Parses.cons (Parses.int l) (Parses.last (f := fun _ : Unit => (⟨_, _, _, _, _, _, _, _⟩ : Combine))
    ((block_parses b).mono (fun r hr => Stop.kind _ (by decide) hr)))

theorem alias_parses (c : Common) (d : Option DirKw) : Parses parseAniAlias (c.toks ++ opt (fun d : DirKw => [d.key.tok]) d)
    ⟨c.name, c.layer.val, c.next, c.blendIn.val, c.blendOut.val, flagBits c.flags.txt, c.model,
      (match d with | none => .forward | some d => d.dir)⟩ Stop := by
  unfold parseAniAlias
  refine common_parses c ?_
  have hd : Parses maybeDir (opt (fun d : DirKw => [d.key.tok]) d) (match d with | none => .forward | some d => d.dir) Stop := by
    unfold maybeDir
    cases d with
    | none =>
      refine Parses.bind (l1 := []) (l2 := []) (Parses.maybeKeywordNot _) ?_ (fun r hr => Stop.notKw _ (by decide) hr)
      exact Parses.bind (l1 := []) (l2 := []) (Parses.maybeKeywordNot _) (Parses.pure (α := Dir) .forward _)
        (fun r hr => Stop.notKw _ (by decide) hr)
    | some d =>
      obtain ⟨dir, key⟩ := d
      cases dir with
      | forward => exact Parses.cons (Parses.maybeKeyword (n := b!"F") key) (Parses.pure (α := Dir) .forward _)
      | backward =>
        refine Parses.bind (l1 := []) (Parses.maybeKeywordNot _) ?_ (fun r _ => ⟨key.tok, r, rfl, NotKw.of key (by decide)⟩)
        exact Parses.cons (Parses.maybeKeyword (n := b!"R") key) (Parses.pure (α := Dir) .backward _)
  exact Parses.last (f := fun x => (⟨_, _, _, _, _, _, _, x⟩ : Alias)) hd

theorem contains_iff (n : Bytes) : ∀ s : Bytes, contains n s = true ↔ n <:+: s
  | [] => by
    unfold contains
    rw [List.isEmpty_iff, List.infix_nil]
  | c :: r => by
    rw [contains, Bool.or_eq_true, contains_iff n r, List.isPrefixOf_iff_prefix, List.infix_cons_iff]

theorem noFlags_iff (s : Bytes) : (contains b!"ani" s || contains b!"model" s) = true ↔ NoFlags s := by
  rw [Bool.or_eq_true, contains_iff, contains_iff]
  rfl

theorem anyKeyword_parses (s : Bytes) : Parses maybeAnyKeyword [(.keyword, s)] (some s) Any := by
  intro t rest _ h
  obtain ⟨t', e, v, r, d, _⟩ := maybe_yes (.keyword, s) t rest h
  refine ⟨t', ?_, r, d⟩
  have e3 : pValue t' = .ok (s, t') := by unfold pValue; rw [v]
  unfold maybeAnyKeyword
  have e' : maybe .keyword t = .ok (true, t') := e
  rw [P.bind_ok e', if_pos rfl, P.bind_ok e3]
  rfl

/-- Flags that do not look like the keyword of an item. -/
theorem maybeFlags_some (f : Flags) (h : ¬ NoFlags f.txt) :
    Parses maybeFlags f.toks (some (flagBits f.txt)) (Head (fun k => k.1 ≠ .colon)) := by
  unfold maybeFlags
  refine Parses.cons (anyKeyword_parses f.txt) ?_
  show Parses (if contains b!"ani" f.txt || contains b!"model" f.txt then _ else _) _ _ _
  rw [if_neg (by rw [noFlags_iff]; exact h)]
  have := Parses.last (f := fun _ : Bool => some (flagsOf f.txt)) (optColon f.colon)
  exact this.congr rfl (by rw [flagsOf_eq])

/-- No flags. -/
theorem maybeFlags_none : Parses maybeFlags [] none (Head (fun k => k.1 ≠ .keyword ∨ NoFlags k.2)) := by
  rintro t rest ⟨⟨k, s⟩, r, rfl, hk⟩ hr
  unfold maybeFlags
  by_cases h : k = .keyword
  · subst h
    have hn : NoFlags s := by
      rcases hk with hk | hk
      · exact absurd rfl hk
      · exact hk
    obtain ⟨t', e, v, _, _, t'', b, rb, db⟩ := maybe_yes (.keyword, s) t r hr
    refine ⟨t'', ?_, rb, db⟩
    have e3 : pValue t' = .ok (s, t') := by unfold pValue; rw [v]
    have eb : pBack t' = .ok ((), t'') := by unfold pBack; rw [b]
    have e4 : maybeAnyKeyword t = .ok (some s, t') := by
      unfold maybeAnyKeyword
      have e' : maybe .keyword t = .ok (true, t') := e
      rw [P.bind_ok e', if_pos rfl, P.bind_ok e3]
      rfl
    rw [P.bind_ok e4]
    simp only
    rw [if_pos ((noFlags_iff s).2 hn), P.bind_ok eb]
    rfl
  · obtain ⟨t', e, rr, d⟩ := maybe_no (kind := .keyword) (k := (k, s)) h t r hr
    refine ⟨t', ?_, rr, d⟩
    have e4 : maybeAnyKeyword t = .ok (none, t') := by
      unfold maybeAnyKeyword
      rw [P.bind_ok e]
      rfl
    rw [P.bind_ok e4]
    rfl

/-- The two optional numbers. -/
theorem nums_parses {β : Type} (ns : Nums) {f : Option (BitVec 32) → Option (BitVec 32) → P β} {l : List Tok} {v : β} {Q : List Tok → Prop}
    (h : Parses (f (match ns with | .none => none | .one a => some a.val | .two a _ => some a.val)
      (match ns with | .two _ b => some b.val | _ => none)) l v Q)
    (hq : ∀ r, Q r → Head (fun k => k.1 ≠ .integer ∧ k.1 ≠ .float) (l ++ r)) :
    Parses (do let a ← maybeNumber; let b ← maybeNumber; f a b) (ns.toks ++ l) v Q := by
  cases ns with
  | none => exact Parses.bind (l1 := []) Parses.maybeNumberNot (Parses.bind (l1 := []) Parses.maybeNumberNot h hq) hq
  | one a => exact Parses.cons (Parses.maybeNumber a) (Parses.bind (l1 := []) Parses.maybeNumberNot h hq)
  | two a b => exact Parses.cons (Parses.maybeNumber a) (Parses.cons (Parses.maybeNumber b) h)

theorem kw_not (s : Bytes) : (Token.keyword, s).1 ≠ .integer ∧ (Token.keyword, s).1 ≠ .float := ⟨by simp, by simp⟩

/-- What may follow a blend. -/
def AfterBlend (b : BlendSrc) (r : List Tok) : Prop :=
  Stop r ∧ (b.flags = none → b.block = none → Head (fun k => k.1 ≠ .keyword ∨ NoFlags k.2) r)

theorem Block.head (b : Block) {q : Tok → Prop} (h : q openTok) : Head q b.toks := ⟨_, _, rfl, h⟩

theorem blend_parses (b : BlendSrc) (hf : ∀ f, b.flags = some f → ¬ NoFlags f.txt) :
    Parses parseAniBlend b.toks b.value (AfterBlend b) := by
  unfold parseAniBlend BlendSrc.toks
  refine Parses.cons (Parses.string _) (Parses.bind (Parses.optInt _) (Parses.cons (Parses.string _) ?_)
    (fun r _ => ⟨str b.next, _, rfl, str_kind _ _ (by decide)⟩))
  refine nums_parses (Q := AfterBlend b) b.nums (l := opt Flags.toks b.flags ++ opt Block.toks b.block)
    (f := fun x y => do
      let _ ← maybeFlags
      skipBlock
      return (⟨b.name, b.next, x.getD 0, y.getD 0⟩ : Blend)) ?_ ?_
  · have hb : Parses (do skipBlock; return (b.value)) (opt Block.toks b.block) b.value (AfterBlend b) :=
      Parses.last (f := fun _ : Unit => b.value) ((block_parses b.block).mono (fun r hr => Stop.kind _ (by decide) hr.1))
    have hv : ∀ x y, x = (match b.nums with | .none => none | .one a => some a.val | .two a _ => some a.val) →
        y = (match b.nums with | .two _ b => some b.val | _ => none) → (⟨b.name, b.next, x.getD 0, y.getD 0⟩ : Blend) = b.value := by
      intro x y hx hy
      unfold BlendSrc.value
      subst hx; subst hy
      cases b.nums <;> rfl
    simp only [hv _ _ rfl rfl]
    cases hfl : b.flags with
    | none =>
      refine Parses.bind (l1 := []) maybeFlags_none hb (fun r hr => ?_)
      cases hbl : b.block with
      | none => exact hr.2 hfl hbl
      | some bl =>
        exact ⟨openTok, _, rfl, .inl (by decide)⟩
    | some f =>
      refine Parses.bind (maybeFlags_some f (hf f hfl)) hb (fun r hr => ?_)
      exact head_opt b.block (fun bl => bl.head (by decide)) (Stop.kind _ (by decide) hr.1)
  · intro r hr
    rw [List.append_assoc]
    refine head_opt b.flags (fun f => ⟨_, _, rfl, kw_not _⟩) (head_opt b.block (fun bl => bl.head (by decide)) ?_)
    exact Head.mono (fun k h => ⟨Ends.kind h _ (by decide), Ends.kind h _ (by decide)⟩) hr.1

/-- What may follow an item. -/
def AfterItem (i : Item) (r : List Tok) : Prop :=
  (∃ s r', r = (.keyword, s) :: r' ∧ KwOf itemNames (.keyword, s) ∧ i.Ok (some s)) ∨ (∃ r', r = closeTok :: r' ∧ i.Ok none)

theorem AfterItem.stop {i : Item} {r : List Tok} (h : AfterItem i r) : Stop r := by
  rcases h with ⟨s, r', rfl, h, _⟩ | ⟨r', rfl, _⟩
  · exact ⟨_, _, rfl, .inr (h.mono (by decide))⟩
  · exact ⟨_, _, rfl, .inl rfl⟩

theorem Parses.map {α β : Type} {p : P α} {f : α → β} {l : List Tok} {v : α} {Q : List Tok → Prop} (h : Parses p l v Q) :
    Parses (do return f (← p)) l (f v) Q := Parses.last (f := f) h

theorem modelTag_parses (t : Kw b!"DEF_HIT_LIMB") (b : Bytes) : Parses parseModelTag [str t.txt, str b] b Any := by
  unfold parseModelTag
  refine Parses.cons (Parses.string _) ?_
  rw [if_pos (by rw [iequals_of t.ok]; decide)]
  exact Parses.string b

theorem item_parses (s : Script) (i : Item) : Parses (parseItem s i.keyTxt) i.args (i.apply s) (AfterItem i) := by
  unfold parseItem
  cases i with
  | ani k a =>
    simp only [Item.keyTxt, iequals_of k.ok]
    rw [if_pos (by decide)]
    refine Parses.map (f := fun x => { s with animations := s.animations ++ [x] }) ((ani_parses a).mono (fun r hr => ?_))
    rcases hr with ⟨s', r', rfl, h, _⟩ | ⟨r', rfl, h⟩
    · exact .inr ⟨_, _, rfl, h⟩
    · rcases h with h | h
      · exact .inl h
      · exact absurd rfl h
  | blend k b =>
    simp only [Item.keyTxt, iequals_of k.ok]
    rw [if_neg (by decide), if_pos (by decide)]
    intro t rest hr
    have hok : ∀ f, b.flags = some f → ¬ NoFlags f.txt := by
      rcases hr with ⟨s', r', _, _, h⟩ | ⟨r', _, h⟩
      · exact h.1
      · exact h.1
    refine Parses.map (f := fun x => { s with blends := s.blends ++ [x] }) ((blend_parses b hok).mono (fun r hr => ?_)) t rest hr
    refine ⟨AfterItem.stop hr, fun h1 h2 => ?_⟩
    rcases hr with ⟨s', r', rfl, _, h⟩ | ⟨r', rfl, h⟩
    · exact ⟨_, _, rfl, .inr (h.2 h1 h2 _ rfl)⟩
    · exact ⟨_, _, rfl, .inl (by decide)⟩
  | alias_ k c d =>
    simp only [Item.keyTxt, iequals_of k.ok]
    rw [if_neg (by decide), if_neg (by decide), if_pos (by decide)]
    exact Parses.map (f := fun x => { s with aliases := s.aliases ++ [x] }) ((alias_parses c d).mono (fun r hr => AfterItem.stop hr))
  | comb k c l b =>
    simp only [Item.keyTxt, iequals_of k.ok]
    rw [if_neg (by decide), if_neg (by decide), if_neg (by decide), if_pos (by decide)]
    exact Parses.map (f := fun x => { s with combinations := s.combinations ++ [x] }) ((comb_parses c l b).mono (fun r hr => AfterItem.stop hr))
  | disable k n =>
    simp only [Item.keyTxt, iequals_of k.ok]
    rw [if_neg (by decide), if_neg (by decide), if_neg (by decide), if_neg (by decide), if_pos (by decide)]
    exact Parses.map (f := fun x => { s with disabled := s.disabled ++ [x] }) ((Parses.string n).mono (fun _ _ => trivial))
  | modelTag k t b =>
    simp only [Item.keyTxt, iequals_of k.ok]
    rw [if_neg (by decide), if_neg (by decide), if_neg (by decide), if_neg (by decide), if_neg (by decide), if_pos (by decide)]
    exact Parses.map (f := fun x => { s with modelTags := s.modelTags ++ [x] }) ((modelTag_parses t b).mono (fun _ _ => trivial))

theorem Item.kwOf (i : Item) : KwOf itemNames (.keyword, i.keyTxt) := by
  cases i with
  | ani k => exact ⟨rfl, _, by simp [itemNames], k.ok⟩
  | blend k => exact ⟨rfl, _, by simp [itemNames], k.ok⟩
  | alias_ k => exact ⟨rfl, _, by simp [itemNames], k.ok⟩
  | comb k => exact ⟨rfl, _, by simp [itemNames], k.ok⟩
  | disable k => exact ⟨rfl, _, by simp [itemNames], k.ok⟩
  | modelTag k => exact ⟨rfl, _, by simp [itemNames], k.ok⟩

theorem enum_parses : ∀ (is : List Item) (n : Nat) (s : Script), is.length < n → ItemsOk is →
    Parses (enumLoop n s) (is.flatMap Item.toks ++ [closeTok]) (is.foldl Item.apply s) Any
  | _, 0, _, h, _ => by simp at h
  | [], n + 1, s, _, _ => Parses.close
  | i :: is, n + 1, s, h, hok => by
    have ih := enum_parses is n (i.apply s) (by simp at h; omega) hok.2
    have e : (i :: is).flatMap Item.toks ++ [closeTok] = (.keyword, i.keyTxt) :: (i.args ++ (is.flatMap Item.toks ++ [closeTok])) := by
      simp [List.flatMap_cons, Item.toks]
    rw [e]
    refine Parses.turn (f := fun kw => do
      let s ← parseItem s kw
      enumLoop n s) ?_
    refine Parses.bind (item_parses s i) ih (fun r _ => ?_)
    cases is with
    | nil => exact .inr ⟨r, rfl, hok.1⟩
    | cons j js => exact .inl ⟨j.keyTxt, _, rfl, j.kwOf, hok.1⟩

theorem flat_length {α β : Type} (f : α → List β) (h : ∀ a, 0 < (f a).length) : ∀ l : List α, l.length ≤ (l.flatMap f).length
  | [] => by simp
  | a :: l => by
    have := flat_length f h l
    have := h a
    rw [List.flatMap_cons, List.length_append, List.length_cons]
    omega

theorem aniEnum_parses (is : List Item) (s : Script) (h : ItemsOk is) :
    Parses (parseAniEnum s) (openTok :: (is.flatMap Item.toks ++ [closeTok])) (is.foldl Item.apply s) Any := by
  unfold parseAniEnum
  refine Parses.cons (Parses.expect openTok) (Parses.turns (fun n hn => enum_parses is n s ?_ h))
  have := flat_length Item.toks (fun i => by simp [Item.toks]) is
  rw [List.length_append] at hn
  omega

/-- The tokens of a top-level statement behind its keyword. -/
theorem Top.split (t : Top) : ∃ s l, t.toks = (.keyword, s) :: l := by
  cases t with
  | meshAndTree k => exact ⟨_, _, rfl⟩
  | registerMesh k => exact ⟨_, _, rfl⟩
  | aniEnum k => exact ⟨_, _, rfl⟩

theorem top_parses (s : Script) (t : Top) (h : t.Ok) {k : Bytes} {l : List Tok} (e : t.toks = (.keyword, k) :: l) :
    Parses (parseTop s k) l (some (t.apply s)) Stop := by
  unfold parseTop
  cases t with
  | meshAndTree key n d =>
    obtain ⟨hk, hl⟩ := List.cons.inj e
    have hk : key.txt = k := (Prod.mk.inj hk).2
    subst hk; subst hl
    simp only [iequals_of key.ok]
    rw [if_pos (by decide)]
    refine Parses.last (f := fun x : Bytes × Bool => some { s with skeleton := x.1, disableMesh := x.2 }) (a := (n, d.isSome)) ?_
    unfold parseMeshAndTree
    refine Parses.cons (Parses.string n) (Parses.last (f := fun x => (n, x)) ((Parses.optKw d).mono (fun r hr => Stop.notKw _ (by decide) hr)))
  | registerMesh key n =>
    obtain ⟨hk, hl⟩ := List.cons.inj e
    have hk : key.txt = k := (Prod.mk.inj hk).2
    subst hk; subst hl
    simp only [iequals_of key.ok]
    rw [if_neg (by decide), if_pos (by decide)]
    exact Parses.map (f := fun x => some { s with meshes := s.meshes ++ [x] }) ((Parses.string n).mono (fun _ _ => trivial))
  | aniEnum key is =>
    obtain ⟨hk, hl⟩ := List.cons.inj e
    have hk : key.txt = k := (Prod.mk.inj hk).2
    subst hk; subst hl
    simp only [iequals_of key.ok]
    rw [if_neg (by decide), if_neg (by decide), if_pos (by decide)]
    exact Parses.map (f := fun x => some x) ((aniEnum_parses is s h).mono (fun _ _ => trivial))

theorem Top.kwOf (t : Top) {k : Bytes} {l : List Tok} (e : t.toks = (.keyword, k) :: l) : KwOf topNames (.keyword, k) := by
  cases t with
  | meshAndTree key n d =>
    have hk : key.txt = k := (Prod.mk.inj (List.cons.inj e).1).2
    subst hk
    exact ⟨rfl, _, by simp [topNames], key.ok⟩
  | registerMesh key n =>
    have hk : key.txt = k := (Prod.mk.inj (List.cons.inj e).1).2
    subst hk
    exact ⟨rfl, _, by simp [topNames], key.ok⟩
  | aniEnum key is =>
    have hk : key.txt = k := (Prod.mk.inj (List.cons.inj e).1).2
    subst hk
    exact ⟨rfl, _, by simp [topNames], key.ok⟩

theorem tops_parses : ∀ (ts : List Top) (n : Nat) (s : Script), ts.length < n → (∀ t ∈ ts, t.Ok) →
    Parses (topLoop n s) (ts.flatMap Top.toks ++ [closeTok]) (ts.foldl Top.apply s) Any
  | _, 0, _, h, _ => by simp at h
  | [], n + 1, s, _, _ => Parses.close
  | t :: ts, n + 1, s, h, hok => by
    have ih := tops_parses ts n (t.apply s) (by simp at h; omega) (fun x hx => hok x (by simp [hx]))
    obtain ⟨k, l, e⟩ := t.split
    have e' : (t :: ts).flatMap Top.toks ++ [closeTok] = (.keyword, k) :: (l ++ (ts.flatMap Top.toks ++ [closeTok])) := by
      simp [List.flatMap_cons, e]
    rw [e']
    refine Parses.turn (f := fun kw => do
      match ← parseTop s kw with
      | none => return s
      | some s => topLoop n s) ?_
    refine Parses.bind (top_parses s t (hok t (by simp)) e) ih (fun r _ => ?_)
    cases ts with
    | nil => exact ⟨closeTok, r, rfl, .inl rfl⟩
    | cons u us =>
      obtain ⟨k2, l2, e2⟩ := u.split
      refine ⟨(.keyword, k2), l2 ++ (us.flatMap Top.toks ++ [closeTok]) ++ r, ?_, .inr ((u.kwOf e2).mono (by decide))⟩
      simp [List.flatMap_cons, e2]

theorem script_parses (src : Source) (s : Script) (h : src.Ok) :
    Parses (parseScript s) (src.key.tok :: str src.name :: openTok :: (src.tops.flatMap Top.toks ++ [closeTok])) (src.apply s) Any := by
  unfold parseScript
  refine Parses.cons (Parses.thisKeyword src.key) (Parses.cons (Parses.string _) (Parses.cons (Parses.expect openTok)
    (Parses.turns (fun n hn => tops_parses src.tops n s ?_ h))))
  have := flat_length Top.toks (fun t => by obtain ⟨k, l, e⟩ := t.split; simp [e]) src.tops
  rw [List.length_append] at hn
  omega

end Verif.Mds
