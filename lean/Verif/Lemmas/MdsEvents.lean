import Verif.Lemmas.MdsParser

namespace Verif.Mds

open Vfs (iequals)

/-! ## Event tags -/

theorem lookup_cons (t n : Bytes) (v d : EventType) (l : List (Bytes × EventType)) :
    (((n, v) :: l).lookup t).getD d = if t = n then v else (l.lookup t).getD d := by
  rw [List.lookup_cons]
  by_cases h : t = n
  · simp [h]
  · have hb : (t == n) = false := beq_eq_false_iff_ne.2 h
    rw [hb, if_neg h]

theorem typeOf_eq (t : Bytes) : (eventTypes.lookup t).getD .unknown = typeOf t := by
  have hor : ∀ (a b : Prop) [Decidable a] [Decidable b] (x y : EventType),
      (if a ∨ b then x else y) = if a then x else if b then x else y := by
    intro a b _ _ x y
    by_cases ha : a <;> by_cases hb : b <;> simp [ha, hb]
  unfold eventTypes typeOf
  simp only [lookup_cons, hor, List.lookup_nil, Option.getD_none]

theorem modeOf_eq (n : Bytes) : fightMode n = modeOf n := by
  unfold fightMode modeOf
  simp only [List.find?_cons, List.find?_nil, modeName, List.mem_cons, List.not_mem_nil, or_false]
  by_cases h1 : n = b!"FIST"
  · simp [h1]
  by_cases h2 : n = b!"1H" ∨ n = b!"1h"
  · simp only [h1, h2, decide_true, decide_false, if_true, if_false, Option.getD_some]
  by_cases h3 : n = b!"2H" ∨ n = b!"2h"
  · simp only [h1, h2, h3, decide_true, decide_false, if_true, if_false, Option.getD_some]
  by_cases h4 : n = b!"BOW"
  · subst h4; decide
  by_cases h5 : n = b!"CBOW"
  · subst h5; decide
  by_cases h6 : n = b!"MAG"
  · subst h6; decide
  · simp only [h1, h2, h3, h4, h5, h6, decide_false, if_false, Option.getD_none]

/-- The first argument. -/
def Args.a : Args → Option Bytes
  | .none => Option.none
  | .one a => some a
  | .two a _ => some a

/-- The second argument. -/
def Args.b : Args → Option Bytes
  | .two _ b => some b
  | _ => Option.none

theorem makeEventTag_tag (f : BitVec 32) (t : Bytes) (as : Args) (at_ : Bool) (h : ¬ FrameType (typeOf t)) :
    makeEventTag f t as.a as.b at_ = .ok (tagOf f t as at_) := by
  have ha : as.a.getD [] = as.first := by cases as <;> rfl
  have hb : as.b.getD [] = as.second := by cases as <;> rfl
  unfold makeEventTag tagOf
  simp only [typeOf_eq, ha, hb, modeOf_eq]
  generalize typeOf t = ty at *
  cases ty
  all_goals first
    | rfl
    | exact absurd (by decide) h

theorem extractInt_of {s r : Bytes} {i : Int} (h : strtol s = some (i, r)) (h1 : -2 ^ 31 ≤ i) (h2 : i < 2 ^ 31) (fr : BitVec 32) :
    extractInt s fr = (BitVec.ofInt 32 i, r, r.isEmpty, false) := by
  unfold strtol at h
  unfold extractInt
  simp only at h ⊢
  by_cases hd : ((signOf (s.dropWhile isSpace)).2.takeWhile isDigit).isEmpty = true
  · rw [if_pos hd] at h; cases h
  · rw [if_neg hd] at h
    have hne : s.dropWhile isSpace ≠ [] := by
      intro h0
      rw [h0] at hd
      exact hd rfl
    simp only [Option.some.injEq, Prod.mk.injEq] at h
    obtain ⟨e1, e2⟩ := h
    rw [if_neg hne, if_neg (by simpa using hd), e1, e2, if_neg (by omega), if_neg (by omega)]

theorem strtol_space (s : Bytes) : strtol (32 :: s) = strtol s := by
  unfold strtol
  have : (32 :: s).dropWhile isSpace = s.dropWhile isSpace := by
    rw [List.dropWhile_cons]; rfl
  rw [this]

theorem framesLoop_eq : ∀ (vs : List (BitVec 32)) (v : BitVec 32) (fuel : Nat) (s : Bytes) (fr : BitVec 32) (acc : List (BitVec 32)),
    vs.length < fuel → (s = framesText (v :: vs) ∨ s = 32 :: framesText (v :: vs)) →
    framesLoop fuel s fr acc = .ok (acc ++ v :: vs)
  | _, _, 0, _, _, _, hf, _ => by simp at hf
  | [], v, fuel + 1, s, fr, acc, hf, hs => by
    have h1 := BitVec.toInt_lt (x := v)
    have h2 := BitVec.le_toInt v
    have hst : strtol s = some (v.toInt, []) := by
      rcases hs with rfl | rfl
      · exact strtol_decInt' _
      · rw [strtol_space]; exact strtol_decInt' _
    rw [framesLoop, extractInt_of hst (by omega) (by omega)]
    simp
  | w :: vs, v, fuel + 1, s, fr, acc, hf, hs => by
    have h1 := BitVec.toInt_lt (x := v)
    have h2 := BitVec.le_toInt v
    have e : framesText (v :: w :: vs) = decInt v.toInt ++ 32 :: framesText (w :: vs) := rfl
    have hst : strtol s = some (v.toInt, 32 :: framesText (w :: vs)) := by
      have := strtol_decInt v.toInt (32 :: framesText (w :: vs)) (by simp; decide)
      rcases hs with rfl | rfl
      · rw [e, this]
      · rw [strtol_space, e, this]
    rw [framesLoop, extractInt_of hst (by omega) (by omega)]
    simp only [List.isEmpty_cons, Bool.or_self, if_false, Bool.false_eq_true]
    rw [framesLoop_eq vs w fuel _ _ _ (by simp at hf; omega) (.inr rfl)]
    simp

theorem framesText_length : ∀ (vs : List (BitVec 32)), vs.length ≤ (framesText vs).length
  | [] => by simp [framesText]
  | [v] => by
    have := List.length_pos_iff.2 (decInt_ne_nil v.toInt)
    exact this
  | v :: w :: vs => by
    have := framesText_length (w :: vs)
    have h2 := List.length_pos_iff.2 (decInt_ne_nil v.toInt)
    have e : framesText (v :: w :: vs) = decInt v.toInt ++ 32 :: framesText (w :: vs) := rfl
    rw [e]
    simp only [List.length_append, List.length_cons] at *
    omega

theorem makeEventTag_frames (f : BitVec 32) (t : Bytes) (vs : List (BitVec 32)) (b : Option Bytes) (at_ : Bool)
    (h : FrameType (typeOf t)) (hv : vs ≠ []) :
    makeEventTag f t (some (framesText vs)) b at_ =
      .ok { frame := f, type := typeOf t, frames := vs, attached := at_ } := by
  obtain ⟨v, vs, rfl⟩ := List.exists_cons_of_ne_nil hv
  have hl := framesText_length (v :: vs)
  have hfr : framesLoop ((framesText (v :: vs)).length + 1) (framesText (v :: vs)) 0 [] = .ok (v :: vs) :=
    framesLoop_eq vs v _ _ 0 [] (by simp at hl; omega) (.inl rfl)
  unfold makeEventTag
  simp only [typeOf_eq, Option.getD_some, hfr]
  generalize typeOf t = ty at *
  cases ty
  all_goals first
    | rfl
    | exact absurd h (by decide)

/-! ## What follows -/

def eventNames : List Bytes :=
  [b!"*eventTag", b!"*eventSFX", b!"*eventSFXGrnd", b!"*eventPFX", b!"*eventPFXStop", b!"*eventMMStartAni", b!"*eventCamTremor"]

def itemNames : List Bytes := [b!"ani", b!"aniBlend", b!"aniAlias", b!"aniComb", b!"aniDisable", b!"modelTag"]

def topNames : List Bytes := [b!"meshAndTree", b!"registerMesh", b!"aniEnum"]

/-- A keyword among the names. -/
def KwOf (ns : List Bytes) (k : Tok) : Prop := k.1 = .keyword ∧ ∃ n ∈ ns, iequals k.2 n = true

/-- A closing brace or a keyword among the names. -/
def Ends (ns : List Bytes) (k : Tok) : Prop := k.1 = .rbrace ∨ KwOf ns k

theorem Kw.kwOf {n : Bytes} (k : Kw n) {ns : List Bytes} (h : n ∈ ns) : KwOf ns k.tok := ⟨rfl, n, h, k.ok⟩

theorem Ends.notKw {ns : List Bytes} {k : Tok} (h : Ends ns k) (n : Bytes) (hn : ∀ m ∈ ns, iequals m n = false) : NotKw n k := by
  rcases h with h | ⟨h1, m, hm, h2⟩
  · left; rw [h]; decide
  · right; rw [iequals_of h2, hn m hm]

theorem Ends.kind {ns : List Bytes} {k : Tok} (h : Ends ns k) (kind : Token) (hk : kind ≠ .rbrace ∧ kind ≠ .keyword) : k.1 ≠ kind := by
  rcases h with h | ⟨h, _⟩
  · rw [h]; exact Ne.symm hk.1
  · rw [h]; exact Ne.symm hk.2

theorem Head.mono {q q' : Tok → Prop} (h : ∀ k, q k → q' k) {l : List Tok} (hl : Head q l) : Head q' l := by
  obtain ⟨k, r, e, hk⟩ := hl
  exact ⟨k, r, e, h k hk⟩

theorem Head.cons {q : Tok → Prop} {k : Tok} (h : q k) (l : List Tok) : Head q (k :: l) := ⟨k, l, rfl, h⟩

theorem NotKw.of {n m : Bytes} (k : Kw n) (h : iequals n m = false) : NotKw m k.tok := .inr (by
  show iequals k.txt m = false
  rw [iequals_of k.ok, h])

/-- Every name that may follow an event or an item. -/
def allNames : List Bytes := eventNames ++ itemNames ++ topNames

abbrev Stop : List Tok → Prop := Head (Ends allNames)

/-! ## Optional parts -/

namespace Parses

theorem optInt (i : Option IntLit) : Parses Mds.maybeInt (opt (fun i => [i.tok]) i) (i.map (·.val)) (Head (fun k => k.1 ≠ .integer)) := by
  cases i with
  | none => exact maybeIntNot
  | some i => exact (maybeInt i).mono (fun _ _ => trivial)

theorem optString (s : Option Bytes) : Parses Mds.maybeString (opt (fun s => [str s]) s) s (Head (fun k => k.1 ≠ .string)) := by
  cases s with
  | none => exact maybeStringNot
  | some s => exact (maybeString s).mono (fun _ _ => trivial)

theorem optKw {n : Bytes} (k : Option (Kw n)) :
    Parses (Mds.maybeKeyword n) (opt (fun k => [k.tok]) k) k.isSome (Head (NotKw n)) := by
  cases k with
  | none => exact maybeKeywordNot n
  | some k => exact (maybeKeyword k).mono (fun _ _ => trivial)

theorem optNamed {n : Bytes} (k : Option (Named n)) :
    Parses (Mds.maybeNamed n) (opt Named.toks k) (k.map (·.num.val)) (Head (NotKw n)) := by
  cases k with
  | none => exact maybeNamedNot n
  | some k => exact (maybeNamed k).mono (fun _ _ => trivial)

end Parses

/-- The head of optional tokens followed by others. -/
theorem head_opt {α : Type} {f : α → List Tok} {q : Tok → Prop} (o : Option α) {l : List Tok} (hf : ∀ a, Head q (f a)) (hl : Head q l) :
    Head q (opt f o ++ l) := by
  cases o with
  | none => exact hl
  | some a =>
    obtain ⟨k, r, e, hk⟩ := hf a
    show Head q (f a ++ l)
    rw [e]
    exact ⟨k, r ++ l, rfl, hk⟩

theorem valOr_eq {α : Type} (d : BitVec 32) (f : α → BitVec 32) (o : Option α) : (o.map f).getD d = valOr d f o := by
  cases o <;> rfl

/-! ## Events -/

theorem Stop.notKw (n : Bytes) (hn : ∀ m ∈ allNames, iequals m n = false) {r : List Tok} (h : Stop r) : Head (NotKw n) r :=
  Head.mono (fun _ hk => Ends.notKw hk n hn) h

theorem Stop.kind (kind : Token) (hk : kind ≠ .rbrace ∧ kind ≠ .keyword) {r : List Tok} (h : Stop r) : Head (fun k => k.1 ≠ kind) r :=
  Head.mono (fun _ h => Ends.kind h kind hk) h

theorem kw_kind {n : Bytes} (k : Kw n) (kind : Token) (hk : kind ≠ .keyword) : k.tok.1 ≠ kind := Ne.symm hk

theorem str_kind (s : Bytes) (kind : Token) (hk : kind ≠ .string) : (str s).1 ≠ kind := Ne.symm hk

/-- The two optional strings. -/
theorem args_parses {β : Type} (as : Args) {f : Option Bytes → Option Bytes → P β} {l : List Tok} {v : β} {Q : List Tok → Prop}
    (h : Parses (f as.a as.b) l v Q) (hq : ∀ r, Q r → Head (fun k => k.1 ≠ .string) (l ++ r)) :
    Parses (do let a ← maybeString; let b ← maybeString; f a b) (as.toks ++ l) v Q := by
  cases as with
  | none =>
    exact Parses.bind (l1 := []) Parses.maybeStringNot (Parses.bind (l1 := []) Parses.maybeStringNot h hq) hq
  | one a =>
    exact Parses.cons (Parses.maybeString a) (Parses.bind (l1 := []) Parses.maybeStringNot h hq)
  | two a b =>
    exact Parses.cons (Parses.maybeString a) (Parses.cons (Parses.maybeString b) h)

theorem eventTag_parses (f : Option IntLit) (t : Bytes) (as : Args) (at_ : Option (Kw b!"ATTACH")) (h : ¬ FrameType (typeOf t)) :
    Parses parseEventTag (opt (fun i => [i.tok]) f ++ (str t :: (as.toks ++ opt (fun k => [k.tok]) at_)))
      (tagOf (valOr 0 (·.val) f) t as at_.isSome) Stop := by
  unfold parseEventTag
  refine Parses.bind (Parses.optInt f) (Parses.cons (Parses.string t) ?_) (fun r _ => ⟨str t, _, rfl, str_kind _ _ (by decide)⟩)
  refine args_parses (Q := Stop) as (l := opt (fun k => [k.tok]) at_)
    (f := fun a b => do let at_ ← maybeKeyword b!"ATTACH"; lift (makeEventTag _ t a b at_)) ?_ ?_
  · have := Parses.bind (l2 := []) (Q2 := Stop) (Parses.optKw at_) (f := fun at_ => lift (makeEventTag ((f.map (·.val)).getD 0) t as.a as.b at_))
      (Parses.lift (makeEventTag_tag _ t as _ h) _) (fun r hr => Stop.notKw _ (by decide) hr)
    rw [List.append_nil] at this
    exact this.congr rfl (by rw [valOr_eq])
  · intro r hr
    exact head_opt at_ (fun k => ⟨k.tok, [], rfl, kw_kind k _ (by decide)⟩) (hr.kind _ (by decide))

theorem eventFrames_parses (f : Option IntLit) (t : Bytes) (vs : List (BitVec 32)) (e : Option Bytes) (at_ : Option (Kw b!"ATTACH"))
    (h : FrameType (typeOf t)) (hv : vs ≠ []) :
    Parses parseEventTag
      (opt (fun i => [i.tok]) f ++ (str t :: str (framesText vs) :: (opt (fun s => [str s]) e ++ opt (fun k => [k.tok]) at_)))
      { frame := valOr 0 (·.val) f, type := typeOf t, frames := vs, attached := at_.isSome } Stop := by
  unfold parseEventTag
  refine Parses.bind (Parses.optInt f) (Parses.cons (Parses.string t) (Parses.cons (Parses.maybeString _) ?_))
    (fun r _ => ⟨str t, _, rfl, str_kind _ _ (by decide)⟩)
  refine Parses.bind (Parses.optString e) ?_ (fun r hr => ?_) (Q2 := Stop)
  · have := Parses.bind (l2 := []) (Q2 := Stop) (Parses.optKw at_)
      (f := fun at_ => lift (makeEventTag ((f.map (·.val)).getD 0) t (some (framesText vs)) e at_))
      (Parses.lift (makeEventTag_frames _ t vs e _ h hv) _) (fun r hr => Stop.notKw _ (by decide) hr)
    rw [List.append_nil] at this
    exact this.congr rfl (by rw [valOr_eq])
  · exact head_opt at_ (fun k => ⟨k.tok, [], rfl, kw_kind k _ (by decide)⟩) (hr.kind _ (by decide))

theorem slot_parses (s : Slot) :
    Parses (orElse (maybeKeyword b!"EMPTY_SLOT") (maybeKeyword b!"EMTPY_SLOT")) s.toks
      (match s with | .none => false | _ => true) Stop := by
  cases s with
  | none =>
    exact Parses.orRight (Parses.maybeKeywordNot _) ((Parses.maybeKeywordNot _).mono (fun r hr => Stop.notKw _ (by decide) hr))
      (fun r hr => Stop.notKw _ (by decide) hr)
  | right k => exact Parses.orLeft ((Parses.maybeKeyword k).mono (fun _ _ => trivial))
  | wrong k =>
    exact Parses.orRight (Parses.maybeKeywordNot _) ((Parses.maybeKeyword k).mono (fun _ _ => trivial))
      (fun r _ => ⟨k.tok, r, rfl, NotKw.of k (by decide)⟩)

theorem eventSfx_parses (f : IntLit) (n : Bytes) (r : Option (Named b!"R")) (s : Slot) :
    Parses parseEventSFX (f.tok :: str n :: (opt Named.toks r ++ s.toks))
      ⟨f.val, n, valOr 0x447A0000 (·.num.val) r, match s with | .none => false | _ => true⟩ Stop := by
  unfold parseEventSFX
  refine Parses.cons (Parses.int f) (Parses.cons (Parses.string n) (Parses.bind (Parses.optNamed r) ?_ ?_))
  · have := Parses.last (f := fun slot => (⟨f.val, n, (r.map (·.num.val)).getD f1000, slot⟩ : Sfx)) (slot_parses s)
    exact this.congr rfl (by rw [valOr_eq]; rfl)
  · intro rest hr
    cases s with
    | none => exact Stop.notKw _ (by decide) hr
    | right k => exact ⟨k.tok, rest, rfl, NotKw.of k (by decide)⟩
    | wrong k => exact ⟨k.tok, rest, rfl, NotKw.of k (by decide)⟩

theorem eventSfxGround_parses (f : IntLit) (n : Bytes) (s : Option (Kw b!"EMPTY_SLOT")) :
    Parses parseEventSFXGrnd (f.tok :: str n :: opt (fun k => [k.tok]) s) ⟨f.val, n, 0x447A0000, false⟩ Stop := by
  unfold parseEventSFXGrnd
  refine Parses.cons (Parses.int f) (Parses.cons (Parses.string n) ?_)
  exact Parses.last (f := fun _ : Bool => (⟨f.val, n, f1000, false⟩ : Sfx))
    ((Parses.optKw s).mono (fun r hr => Stop.notKw _ (by decide) hr))

theorem attach_parses (a : Attach) :
    Parses (orElse (maybeKeyword b!"ATTACH") (maybe .string)) a.toks (match a with | .none => false | _ => true) Stop := by
  cases a with
  | none =>
    exact Parses.orRight (Parses.maybeKeywordNot _) ((Parses.maybeNot .string).mono (fun r hr => Stop.kind _ (by decide) hr))
      (fun r hr => Stop.notKw _ (by decide) hr)
  | key k => exact Parses.orLeft ((Parses.maybeKeyword k).mono (fun _ _ => trivial))
  | string s =>
    exact Parses.orRight (Parses.maybeKeywordNot _) ((Parses.maybe (str s)).mono (fun _ _ => trivial))
      (fun r _ => ⟨str s, r, rfl, .inl (str_kind _ _ (by decide))⟩)

theorem eventPfx_parses (f : IntLit) (i : Option IntLit) (n p : Bytes) (a : Attach) :
    Parses parseEventPFX (f.tok :: (opt (fun i => [i.tok]) i ++ (str n :: str p :: a.toks)))
      ⟨f.val, valOr 0 (·.val) i, n, p, match a with | .none => false | _ => true⟩ Stop := by
  unfold parseEventPFX
  refine Parses.cons (Parses.int f) (Parses.bind (Parses.optInt i) (Parses.cons (Parses.string n) (Parses.cons (Parses.string p) ?_))
    (fun r _ => ⟨str n, _, rfl, str_kind _ _ (by decide)⟩))
  have := Parses.last (f := fun at_ => (⟨f.val, (i.map (·.val)).getD 0, n, p, at_⟩ : Pfx)) (attach_parses a)
  exact this.congr rfl (by rw [valOr_eq])

theorem eventPfxStop_parses (f i : IntLit) : Parses parseEventPFXStop [f.tok, i.tok] ⟨f.val, i.val⟩ Stop := by
  unfold parseEventPFXStop
  exact (Parses.cons (Parses.int f) (Parses.last (f := fun x => (⟨f.val, x⟩ : PfxStop)) (Parses.int i))).mono (fun _ _ => trivial)

theorem eventMorph_parses (f : IntLit) (a : Bytes) (n : Option Bytes) :
    Parses parseEventMMStartAni (f.tok :: str a :: opt (fun s => [str s]) n) ⟨f.val, a, n.getD []⟩ Stop := by
  unfold parseEventMMStartAni
  exact Parses.cons (Parses.int f) (Parses.cons (Parses.string a)
    (Parses.last (f := fun n : Option Bytes => (⟨f.val, a, n.getD []⟩ : Morph))
      ((Parses.optString n).mono (fun r hr => Stop.kind _ (by decide) hr))))

theorem eventTremor_parses (f a b c d : IntLit) :
    Parses parseEventCamTremor [f.tok, a.tok, b.tok, c.tok, d.tok] ⟨f.val, a.val, b.val, c.val, d.val⟩ Stop := by
  unfold parseEventCamTremor
  exact (Parses.cons (Parses.int f) (Parses.cons (Parses.int a) (Parses.cons (Parses.int b) (Parses.cons (Parses.int c)
    (Parses.last (f := fun x => (⟨f.val, a.val, b.val, c.val, x⟩ : Tremor)) (Parses.int d)))))).mono (fun _ _ => trivial)

/-- The keyword of an event. -/
def Event.keyTxt : Event → Bytes
  | .tag k .. => k.txt
  | .frames k .. => k.txt
  | .sfx k .. => k.txt
  | .sfxGround k .. => k.txt
  | .pfx k .. => k.txt
  | .pfxStop k .. => k.txt
  | .morph k .. => k.txt
  | .tremor k .. => k.txt

theorem Event.toks_eq (e : Event) : e.toks = (.keyword, e.keyTxt) :: e.toks.tail := by cases e <;> rfl

theorem Event.head (e : Event) : KwOf eventNames (.keyword, e.keyTxt) := by
  cases e with
  | tag k => exact k.kwOf (by decide)
  | frames k => exact k.kwOf (by decide)
  | sfx k => exact k.kwOf (by decide)
  | sfxGround k => exact k.kwOf (by decide)
  | pfx k => exact k.kwOf (by decide)
  | pfxStop k => exact k.kwOf (by decide)
  | morph k => exact k.kwOf (by decide)
  | tremor k => exact k.kwOf (by decide)

theorem event_parses (a : Animation) (e : Event) : Parses (parseEvent a e.keyTxt) e.toks.tail (some (e.apply a)) Stop := by
  unfold parseEvent
  cases e with
  | tag k f t as at_ h =>
    have e' := iequals_of k.ok
    simp only [Event.keyTxt, e']
    exact Parses.last (f := fun x => some { a with events := a.events ++ [x] }) (eventTag_parses f t as at_ h)
  | frames k f t vs e at_ h hv =>
    have e' := iequals_of k.ok
    simp only [Event.keyTxt, e']
    exact Parses.last (f := fun x => some { a with events := a.events ++ [x] }) (eventFrames_parses f t vs e at_ h hv)
  | sfx k f n r s =>
    have e := iequals_of k.ok
    simp only [Event.keyTxt, e]
    exact Parses.last (f := fun x => some { a with sfx := a.sfx ++ [x] }) (eventSfx_parses f n r s)
  | sfxGround k f n s =>
    have e := iequals_of k.ok
    simp only [Event.keyTxt, e]
    exact Parses.last (f := fun x => some { a with sfxGround := a.sfxGround ++ [x] }) (eventSfxGround_parses f n s)
  | pfx k f i n p at_ =>
    have e := iequals_of k.ok
    simp only [Event.keyTxt, e]
    exact Parses.last (f := fun x => some { a with pfx := a.pfx ++ [x] }) (eventPfx_parses f i n p at_)
  | pfxStop k f i =>
    have e := iequals_of k.ok
    simp only [Event.keyTxt, e]
    exact Parses.last (f := fun x => some { a with pfxStop := a.pfxStop ++ [x] }) (eventPfxStop_parses f i)
  | morph k f an n =>
    have e := iequals_of k.ok
    simp only [Event.keyTxt, e]
    exact Parses.last (f := fun x => some { a with morph := a.morph ++ [x] }) (eventMorph_parses f an n)
  | tremor k f w x y z =>
    have e := iequals_of k.ok
    simp only [Event.keyTxt, e]
    exact Parses.last (f := fun x => some { a with tremors := a.tremors ++ [x] }) (eventTremor_parses f w x y z)

end Verif.Mds
