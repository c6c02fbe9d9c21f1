import Verif.Model.ArchiveHeader
import Verif.Lemmas.ArchiveBinsafe
import Verif.Lemmas.Chunk

/-! # Lemmas about archive headers -/

namespace Verif

/-- The text behind a line does not start with a space or line break, and is not a lone NUL. -/
def Solid (post : Bytes) : Prop := (∀ c rest, post = c :: rest → c ∉ Rd.lineSpaces) ∧ post ≠ [0]

theorem solid_cons (c : Byte) (rest : Bytes) (h : c ∉ Rd.lineSpaces) (h0 : c ≠ 0) : Solid (c :: rest) := by
  refine ⟨?_, ?_⟩
  · intro x r e
    cases e
    exact h
  · intro e
    cases e
    exact h0 rfl

theorem ReadsIf.line (v ws : Bytes) (hv : NoEol v) (hws : ∀ c ∈ ws, c ∈ Rd.lineSpaces) :
    ReadsIf (Rd.line true) (v ++ 10 :: ws) v Solid := by
  intro pre post hq
  refine lineThenIgnore_eq Rd.lineSpaces (by decide) pre v ws post 10 hv (.inr rfl) ?_ ?_ hq.2
  · intro c hc
    have := hws c hc
    refine ⟨?_, this⟩
    rintro rfl
    revert this; decide
  · intro c rest e
    exact .inr (hq.1 c rest e)

theorem ReadsIf.line1 (v : Bytes) (hv : NoEol v) : ReadsIf (Rd.line true) (v ++ [10]) v Solid :=
  ReadsIf.line v [] hv (by simp)

/-- `ReadsIf` at a given position. -/
theorem ReadsIf.atPos {α} {p : Rd α} {bs : Bytes} {a : α} {Q : Bytes → Prop} (h : ReadsIf p bs a Q) (data : Bytes)
    (pos : Nat) (rest : Bytes) (hp : pos ≤ data.length) (hd : data.drop pos = bs ++ rest) (hq : Q rest) :
    p ⟨data, pos⟩ = .ok (a, ⟨data, pos + bs.length⟩) ∧ pos + bs.length ≤ data.length ∧
      data.drop (pos + bs.length) = rest := by
  have hpre : (data.take pos).length = pos := by simp; omega
  have hdata : data = data.take pos ++ bs ++ rest := by
    rw [List.append_assoc, ← hd, List.take_append_drop]
  have := h (data.take pos) rest hq
  rw [← hdata, hpre] at this
  refine ⟨this, ?_, ?_⟩
  · have := congrArg List.length hd
    simp at this; omega
  · rw [← List.drop_drop, hd]; simp

end Verif

namespace Verif.Ar

/-- The bytes of the common lines. -/
def linesBytes (fmt : Fmt) (save : Bool) (e : Env) : Bytes :=
  b!"ZenGin Archive\nver 1\n" ++ fmt.archiver ++ [10] ++ fmt.name ++ [10] ++
    (if save then b!"saveGame 1" else b!"saveGame 0") ++ [10] ++ b!"date " ++ e.date ++ [10] ++
    b!"user " ++ e.user ++ [10] ++ b!"END" ++ [10]

theorem emits_lines (fmt : Fmt) (save : Bool) (e : Env) : Emits (writeLines fmt save e) (linesBytes fmt save e) := by
  have h := (((((((((Emits.line b!"ZenGin Archive").comp (Emits.line b!"ver 1")).comp (Emits.line fmt.archiver)).comp
    (Emits.line fmt.name)).comp (Emits.line (if save then b!"saveGame 1" else b!"saveGame 0"))).comp
    (Emits.string b!"date ")).comp (Emits.line e.date)).comp (Emits.string b!"user ")).comp (Emits.line e.user)).comp
    (Emits.line b!"END")
  refine Emits.congr h ?_
  simp [linesBytes]

theorem reads_stoi (s : Bytes) (i : Int) (r : Bytes) (h : strtol s = some (i, r)) (h1 : -2 ^ 31 ≤ i) (h2 : i < 2 ^ 31) :
    Reads (stoi s) [] i := by
  unfold stoi
  rw [h]
  simp only
  rw [if_pos ⟨h1, h2⟩]
  exact Reads.pure i

theorem afterSpace_app (a b : Bytes) (h : ∀ c ∈ a, c ≠ 32) : afterSpace (a ++ 32 :: b) = b := by
  unfold afterSpace
  rw [dropWhile_append_stop]
  · rfl
  · intro x hx; simpa using h x hx
  · intro x hx; simp at hx; subst hx; rfl

theorem noEol_append {a b : Bytes} (ha : NoEol a) (hb : NoEol b) : NoEol (a ++ b) := by
  intro c hc
  rcases List.mem_append.1 hc with h | h
  · exact ha c h
  · exact hb c h

theorem prefix_app (a b : Bytes) : a.isPrefixOf (a ++ b) = true := by
  rw [List.isPrefixOf_iff_prefix]
  exact List.prefix_append a b

/-- Loading the common lines. -/
theorem reads_lines (fmt : Fmt) (save : Bool) (e : Env) (hd : NoEol e.date) (hu : NoEol e.user) :
    ReadsIf loadHeader (linesBytes fmt save e) ⟨1, fmt.archiver, fmt, save, e.date, e.user⟩ Solid := by
  have solidTail : ∀ (c : Byte) (a b : Bytes), c ∉ Rd.lineSpaces → c ≠ 0 → Solid ((c :: a) ++ b) :=
    fun c a b h h0 => solid_cons c (a ++ b) h h0
  unfold loadHeader
  have hsplit : linesBytes fmt save e = (b!"ZenGin Archive" ++ [10]) ++ ((b!"ver 1" ++ [10]) ++ ([] ++
      ((fmt.archiver ++ [10]) ++ ((fmt.name ++ [10]) ++ (((if save then b!"saveGame 1" else b!"saveGame 0") ++ [10]) ++
      ([] ++ (((b!"date " ++ e.date) ++ [10]) ++ (((b!"user " ++ e.user) ++ [10]) ++ ((b!"END" ++ [10]) ++ []))))))))) := by
    simp [linesBytes]
  rw [hsplit]
  refine ReadsIf.bind (ReadsIf.line1 _ (by decide)) ?_ (fun post _ => solid_cons _ _ (by decide) (by decide))
  rw [if_neg (by decide)]
  refine ReadsIf.bind (ReadsIf.line1 _ (by decide)) ?_ (fun post _ => by
    cases fmt <;> exact solid_cons _ _ (by decide) (by decide))
  rw [if_neg (by decide)]
  refine ReadsIf.bind ((reads_stoi _ 1 [] (by decide) (by decide) (by decide)).toIf Solid) ?_ (fun post _ => by
    cases fmt <;> exact solid_cons _ _ (by decide) (by decide))
  rw [if_neg (by decide)]
  refine ReadsIf.bind (ReadsIf.line1 _ (by cases fmt <;> decide)) ?_ (fun post _ => by
    cases fmt <;> exact solid_cons _ _ (by decide) (by decide))
  refine ReadsIf.bind (ReadsIf.line1 _ (by cases fmt <;> decide)) ?_ (fun post _ => by
    cases save <;> exact solid_cons _ _ (by decide) (by decide))
  refine ReadsIf.bind (ReadsIf.line1 _ (by cases save <;> decide)) ?_ (fun post _ =>
    solid_cons _ _ (by decide) (by decide))
  rw [if_neg (by cases save <;> decide)]
  refine ReadsIf.bind ((reads_stoi _ (if save then 1 else 0) [] (by cases save <;> decide)
    (by cases save <;> decide) (by cases save <;> decide)).toIf Solid) ?_ (fun post _ =>
    solid_cons _ _ (by decide) (by decide))
  refine ReadsIf.bind (ReadsIf.line1 (b!"date " ++ e.date) (noEol_append (by decide) hd)) ?_ (fun post _ =>
    solid_cons _ _ (by decide) (by decide))
  rw [if_pos (prefix_app _ _)]
  refine ReadsIf.bind (b2 := (b!"END" ++ [10]) ++ [])
    ((ReadsIf.line1 (b!"user " ++ e.user) (noEol_append (by decide) hu)).bind_pure
      (f := fun x => (afterSpace (b!"date " ++ e.date), x))) ?_ (fun post _ =>
    solid_cons _ _ (by decide) (by decide))
  simp only
  rw [if_pos (prefix_app _ _)]
  refine ReadsIf.bind ((ReadsIf.line1 b!"END" (by decide)).bind_pure
      (f := fun x => (afterSpace (b!"user " ++ e.user), x))) ?_ (fun post h => h)
  simp only
  rw [if_neg (by decide)]
  refine (ReadsIf.pure _ _).congr rfl ?_
  have h1 : afterSpace (b!"date " ++ e.date) = e.date := afterSpace_app b!"date" e.date (by decide)
  have h2 : afterSpace (b!"user " ++ e.user) = e.user := afterSpace_app b!"user" e.user (by decide)
  rw [h1, h2]
  cases fmt <;> cases save <;> rfl

theorem strtol_count (n : Nat) (k : Nat) : strtol (dec n ++ List.replicate k 32) = some ((n : Int), List.replicate k 32) := by
  have := strtol_decInt (n : Int) (List.replicate k 32) (by
    intro c hc
    cases k with
    | zero => simp at hc
    | succ k => simp [List.replicate_succ] at hc; subst hc; rfl)
  have e : decInt (n : Int) = dec n := by
    unfold decInt
    rw [if_neg (by omega)]
    rfl
  rwa [e] at this

theorem countField_noEol (limit width : Nat) (n : BitVec 32) : NoEol (countField limit width n) := by
  have hr : ∀ k, NoEol (List.replicate k (32 : Byte)) := by
    intro k c hc
    rw [List.eq_of_mem_replicate hc]
    decide
  unfold countField
  simp only
  split
  · refine noEol_append ?_ (hr _)
    intro c hc
    have hd := dec_digits n.toNat c hc
    exact ⟨isDigit_ne c hd 0 (by simp), isDigit_ne c hd 13 (by simp), isDigit_ne c hd 10 (by simp)⟩
  · exact hr _

theorem countField_length (limit width : Nat) (h : limit ≤ width) (n : BitVec 32) :
    (countField limit width n).length = width := by
  unfold countField
  simp only
  split <;> simp
  omega

/-- The header of BINARY and ASCII archives behind the common lines. -/
def countBytes (limit width : Nat) (index : BitVec 32) : Bytes :=
  b!"objects " ++ countField limit width index ++ [10] ++ b!"END\n\n"

/-- Behind the header any number of line breaks is skipped. -/
theorem reads_count_more (k : Nat) (ignore : Bytes) (hi : ignore = [10] ∨ ignore = Rd.lineSpaces) (limit width : Nat) (index : BitVec 32)
    (hfit : (dec index.toNat).length ≤ limit) (h31 : index.toNat < 2 ^ 31) :
    ReadsIf (readCountHeader ignore) (countBytes limit width index ++ List.replicate k 10) index.toNat
      (fun post => (∀ c rest, post = c :: rest → c ∉ ignore) ∧ post ≠ [0]) := by
  unfold readCountHeader
  have hsplit : countBytes limit width index ++ List.replicate k 10 =
      ((b!"objects " ++ countField limit width index) ++ [10]) ++ ([] ++ ((b!"END" ++ 10 :: (10 :: List.replicate k 10)) ++ [])) := by
    simp [countBytes]
  rw [hsplit]
  refine ReadsIf.bind (ReadsIf.line1 _ (noEol_append (by decide) (countField_noEol _ _ _))) ?_ (fun post _ =>
    solid_cons _ _ (by decide) (by decide))
  simp only [prefix_app, Bool.not_true, Bool.false_eq_true, if_false]
  have h1 : afterSpace (b!"objects " ++ countField limit width index) = countField limit width index :=
    afterSpace_app b!"objects" _ (by decide)
  rw [h1]
  have h2 : countField limit width index =
      dec index.toNat ++ List.replicate (width - (dec index.toNat).length) 32 := by
    unfold countField
    simp only
    rw [if_pos hfit]
  rw [h2]
  refine ReadsIf.bind ((reads_stoi _ (index.toNat : Int) _ (strtol_count _ _) (by omega) (by omega)).toIf (fun _ => True)) ?_
    (fun post _ => trivial)
  have hend : ReadsIf (Rd.lineThenIgnore ignore) (b!"END" ++ 10 :: (10 :: List.replicate k 10)) b!"END"
      (fun post => (∀ c rest, post = c :: rest → c ∉ ignore) ∧ post ≠ [0]) := by
    intro pre post hq
    refine lineThenIgnore_eq ignore ?_ pre b!"END" (10 :: List.replicate k 10) post 10 (by decide) (.inr rfl) ?_ ?_ hq.2
    · rcases hi with rfl | rfl <;> decide
    · intro c hc
      have : c = 10 := by
        rcases List.mem_cons.1 hc with rfl | h
        · rfl
        · exact List.eq_of_mem_replicate h
      subst this
      rcases hi with rfl | rfl <;> decide
    · intro c rest e; exact .inr (hq.1 c rest e)
  refine ReadsIf.bind hend ?_ (fun post h => h)
  simp only [bne_self_eq_false, Bool.false_eq_true, if_false]
  exact ReadsIf.pure _ _

theorem reads_count (ignore : Bytes) (hi : ignore = [10] ∨ ignore = Rd.lineSpaces) (limit width : Nat) (index : BitVec 32)
    (hfit : (dec index.toNat).length ≤ limit) (h31 : index.toNat < 2 ^ 31) :
    ReadsIf (readCountHeader ignore) (countBytes limit width index) index.toNat
      (fun post => (∀ c rest, post = c :: rest → c ∉ ignore) ∧ post ≠ [0]) := by
  simpa using reads_count_more 0 ignore hi limit width index hfit h31

/-- Writing a header at the place of an earlier one of the same size. -/
theorem splice_head (d : Bytes) (p : Nat) (h1 h2 body : Bytes) (hp : p ≤ d.length) (hl : h1.length = h2.length) :
    splice (splice d p (h1 ++ body)) p h2 = splice d p (h2 ++ body) := by
  have := splice_patch d [] h1 h2 body p hp hl
  simpa using this

theorem emits_countHeader (fmt : Fmt) (limit width : Nat) (save : Bool) (e : Env) (index : BitVec 32) (w : Ws)
    (hw : w.pos ≤ w.data.length) :
    writeCountHeader fmt limit width w.pos save e index w =
      w.write (linesBytes fmt save e ++ countBytes limit width index) := by
  unfold writeCountHeader
  simp only [ne_eq, not_true_eq_false, if_false]
  have hs : w.seek (w.pos : Int) .beg = w := by simp [Ws.seek, Rd.seekTarget]
  rw [hs]
  have h := (((emits_lines fmt save e).comp (Emits.string b!"objects ")).comp
    (Emits.line (countField limit width index))).comp (Emits.line b!"END\n")
  have := h w hw
  simp only at this
  rw [this]
  simp [countBytes]

theorem rewrite_countHeader (fmt : Fmt) (limit width : Nat) (save save' : Bool) (e e' : Env) (index index' : BitVec 32)
    (hlim : limit ≤ width)
    (w : Ws) (hw : w.pos ≤ w.data.length) (hde : e.date.length + e.user.length = e'.date.length + e'.user.length)
    (body : Bytes) :
    writeCountHeader fmt limit width w.pos save' e' index'
        (w.write ((linesBytes fmt save e ++ countBytes limit width index) ++ body)) =
      w.write ((linesBytes fmt save' e' ++ countBytes limit width index') ++ body) := by
  have hl : (linesBytes fmt save e ++ countBytes limit width index).length =
      (linesBytes fmt save' e' ++ countBytes limit width index').length := by
    have h1 := countField_length limit width hlim index
    have h2 := countField_length limit width hlim index'
    simp only [linesBytes, countBytes, List.length_append, h1, h2]
    cases save <;> cases save' <;> simp <;> omega
  generalize hh1 : linesBytes fmt save e ++ countBytes limit width index = H1 at *
  unfold writeCountHeader
  have hs : (w.write (H1 ++ body)).seek (w.pos : Int) .beg = ⟨(w.write (H1 ++ body)).data, w.pos⟩ := by
    simp [Ws.seek, Rd.seekTarget]
  simp only [hs]
  have h := (((emits_lines fmt save' e').comp (Emits.string b!"objects ")).comp
    (Emits.line (countField limit width index'))).comp (Emits.line b!"END\n")
  have hw2 : w.pos ≤ (w.write (H1 ++ body)).data.length := by
    have := Ws.write_le w (H1 ++ body) hw
    simp only [Ws.write] at this ⊢; omega
  have h2 := h ⟨(w.write (H1 ++ body)).data, w.pos⟩ hw2
  simp only at h2
  rw [h2]
  have e1 : linesBytes fmt save' e' ++ b!"objects " ++ (countField limit width index' ++ [10]) ++ (b!"END\n" ++ [10])
      = linesBytes fmt save' e' ++ countBytes limit width index' := by simp [countBytes]
  rw [e1]
  generalize linesBytes fmt save' e' ++ countBytes limit width index' = H2 at *
  have h3 := splice_head w.data w.pos H1 H2 body hw hl
  have hne : (w.write (H1 ++ body)).pos = w.pos + (H1.length + body.length) := by simp [Ws.write]
  have hpos : H1.length ≠ 0 := by rw [← hh1]; simp [linesBytes]
  rw [if_pos (by rw [hne]; omega)]
  simp only [Ws.write, Ws.seek, Rd.seekTarget, h3]
  congr 1
  simp only [List.length_append, hl]
  omega

theorem splice_at (X Y bs : Bytes) : splice (X ++ Y) X.length bs = X ++ bs ++ Y.drop bs.length := by
  rw [splice_le _ _ _ (by simp), List.take_left, ← List.drop_drop, List.drop_left]

/-- What is skipped behind the header of a BINARY or ASCII archive. -/
def Fmt.ignored : Fmt → Bytes
  | .binary => [10]
  | _ => Rd.lineSpaces

/-- Opening a BINARY archive that is followed by line breaks. -/
theorem open_binary_more (k : Nat) (save : Bool) (e : Env) (index : BitVec 32)
    (hfit : (dec index.toNat).length ≤ 9) (h31 : index.toNat < 2 ^ 31) (hd : NoEol e.date) (hu : NoEol e.user) :
    ReadsIf openArchive (linesBytes .binary save e ++ (countBytes 9 10 index ++ List.replicate k 10))
      ⟨⟨1, Fmt.binary.archiver, .binary, save, e.date, e.user⟩, index.toNat, []⟩
      (fun post => (∀ c rest, post = c :: rest → c ≠ 10) ∧ post ≠ [0]) := by
  have hsol : ∀ post, Solid (countBytes 9 10 index ++ List.replicate k 10 ++ post) := by
    intro post
    exact solid_cons _ _ (by decide) (by decide)
  unfold openArchive
  refine ReadsIf.bind (reads_lines .binary save e hd hu) ?_ (fun post _ => hsol post)
  refine ReadsIf.mono (ReadsIf.bind_pure (reads_count_more k [10] (.inl rfl) 9 10 index hfit h31)
      (f := fun n : Int => (⟨⟨1, Fmt.binary.archiver, .binary, save, e.date, e.user⟩, n, []⟩ : Opened))) ?_
  rintro post ⟨h1, h2⟩
  exact ⟨fun c rest e => by simpa using h1 c rest e, h2⟩

/-- Opening a BINARY or ASCII archive. -/
theorem open_count (fmt : Fmt) (hfmt : fmt ≠ .binsafe) (limit width : Nat) (save : Bool) (e : Env) (index : BitVec 32)
    (hfit : (dec index.toNat).length ≤ limit) (h31 : index.toNat < 2 ^ 31) (hd : NoEol e.date) (hu : NoEol e.user) :
    ReadsIf openArchive (linesBytes fmt save e ++ countBytes limit width index)
      ⟨⟨1, fmt.archiver, fmt, save, e.date, e.user⟩, index.toNat, []⟩
      (fun post => (∀ c rest, post = c :: rest → c ∉ fmt.ignored) ∧ post ≠ [0]) := by
  have hsol : ∀ post, Solid (countBytes limit width index ++ post) := by
    intro post
    exact solid_cons _ _ (by decide) (by decide)
  unfold openArchive
  refine ReadsIf.bind (reads_lines fmt save e hd hu) ?_ (fun post _ => hsol post)
  cases fmt with
  | binsafe => exact absurd rfl hfmt
  | binary =>
    exact (reads_count [10] (.inl rfl) limit width index hfit h31).bind_pure
      (f := fun n : Int => (⟨⟨1, Fmt.binary.archiver, .binary, save, e.date, e.user⟩, n, []⟩ : Opened))
  | ascii =>
    exact (reads_count Rd.lineSpaces (.inr rfl) limit width index hfit h31).bind_pure
      (f := fun n : Int => (⟨⟨1, Fmt.ascii.archiver, .ascii, save, e.date, e.user⟩, n, []⟩ : Opened))

end Verif.Ar

namespace Verif.Ar.Bs

/-! ## The table of names -/

/-- The table of a writer: distinct names, numbered in order. -/
def KeysOk (ks : Keys) : Prop := (ks.map (·.1)).Nodup ∧ ∀ i (h : i < ks.length), ks[i].2.toNat = i

theorem find_none {ks : Keys} {n : Bytes} (h : ks.find n = none) : n ∉ ks.map (·.1) := by
  unfold Keys.find at h
  simp only [Option.map_eq_none_iff, List.find?_eq_none] at h
  simp only [List.mem_map, not_exists, not_and]
  rintro x hx rfl
  exact h x hx (by simp)

theorem find_some {ks : Keys} {n : Bytes} {k : BitVec 16} (h : ks.find n = some k) : (n, k) ∈ ks := by
  unfold Keys.find at h
  simp only [Option.map_eq_some_iff] at h
  obtain ⟨⟨a, b⟩, h1, rfl⟩ := h
  have h2 := List.find?_some h1
  have h3 := List.mem_of_find?_eq_some h1
  simp only [beq_iff_eq] at h2
  subst h2
  exact h3

theorem addKey_ok {ks : Keys} (n : Bytes) (h : KeysOk ks) (hl : (addKey ks n).length ≤ 65536) : KeysOk (addKey ks n) := by
  unfold addKey at hl ⊢
  cases hf : ks.find n with
  | some k => simpa [hf] using h
  | none =>
    simp only [hf, List.length_append, List.length_singleton] at hl ⊢
    refine ⟨?_, ?_⟩
    · rw [List.map_append, List.nodup_append]
      refine ⟨h.1, by simp, ?_⟩
      intro a ha b hb
      simp only [List.map_cons, List.map_nil, List.mem_singleton] at hb
      subst hb
      rintro rfl
      exact find_none hf ha
    · intro i hi
      simp only [List.length_append, List.length_singleton] at hi
      by_cases hc : i < ks.length
      · rw [List.getElem_append_left hc]
        exact h.2 i hc
      · have : i = ks.length := by omega
        subst this
        simp
        omega

theorem addKey_prefix (ks : Keys) (n : Bytes) : ks <+: addKey ks n := by
  unfold addKey
  cases ks.find n with
  | some k => exact List.prefix_refl _
  | none => exact List.prefix_append _ _

theorem addKey_mem (ks : Keys) (n m : Bytes) : m ∈ (addKey ks n).map (·.1) ↔ m ∈ ks.map (·.1) ∨ m = n := by
  unfold addKey
  cases hf : ks.find n with
  | none => simp
  | some k =>
    constructor
    · exact .inl
    · rintro (h | rfl)
      · exact h
      · exact List.mem_map.2 ⟨_, find_some hf, rfl⟩

/-- The number written for a name is the index of the name in the table. -/
theorem keyFor_get {ks : Keys} (n : Bytes) (h : KeysOk ks) (hl : (addKey ks n).length ≤ 65536) :
    ((addKey ks n)[(keyFor ks n).toNat]?).map (·.1) = some n := by
  have h2 := addKey_ok n h hl
  unfold addKey at h2 hl ⊢
  unfold keyFor
  cases hf : ks.find n with
  | none =>
    simp only [hf, List.length_append, List.length_singleton] at hl ⊢
    have e : (BitVec.ofNat 32 ks.length).toNat = ks.length := by
      rw [BitVec.toNat_ofNat]; apply Nat.mod_eq_of_lt; omega
    rw [e]
    simp
  | some k =>
    obtain ⟨i, hi, he⟩ := List.mem_iff_getElem.1 (find_some hf)
    have hk := h.2 i hi
    rw [he] at hk
    simp only at hk
    have e : (k.zeroExtend 32).toNat = i := by
      have := k.isLt
      simp [hk]
      omega
    simp only [e]
    rw [List.getElem?_eq_getElem hi, he]
    rfl

/-- The name a call uses. -/
def nameOf : Call → List Bytes
  | .val n _ => [n]
  | _ => []

theorem call_eq (w : Wr) (c : Call) (hw : w.ws.pos ≤ w.ws.data.length) :
    ∃ bs, (call w c).ws = w.ws.write bs ∧ (call w c).keys = (nameOf c).foldl addKey w.keys := by
  cases c with
  | «begin» n c v =>
    exact ⟨_, emits_mark _ w.ws hw, rfl⟩
  | finish => exact ⟨_, emits_mark _ w.ws hw, rfl⟩
  | ref n i =>
    refine ⟨mark (hdrText n refClass 0 i) ++ mark b!"[]", ?_, by simp only [call, ref, nameOf, List.foldl_nil]⟩
    have := ((emits_mark (hdrText n refClass 0 i)).comp (emits_mark b!"[]")) w.ws hw
    simp only at this
    simp only [call, ref, this]
  | val n v =>
    refine ⟨head (keyFor w.keys n) (tag v) ++ payload v, ?_, ?_⟩
    · show (writeVal n v w).ws = _
      rw [writeVal_eq n v w hw]
    · show (writeVal n v w).keys = _
      rw [writeVal_eq n v w hw]
      rfl

theorem calls_eq (w : Wr) (cs : List Call) (hw : w.ws.pos ≤ w.ws.data.length) :
    ∃ bs, (calls w cs).ws = w.ws.write bs ∧ (calls w cs).keys = (cs.flatMap nameOf).foldl addKey w.keys := by
  induction cs generalizing w with
  | nil => exact ⟨[], (Ws.write_nil _ hw).symm, rfl⟩
  | cons c cs ih =>
    obtain ⟨b1, h1, h2⟩ := call_eq w c hw
    obtain ⟨b2, h3, h4⟩ := ih (call w c) (by rw [h1]; exact Ws.write_le _ _ hw)
    refine ⟨b1 ++ b2, ?_, ?_⟩
    · show (calls (call w c) cs).ws = _
      rw [h3, h1, Ws.write_write _ _ _ hw]
    · show (calls (call w c) cs).keys = _
      rw [h4, h2]
      simp [List.flatMap_cons, List.foldl_append]

theorem fold_prefix (ns : List Bytes) (ks : Keys) : ks <+: ns.foldl addKey ks := by
  induction ns generalizing ks with
  | nil => exact List.prefix_refl _
  | cons n ns ih => exact (addKey_prefix ks n).trans (ih _)

theorem fold_ok (ns : List Bytes) (ks : Keys) (h : KeysOk ks) (hl : (ns.foldl addKey ks).length ≤ 65536) :
    KeysOk (ns.foldl addKey ks) := by
  induction ns generalizing ks with
  | nil => exact h
  | cons n ns ih =>
    have := (fold_prefix ns (addKey ks n)).length_le
    exact ih _ (addKey_ok n h (by simp only [List.foldl_cons] at hl; omega)) hl

theorem fold_mem (ns : List Bytes) (ks : Keys) (m : Bytes) :
    m ∈ (ns.foldl addKey ks).map (·.1) ↔ m ∈ ks.map (·.1) ∨ m ∈ ns := by
  induction ns generalizing ks with
  | nil => simp
  | cons n ns ih =>
    rw [List.foldl_cons, ih, addKey_mem]
    simp [or_assoc]

/-! ## The table in the file -/

/-- One row. -/
def rowBytes (p : Bytes × BitVec 16) : Bytes :=
  encW 2 (BitVec.ofNat 16 p.1.length) ++ encW 2 p.2 ++ encW 4 (keyHash p.1) ++ p.1

def tableBytes (ks : Keys) : Bytes := encW 4 (BitVec.ofNat 32 ks.length) ++ (ks.map rowBytes).flatten

theorem sort_ok (ks : Keys) (h : KeysOk ks) : ks.mergeSort (fun a b => a.2.toNat ≤ b.2.toNat) = ks := by
  apply List.mergeSort_of_pairwise
  rw [List.pairwise_iff_getElem]
  intro i j hi hj hij
  rw [h.2 i hi, h.2 j hj]
  simp; omega

theorem emits_table (ks : Keys) (h : KeysOk ks) : Emits (writeTable ks) (tableBytes ks) := by
  intro w hw
  unfold writeTable
  rw [sort_ok ks h]
  have hr : ∀ p : Bytes × BitVec 16, Emits (fun w =>
      (((w.u16 (BitVec.ofNat 16 p.1.length)).u16 p.2).u32 (keyHash p.1)).string p.1) (rowBytes p) := by
    intro p
    exact (((Emits.u16 _).comp (Emits.u16 _)).comp (Emits.u32 _)).comp (Emits.string _)
  have := ((Emits.u32 (BitVec.ofNat 32 ks.length)).comp (Emits.foldl _ _ hr ks)) w hw
  exact this

theorem reads_table (l done : Keys) (hk : ∀ i (h : i < l.length), l[i].2.toNat = done.length + i)
    (hl : ∀ p ∈ l, p.1.length < 65536) :
    Reads (readTable l.length (done.map (fun p => (p.1, keyHash p.1)) ++ List.replicate l.length ([], 0)))
      (l.map rowBytes).flatten ((done ++ l).map (fun p => (p.1, keyHash p.1))) := by
  induction l generalizing done with
  | nil => simp [readTable]; exact Reads.pure _
  | cons p l ih =>
    have hp := hl p List.mem_cons_self
    have h0 : p.2.toNat = done.length := hk 0 (Nat.zero_lt_succ _)
    have e : (BitVec.ofNat 16 p.1.length).toNat = p.1.length := by simp; exact hp
    simp only [List.length_cons, readTable, List.map_cons, List.flatten_cons, rowBytes, List.append_assoc]
    refine Reads.bind (Reads.u16 _) (Reads.bind (Reads.u16 _) (Reads.bind (Reads.u32 _) ?_))
    rw [e]
    refine Reads.bind (Reads.string p.1) ?_
    rw [if_pos (by simp [h0])]
    have hset : (done.map (fun p : Bytes × BitVec 16 => (p.1, keyHash p.1)) ++ List.replicate (l.length + 1) (([] : Bytes), (0 : BitVec 32))).set p.2.toNat
        (p.1, keyHash p.1) = (done ++ [p]).map (fun p => (p.1, keyHash p.1)) ++ List.replicate l.length ([], 0) := by
      rw [h0, List.set_append_right _ _ (by simp)]
      simp [List.replicate_succ]
    rw [hset]
    have := ih (done ++ [p]) (by
      intro i hi
      have h1 : l[i].2.toNat = done.length + (i + 1) := hk (i + 1) (by simp; omega)
      rw [h1]; simp; omega) (fun q hq => hl q (List.mem_cons_of_mem _ hq))
    simpa using this


/-- The header of a BINSAFE archive with its table at `off`. -/
def headBytes (save : Bool) (e : Env) (index : BitVec 32) (off : Nat) : Bytes :=
  linesBytes .binsafe save e ++ encW 4 (2 : BitVec 32) ++ encW 4 index ++ encW 4 (BitVec.ofNat 32 off)

theorem headBytes_length (save : Bool) (e : Env) (index : BitVec 32) (off : Nat) :
    (headBytes save e index off).length = 87 + e.date.length + e.user.length := by
  simp only [headBytes, linesBytes, List.length_append, encW_length]
  cases save <;> simp [Fmt.archiver, Fmt.name] <;> omega

theorem emits_head (save : Bool) (e : Env) (index : BitVec 32) (off : Nat) :
    Emits (fun w => (((writeLines .binsafe save e w).u32 2).u32 index).u32 (BitVec.ofNat 32 off))
      (headBytes save e index off) :=
  (((emits_lines .binsafe save e).comp (Emits.u32 2)).comp (Emits.u32 index)).comp (Emits.u32 _)

theorem keysOk_nil : KeysOk [] := ⟨by simp, fun i h => by simp at h⟩

/-- Opening the archive for writing. -/
theorem writeHeader_first (A B : Bytes) (save : Bool) (e : Env) (index : BitVec 32) :
    ∃ B', writeHeader A.length save e index [] ⟨A ++ B, A.length⟩ =
      ⟨A ++ headBytes save e index A.length ++ B', (A ++ headBytes save e index A.length).length⟩ := by
  unfold writeHeader
  have hs : (⟨A ++ B, A.length⟩ : Ws).seek (A.length : Int) .beg = ⟨A ++ B, A.length⟩ := by
    simp [Ws.seek, Rd.seekTarget]
  simp only [ne_eq, not_true_eq_false, if_false, hs]
  have h1 := emits_head save e index A.length ⟨A ++ B, A.length⟩ (by simp)
  simp only at h1
  rw [h1]
  have h2 : (⟨A ++ B, A.length⟩ : Ws).write (headBytes save e index A.length) =
      ⟨A ++ headBytes save e index A.length ++ B.drop (headBytes save e index A.length).length,
        (A ++ headBytes save e index A.length).length⟩ := by
    simp only [Ws.write, splice_at, List.length_append]
  rw [h2, emits_table [] keysOk_nil _ (by simp)]
  simp only [Ws.write, splice_at, Ws.seek, Rd.seekTarget]
  exact ⟨tableBytes [] ++ List.drop (tableBytes []).length (B.drop (headBytes save e index A.length).length),
    by simp; omega⟩

/-- Writing the header again behind the content. -/
theorem writeHeader_last (A H body B : Bytes) (save : Bool) (e : Env) (index : BitVec 32) (keys : Keys)
    (hk : KeysOk keys) (hH : H ≠ []) (hl : H.length = (headBytes save e index (A ++ H ++ body).length).length) :
    ∃ B', writeHeader A.length save e index keys ⟨A ++ H ++ body ++ B, (A ++ H ++ body).length⟩ =
      ⟨A ++ headBytes save e index (A ++ H ++ body).length ++ body ++ tableBytes keys ++ B', (A ++ H ++ body).length⟩ := by
  have hne : (A ++ H ++ body).length ≠ A.length := by
    have := List.length_pos_iff.2 hH
    simp only [List.length_append]; omega
  unfold writeHeader
  have hs : (⟨A ++ H ++ body ++ B, (A ++ H ++ body).length⟩ : Ws).seek (A.length : Int) .beg =
      ⟨A ++ H ++ body ++ B, A.length⟩ := by
    simp [Ws.seek, Rd.seekTarget]
  simp only [hs]
  rw [if_pos hne, if_pos hne]
  generalize hoff : (A ++ H ++ body).length = off at *
  have h1 := emits_head save e index off ⟨A ++ H ++ body ++ B, A.length⟩ (by simp)
  simp only at h1
  rw [h1]
  generalize headBytes save e index off = H2 at *
  have h2 : (⟨A ++ H ++ body ++ B, A.length⟩ : Ws).write H2 = ⟨A ++ H2 ++ body ++ B, A.length + H2.length⟩ := by
    have e1 : A ++ H ++ body ++ B = A ++ (H ++ (body ++ B)) := by simp
    simp only [Ws.write, e1, splice_at, ← hl, List.drop_left]
    simp [hl]
  rw [h2]
  have hs2 : (⟨A ++ H2 ++ body ++ B, A.length + H2.length⟩ : Ws).seek (off : Int) .beg =
      ⟨A ++ H2 ++ body ++ B, (A ++ H2 ++ body).length⟩ := by
    simp only [Ws.seek, Rd.seekTarget, Int.toNat_natCast, ← hoff, List.length_append, hl]
  rw [hs2, emits_table keys hk _ (by simp)]
  simp only [Ws.write, splice_at, Ws.seek, Rd.seekTarget, Int.toNat_natCast]
  exact ⟨_, rfl⟩

theorem reads_open (A body Z : Bytes) (save : Bool) (e : Env) (index : BitVec 32) (keys : Keys)
    (hk : KeysOk keys) (hkl : keys.length ≤ 65536) (hkn : ∀ p ∈ keys, p.1.length < 65536)
    (hd : NoEol e.date) (hu : NoEol e.user) (off : Nat)
    (hoff : off = (A ++ headBytes save e index off ++ body).length) (h32 : off < 2 ^ 32) :
    openArchive ⟨A ++ headBytes save e index off ++ body ++ tableBytes keys ++ Z, A.length⟩ =
      .ok (⟨⟨1, b!"zCArchiverBinSafe", .binsafe, save, e.date, e.user⟩, index.toNat,
        keys.map (fun p => (p.1, keyHash p.1))⟩,
        ⟨A ++ headBytes save e index off ++ body ++ tableBytes keys ++ Z, (A ++ headBytes save e index off).length⟩) := by
  generalize hdata : A ++ headBytes save e index off ++ body ++ tableBytes keys ++ Z = data
  have hdA : data.drop A.length = linesBytes .binsafe save e ++ (encW 4 (2 : BitVec 32) ++ (encW 4 index ++
      (encW 4 (BitVec.ofNat 32 off) ++ (body ++ (tableBytes keys ++ Z))))) := by
    rw [← hdata]; simp [headBytes]
  have hAl : A.length ≤ data.length := by rw [← hdata]; simp
  have l1 := (reads_lines .binsafe save e hd hu).atPos data A.length _ hAl hdA
    (solid_cons 2 _ (by decide) (by decide))
  have l2 := (Reads.u32 2).atPos data _ _ l1.2.1 l1.2.2
  have l3 := (Reads.u32 index).atPos data _ _ l2.2.1 l2.2.2
  have l4 := (Reads.u32 (BitVec.ofNat 32 off)).atPos data _ _ l3.2.1 l3.2.2
  have e1 : (BitVec.ofNat 32 off).toNat = off := by
    rw [BitVec.toNat_ofNat]; exact Nat.mod_eq_of_lt h32
  have hdo : data.drop off = encW 4 (BitVec.ofNat 32 keys.length) ++ ((keys.map rowBytes).flatten ++ Z) := by
    rw [hoff, ← hdata]
    rw [show A ++ headBytes save e index off ++ body ++ tableBytes keys ++ Z =
      (A ++ headBytes save e index off ++ body) ++ (tableBytes keys ++ Z) by simp, List.drop_left]
    simp [tableBytes]
  have hol : off ≤ data.length := by
    rw [hoff, ← hdata]; simp
  have t1 := (Reads.u32 (BitVec.ofNat 32 keys.length)).atPos data off _ hol hdo
  have e2 : (BitVec.ofNat 32 keys.length).toNat = keys.length := by
    rw [BitVec.toNat_ofNat]; apply Nat.mod_eq_of_lt; omega
  have t2 := (reads_table keys [] (by simpa using hk.2) hkn).atPos data _ _ t1.2.1 t1.2.2
  simp only [List.map_nil, List.nil_append] at t2
  unfold openArchive
  rw [Rd.bind_ok l1.1]
  simp only
  have hh : readHeader ⟨data, A.length + (linesBytes .binsafe save e).length⟩ =
      .ok ((2, index, keys.map (fun p => (p.1, keyHash p.1))),
        ⟨data, (A ++ headBytes save e index off).length⟩) := by
    unfold readHeader
    rw [Rd.bind_ok l2.1, Rd.bind_ok l3.1, Rd.bind_ok l4.1]
    have htell : ∀ p, Rd.tell ⟨data, p⟩ = .ok (p, ⟨data, p⟩) := fun _ => rfl
    rw [Rd.bind_ok (htell _), e1, Rd.bind_ok (Rd.seek_beg hol), Rd.bind_ok t1.1, e2, Rd.bind_ok t2.1,
      Rd.bind_ok (Rd.seek_beg l4.2.1)]
    have : A.length + (linesBytes .binsafe save e).length + (encW 4 (2 : BitVec 32)).length + (encW 4 index).length +
      (encW 4 (BitVec.ofNat 32 off)).length = (A ++ headBytes save e index off).length := by
      simp [headBytes]; omega
    rw [this]
    rfl
  rw [Rd.bind_ok hh]
  rfl

end Verif.Ar.Bs
