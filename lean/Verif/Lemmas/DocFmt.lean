import Verif.Lemmas.DocReader

/-! # The formats read documents -/

namespace Verif.Ar

/-- Skipping works for all documents on the way. -/
structure SimAll {σ} (r : Reader σ) extends SimSkip r where
  notEnd : ∀ d rest L s, d ≠ .nil → R (d :: rest :: L) s → r.objEnd s = .ok (false, s)
  skipRest : ∀ d rest L s, R (d :: rest :: L) s → ∃ s', r.skipObj true s = .ok ((), s') ∧ R (rest :: L) s'
  skipObj : ∀ n c ver ix ch rest L s, R (.obj n c ver ix ch rest :: L) s → ∃ s', r.skipObj false s = .ok ((), s') ∧ R (rest :: L) s'
  skipRef : ∀ n ix rest L s, R (.ref n ix rest :: L) s → ∃ s', r.skipObj false s = .ok ((), s') ∧ R (rest :: L) s'

/-- As the reader of documents. -/
def SimAll.refines {σ} {r : Reader σ} (M : SimAll r) : Refines r where
  R := M.R
  objBegin L s x L' h hR := by
    cases L with
    | nil => cases h
    | cons d L =>
      cases d with
      | nil => cases h
      | val _ _ _ => cases h
      | obj n c ver ix ch rest => cases h; exact M.obj _ _ _ _ _ _ _ _ hR
      | ref n ix rest => cases h; exact M.ref _ _ _ _ _ hR
  objEnd L s x L' h hR := by
    cases L with
    | nil => cases h
    | cons d L =>
      cases L with
      | nil => cases d <;> cases h
      | cons rest L =>
        by_cases hd : d = .nil
        · subst hd; cases h; exact M.fin _ _ _ hR
        · have : docReader.objEnd (d :: rest :: L) = .ok (false, d :: rest :: L) := by
            cases d <;> first | exact absurd rfl hd | rfl
          rw [this] at h
          cases h
          exact ⟨s, M.notEnd _ _ _ _ hd hR, hR⟩
  val k L s x L' h hR := by
    cases L with
    | nil => cases h
    | cons d L =>
      cases d with
      | nil => cases h
      | obj _ _ _ _ _ _ => cases h
      | ref _ _ _ => cases h
      | val n v rest =>
        simp only [docReader] at h
        split at h
        · rename_i hk
          cases h
          subst hk
          exact M.val _ _ _ _ _ hR
        · cases h
  skipObj b L s x L' h hR := by
    cases b with
    | true =>
      cases L with
      | nil => cases h
      | cons d L =>
        cases L with
        | nil => cases h
        | cons rest L => cases h; exact M.skipRest _ _ _ _ hR
    | false =>
      cases L with
      | nil => cases h
      | cons d L =>
        cases d with
        | nil => cases h
        | val _ _ _ => cases h
        | obj n c ver ix ch rest => cases h; exact M.skipObj _ _ _ _ _ _ _ _ hR
        | ref n ix rest => cases h; exact M.skipRef _ _ _ _ _ hR

/-- A predicate on documents that passes to their parts. -/
structure Hereditary (P : Doc → Prop) : Prop where
  nil : P .nil
  val : ∀ {n v rest}, P (.val n v rest) → P rest
  obj : ∀ {n c ver ix ch rest}, P (.obj n c ver ix ch rest) → P ch ∧ P rest
  ref : ∀ {n ix rest}, P (.ref n ix rest) → P rest

/-- A simulation restricted to some documents. -/
def SimSkip.restrict {σ} {r : Reader σ} (M : SimSkip r) {P : Doc → Prop} (hP : Hereditary P) : SimSkip r where
  R L s := M.R L s ∧ ∀ d ∈ L, P d
  val n v rest L s h := by
    obtain ⟨s', e, h'⟩ := M.val n v rest L s h.1
    refine ⟨s', e, h', ?_⟩
    intro d hd
    rcases List.mem_cons.1 hd with rfl | hd
    · exact hP.val (h.2 _ List.mem_cons_self)
    · exact h.2 d (List.mem_cons_of_mem _ hd)
  obj n c ver ix ch rest L s h := by
    obtain ⟨s', e, h'⟩ := M.obj n c ver ix ch rest L s h.1
    refine ⟨s', e, h', ?_⟩
    intro d hd
    rcases List.mem_cons.1 hd with rfl | hd
    · exact (hP.obj (h.2 _ List.mem_cons_self)).1
    · rcases List.mem_cons.1 hd with rfl | hd
      · exact (hP.obj (h.2 _ List.mem_cons_self)).2
      · exact h.2 d (List.mem_cons_of_mem _ hd)
  ref n ix rest L s h := by
    obtain ⟨s', e, h'⟩ := M.ref n ix rest L s h.1
    refine ⟨s', e, h', ?_⟩
    intro d hd
    rcases List.mem_cons.1 hd with rfl | hd
    · exact hP.nil
    · rcases List.mem_cons.1 hd with rfl | hd
      · exact hP.ref (h.2 _ List.mem_cons_self)
      · exact h.2 d (List.mem_cons_of_mem _ hd)
  fin rest L s h := by
    obtain ⟨s', e, h'⟩ := M.fin rest L s h.1
    exact ⟨s', e, h', fun d hd => h.2 d (List.mem_cons_of_mem _ hd)⟩
  skip rest L s h := by
    obtain ⟨s', e, h'⟩ := M.skip rest L s h.1
    exact ⟨s', e, h', fun d hd => h.2 d (List.mem_cons_of_mem _ hd)⟩

theorem hereditary_all (pv : Bytes → Val → Prop) (po : Bytes → Bytes → BitVec 16 → BitVec 32 → Prop) :
    Hereditary (fun d => d.All pv po) :=
  ⟨trivial, fun h => h.2, fun h => h.2, fun h => h.2⟩

/-! ## BINARY -/

namespace Bin

/-- Values that take up space. -/
def Solid : Val → Prop
  | .raw v => v ≠ []
  | _ => True

instance : (v : Val) → Decidable (Solid v)
  | .raw v => inferInstanceAs (Decidable (v ≠ []))
  | .int _ | .float _ | .byte _ | .word _ | .bool _ | .color _ | .vec3 _ | .vec2 _ | .bbox _ | .mat3 _ | .string _ | .enum _ =>
    isTrue trivial

/-- Documents that can be skipped. -/
def SkipDoc (d : Doc) : Prop := d.All (fun _ v => Solid v) (fun _ _ _ _ => True)

instance (d : Doc) : Decidable (SkipDoc d) := inferInstanceAs (Decidable (d.All _ _))

theorem encVal_pos (v : Val) (h : Solid v) : 0 < (encVal v).length := by
  cases v <;> simp [encVal, Vec3.mem_length, Vec2.mem_length, Mat3.mem_length, Aabb.enc]
  rename_i v
  exact List.length_pos_iff.2 h

theorem enc_pos (d : Doc) (hd : d ≠ .nil) (h : SkipDoc d) : 0 < (enc d).length := by
  cases d with
  | nil => exact absurd rfl hd
  | val n v rest =>
    have := encVal_pos v h.1
    simp only [enc, List.length_append]
    omega
  | obj _ _ _ _ _ _ => simp only [enc, List.length_append, encW_length]; omega
  | ref _ _ _ => simp only [enc, List.length_append, encW_length]; omega

theorem skipNext_ok (body : Bytes) (h : 4 + body.length < 2 ^ 32) (data : Bytes) (pos : Nat) (rest : Bytes) (hp : pos ≤ data.length)
    (hd : data.drop pos = encW 4 (BitVec.ofNat 32 (4 + body.length)) ++ (body ++ rest)) :
    skipNext ⟨data, pos⟩ = .ok ((), ⟨data, pos + (4 + body.length)⟩) ∧ pos + (4 + body.length) ≤ data.length ∧
      data.drop (pos + (4 + body.length)) = rest := by
  obtain ⟨a1, a2, a3⟩ := (Reads.u32 (BitVec.ofNat 32 (4 + body.length))).atPos data pos _ hp hd
  simp only [encW_length] at a1 a2 a3
  have hlen := congrArg List.length a3
  simp only [List.length_append, List.length_drop] at hlen
  have hsz : (BitVec.ofNat 32 (4 + body.length)).toNat = 4 + body.length := by
    rw [BitVec.toNat_ofNat]; exact Nat.mod_eq_of_lt h
  have hs4 : (BitVec.ofNat 32 (4 + body.length) - 4).toNat = body.length := by
    rw [BitVec.toNat_sub, hsz]
    have : (4 : BitVec 32).toNat = 4 := rfl
    omega
  refine ⟨?_, by omega, by rw [← Nat.add_assoc, ← List.drop_drop, a3]; simp⟩
  unfold skipNext
  rw [Rd.bind_ok a1, hs4]
  have hno : ¬ (((pos + 4 : Nat) : Int) + (body.length : Int) < 0 ∨ ((pos + 4 : Nat) : Int) + (body.length : Int) > data.length) := by
    omega
  have : Rd.seek (body.length : Int) .cur ⟨data, pos + 4⟩ =
      .ok ((), ⟨data, (((pos + 4 : Nat) : Int) + (body.length : Int)).toNat⟩) := if_neg hno
  rw [this]
  congr 3
  omega

theorem skip_obj (data post : Bytes) (tail : List Nat) (n c : Bytes) (ver : BitVec 16) (ix : BitVec 32) (ch rest : Doc) (L : List Doc)
    (s : Rr) (h : R data post tail (.obj n c ver ix ch rest :: L) s) :
    ∃ s', reader.skipObj false s = .ok ((), s') ∧ R data post tail (rest :: L) s' := by
  obtain ⟨⟨dt, pos⟩, ends⟩ := s
  obtain ⟨rfl, hok, hp, hd, he⟩ := h
  obtain ⟨h1, h2, h3, h4, h5⟩ := okDoc_obj (hok _ List.mem_cons_self)
  simp only [encs, List.map_cons, List.flatten_cons, enc] at hp hd he
  obtain ⟨a1, a2, a3⟩ := skipNext_ok _ h5 dt pos (enc rest ++ (encs L ++ post)) hp (by rw [hd]; simp [encs])
  refine ⟨⟨⟨dt, pos + (4 + (hdrBytes n c ver ix ++ enc ch).length)⟩, ends⟩, ?_, rfl, ?_, a2, ?_, ?_⟩
  · show lift skipNext _ = _
    simp only [lift, a1]
  · intro x hx
    rcases List.mem_cons.1 hx with rfl | hx
    · exact h4
    · exact hok x (List.mem_cons_of_mem _ hx)
  · show dt.drop _ = _
    rw [a3]; simp [encs]
  · show ends = _
    rw [he]
    cases L with
    | nil => rfl
    | cons e L => simp only [endsOf, enc, List.length_append, encW_length, Nat.add_assoc]

theorem R_ref {data post : Bytes} {tail : List Nat} {n : Bytes} {ix : BitVec 32} {rest : Doc} {L : List Doc} {s : Rr}
    (h : R data post tail (.ref n ix rest :: L) s) : R data post tail (.obj n refClass 0 ix .nil rest :: L) s := by
  have henc : enc (.obj n refClass 0 ix .nil rest) = enc (.ref n ix rest) := by simp [enc]
  obtain ⟨h1, h2, h3, h4, h5⟩ := h
  refine ⟨h1, ?_, h3, ?_, ?_⟩
  · intro d hd
    rcases List.mem_cons.1 hd with rfl | hd
    · obtain ⟨⟨a, b⟩, c⟩ := h2 _ List.mem_cons_self
      exact ⟨⟨a, trivial, b⟩, by rw [henc]; exact c⟩
    · exact h2 d (List.mem_cons_of_mem _ hd)
  · rw [h4]; simp only [encs, List.map_cons, henc]
  · rw [h5]
    cases L with
    | nil => rfl
    | cons e L => simp only [endsOf, henc]

def simAll (data post : Bytes) (tail : List Nat) : SimAll reader where
  toSimSkip := (simSkip data post tail).restrict (P := SkipDoc) (hereditary_all _ _)
  notEnd := by
    rintro d rest L ⟨⟨dt, pos⟩, ends⟩ hne ⟨⟨rfl, hok, hp, hd, he⟩, hs⟩
    simp only [endsOf, List.cons_append] at he hp hd
    have hpos := enc_pos d hne (hs d List.mem_cons_self)
    have hlen := congrArg List.length hd
    simp only [encs, List.map_cons, List.flatten_cons, List.length_append, List.length_drop] at hlen
    show readObjEnd _ = _
    unfold readObjEnd
    rw [he]
    dsimp only
    rw [if_neg (by omega)]
    simp only [Except.ok.injEq, Prod.mk.injEq, decide_eq_false_iff_not, and_true]
    omega
  skipRest := by
    rintro d rest L ⟨⟨dt, pos⟩, ends⟩ ⟨⟨rfl, hok, hp, hd, he⟩, hs⟩
    simp only [endsOf, List.cons_append] at he hp hd
    have hlen := congrArg List.length hd
    simp only [encs, List.map_cons, List.flatten_cons, List.length_append, List.length_drop] at hlen
    refine ⟨⟨⟨dt, pos + (enc d).length⟩, endsOf (pos + (enc d).length) (rest :: L) ++ tail⟩, ?_, ⟨rfl, ?_, ?_, ?_, rfl⟩, ?_⟩
    · show skipCurrent _ = _
      simp only [skipCurrent, he, lift]
      have : Rd.seek ((pos + (enc d).length : Nat) : Int) .beg ⟨dt, pos⟩ = .ok ((), ⟨dt, pos + (enc d).length⟩) :=
        Rd.seek_beg (by omega)
      rw [this]
    · intro x hx
      exact hok x (List.mem_cons_of_mem _ hx)
    · show pos + (enc d).length ≤ dt.length
      omega
    · show dt.drop (pos + (enc d).length) = _
      rw [← List.drop_drop, hd]
      simp [encs]
    · intro x hx
      exact hs x (List.mem_cons_of_mem _ hx)
  skipObj := by
    rintro n c ver ix ch rest L s ⟨h, hs⟩
    obtain ⟨s', e, h'⟩ := skip_obj data post tail n c ver ix ch rest L s h
    refine ⟨s', e, h', ?_⟩
    intro x hx
    rcases List.mem_cons.1 hx with rfl | hx
    · exact (hs _ List.mem_cons_self).2.2
    · exact hs x (List.mem_cons_of_mem _ hx)
  skipRef := by
    rintro n ix rest L s ⟨h, hs⟩
    obtain ⟨s', e, h'⟩ := skip_obj data post tail _ _ _ _ _ rest L s (R_ref h)
    refine ⟨s', e, h', ?_⟩
    intro x hx
    rcases List.mem_cons.1 hx with rfl | hx
    · exact (hs _ List.mem_cons_self).2
    · exact hs x (List.mem_cons_of_mem _ hx)

end Bin

/-! ## BINSAFE -/

namespace Bs

theorem hereditary_skip : Hereditary SkipDoc := hereditary_all _ _

theorem skip_any (data post : Bytes) (d rest : Doc) (L : List Doc) (s : Rs) (hs : SkipDoc d) (h : R data post (d :: rest :: L) s) :
    ∃ s', reader.skipObj true s = .ok ((), s') ∧ R data post (rest :: L) s' := by
  obtain ⟨dt, pos⟩ := s
  obtain ⟨rfl, hok, hp, bs, hd, ks, b, rfl, hb⟩ := h
  simp only [List.append_assoc] at hd hp
  have h := skip_rest d hs ks dt pos _ hp hd
  refine ⟨_, h, rfl, fun x hx => hok x (List.mem_cons_of_mem _ hx), ?_, b, ?_, hb⟩
  · have := congrArg List.length hd
    simp at this ⊢
    omega
  · show dt.drop (pos + _) = _
    rw [← List.drop_drop, hd, ← List.append_assoc, List.drop_left]

theorem notEnd_hash (k : BitVec 32) (t : BitVec 8) (rest : Bytes) (data : Bytes) (pos : Nat) (hp : pos ≤ data.length)
    (hd : data.drop pos = head k t ++ rest) : readObjEnd ⟨data, pos⟩ = .ok (false, ⟨data, pos⟩) := by
  have hlen := congrArg List.length hd
  simp only [head, List.length_append, encW_length, List.length_drop] at hlen
  have hd' : data.drop pos = encW 1 tHASH ++ (encW 4 k ++ encW 1 t ++ rest) := by rw [hd]; simp [head]
  obtain ⟨a1, _, _⟩ := (Reads.u8 tHASH).atPos data pos _ hp hd'
  have heof : Rd.eof ⟨data, pos⟩ = .ok (false, ⟨data, pos⟩) := by simp [Rd.eof]; omega
  unfold readObjEnd
  rw [Rd.bind_ok heof]
  simp only [Bool.false_eq_true, if_false]
  rw [Rd.bind_ok (p := Rd.tell) (show Rd.tell ⟨data, pos⟩ = .ok (pos, ⟨data, pos⟩) from rfl), Rd.bind_ok a1]
  rw [if_pos (by decide), Rd.bind_ok (Rd.seek_beg hp)]
  rfl

theorem notEnd_mark (t : Bytes) (ht : t.length < 65536) (hne : t.length ≠ 2) (rest : Bytes) (data : Bytes) (pos : Nat)
    (hp : pos ≤ data.length) (hd : data.drop pos = mark t ++ rest) : readObjEnd ⟨data, pos⟩ = .ok (false, ⟨data, pos⟩) := by
  have hlen := congrArg List.length hd
  simp only [mark, List.length_append, encW_length, List.length_drop] at hlen
  have hd' : data.drop pos = encW 1 tSTRING ++ (encW 2 (BitVec.ofNat 16 t.length) ++ (t ++ rest)) := by rw [hd]; simp [mark]
  obtain ⟨a1, a2, a3⟩ := (Reads.u8 tSTRING).atPos data pos _ hp hd'
  obtain ⟨b1, _, _⟩ := (Reads.u16 (BitVec.ofNat 16 t.length)).atPos data _ _ a2 a3
  have heof : Rd.eof ⟨data, pos⟩ = .ok (false, ⟨data, pos⟩) := by simp [Rd.eof]; omega
  unfold readObjEnd
  rw [Rd.bind_ok heof]
  simp only [Bool.false_eq_true, if_false]
  rw [Rd.bind_ok (p := Rd.tell) (show Rd.tell ⟨data, pos⟩ = .ok (pos, ⟨data, pos⟩) from rfl), Rd.bind_ok a1]
  rw [if_neg (by decide), Rd.bind_ok b1, if_pos, Rd.bind_ok (Rd.seek_beg hp)]
  · rfl
  · simp only [bne_iff_ne, ne_eq]
    intro e
    have := congrArg BitVec.toNat e
    simp at this
    omega

theorem hdrText_ne (n c : Bytes) (ver : BitVec 16) (ix : BitVec 32) : (hdrText n c ver ix).length ≠ 2 := by
  simp only [hdrText, List.length_append, List.length_cons, List.length_nil]
  omega

theorem skip_obj (data post : Bytes) (n c : Bytes) (ver : BitVec 16) (ix : BitVec 32) (ch rest : Doc) (L : List Doc)
    (s : Rs) (hs : SkipDoc ch) (h : R data post (.obj n c ver ix ch rest :: L) s) :
    ∃ s', reader.skipObj false s = .ok ((), s') ∧ R data post (rest :: L) s' := by
  obtain ⟨dt, pos⟩ := s
  obtain ⟨rfl, hok, hp, bs, hd, hl⟩ := h
  obtain ⟨ks, r, rfl, hr⟩ := levels_cons hl
  obtain ⟨hv, hch, hrest⟩ := hok _ List.mem_cons_self
  have hce : c.isEmpty = false := by simpa using hv.2.1
  simp only [enc, List.append_assoc, hce, Bool.false_eq_true, if_false] at hd hp
  have h := skip_object n c ver ix ch hv.1 hv.2 hs ks dt pos _ hp hd
  refine ⟨_, h, rfl, ?_, ?_, enc (keysAfter ks ch) rest ++ r, ?_, hr _ _⟩
  · intro x hx
    rcases List.mem_cons.1 hx with rfl | hx
    · exact hrest
    · exact hok x (List.mem_cons_of_mem _ hx)
  · have := congrArg List.length hd
    simp at this ⊢
    omega
  · show dt.drop (pos + _) = _
    rw [← List.drop_drop, hd]
    have : mark (hdrText n c ver ix) ++ (enc ks ch ++ (mark [91, 93] ++ (enc (keysAfter ks ch) rest ++ (r ++ post)))) =
        (mark (hdrText n c ver ix) ++ enc ks ch ++ mark [91, 93]) ++ (enc (keysAfter ks ch) rest ++ r ++ post) := by simp
    rw [this, List.drop_left]

theorem R_ref {data post : Bytes} {n : Bytes} {ix : BitVec 32} {rest : Doc} {L : List Doc} {s : Rs}
    (h : R data post (.ref n ix rest :: L) s) : R data post (.obj n refClass 0 ix .nil rest :: L) s := by
  obtain ⟨h1, h2, h3, bs, h4, h5⟩ := h
  obtain ⟨ks, r, rfl, hr⟩ := levels_cons h5
  have henc : enc ks (.obj n refClass 0 ix .nil rest) = enc ks (.ref n ix rest) := by
    have : refClass.isEmpty = false := rfl
    simp [enc, this, keysAfter]
  refine ⟨h1, ?_, h3, _, h4, by rw [← henc]; exact hr _ _⟩
  intro d hd
  rcases List.mem_cons.1 hd with rfl | hd
  · obtain ⟨a, b⟩ := h2 _ List.mem_cons_self
    exact ⟨a, trivial, b⟩
  · exact h2 d (List.mem_cons_of_mem _ hd)

def simAll (data post : Bytes) : SimAll reader where
  toSimSkip := (simSkip data post).restrict (P := SkipDoc) hereditary_skip
  notEnd := by
    rintro d rest L ⟨dt, pos⟩ hne ⟨⟨rfl, hok, hp, bs, hd, ks, b, rfl, hb⟩, hs⟩
    simp only [List.append_assoc] at hd hp
    cases d with
    | nil => exact absurd rfl hne
    | val n v rest =>
      simp only [enc, List.append_assoc] at hd
      exact notEnd_hash _ _ _ dt pos hp hd
    | obj n c ver ix ch rest =>
      obtain ⟨⟨hn, hc⟩, _⟩ := hok _ List.mem_cons_self
      have hce : c.isEmpty = false := by simpa using hc.1
      simp only [enc, List.append_assoc, hce, Bool.false_eq_true, if_false] at hd
      exact notEnd_mark _ (hdrText_length n c ver ix hn hc) (hdrText_ne _ _ _ _) _ dt pos hp hd
    | ref n ix rest =>
      obtain ⟨⟨hn, hc⟩, _⟩ := hok _ List.mem_cons_self
      simp only [enc, List.append_assoc] at hd
      exact notEnd_mark _ (hdrText_length n refClass 0 ix hn hc) (hdrText_ne _ _ _ _) _ dt pos hp hd
  skipRest := by
    rintro d rest L s ⟨h, hs⟩
    obtain ⟨s', e, h'⟩ := skip_any data post d rest L s (hs d List.mem_cons_self) h
    exact ⟨s', e, h', fun x hx => hs x (List.mem_cons_of_mem _ hx)⟩
  skipObj := by
    rintro n c ver ix ch rest L s ⟨h, hs⟩
    have hd := hs _ List.mem_cons_self
    obtain ⟨s', e, h'⟩ := skip_obj data post n c ver ix ch rest L s hd.2.1 h
    refine ⟨s', e, h', ?_⟩
    intro x hx
    rcases List.mem_cons.1 hx with rfl | hx
    · exact hd.2.2
    · exact hs x (List.mem_cons_of_mem _ hx)
  skipRef := by
    rintro n ix rest L s ⟨h, hs⟩
    obtain ⟨s', e, h'⟩ := skip_obj data post _ _ _ _ .nil rest L s trivial (R_ref h)
    refine ⟨s', e, h', ?_⟩
    intro x hx
    rcases List.mem_cons.1 hx with rfl | hx
    · exact (hs _ List.mem_cons_self).2
    · exact hs x (List.mem_cons_of_mem _ hx)

end Bs

/-! ## ASCII -/

namespace Asc

theorem hereditary_skip : Hereditary SkipDoc :=
  ⟨⟨trivial, trivial⟩, fun h => ⟨h.1.2, h.2.2⟩, fun h => ⟨⟨h.1.2.1, h.2.2.1⟩, ⟨h.1.2.2, h.2.2.2⟩⟩, fun h => ⟨h.1.2, h.2.2⟩⟩

theorem notEnd_line (l ws : Bytes) (hl : NoEol l) (hne : l.dropWhile isSpace ≠ b!"[]") (hws : ∀ c ∈ ws, c ∈ Rd.lineSpaces)
    (data : Bytes) (pos : Nat) (rest : Bytes) (hp : pos ≤ data.length) (hd : data.drop pos = (l ++ 10 :: ws) ++ rest)
    (hrest : Solid rest) : readObjEnd ⟨data, pos⟩ = .ok (false, ⟨data, pos⟩) := by
  obtain ⟨a1, _, _⟩ := (ReadsIf.line l ws hl hws).atPos data pos rest hp hd hrest
  have hlen := congrArg List.length hd
  simp only [List.length_append, List.length_cons, List.length_drop] at hlen
  have heof : Rd.eof ⟨data, pos⟩ = .ok (false, ⟨data, pos⟩) := by simp [Rd.eof]; omega
  unfold readObjEnd
  rw [Rd.bind_ok heof]
  simp only [Bool.false_eq_true, if_false]
  rw [Rd.bind_ok (p := Rd.tell) (show Rd.tell ⟨data, pos⟩ = .ok (pos, ⟨data, pos⟩) from rfl), Rd.bind_ok a1, if_pos (by simpa using hne),
    Rd.bind_ok (seek_beg data pos _ hp)]
  rfl

theorem hdrLine_ne (n c : Bytes) (ver : BitVec 16) (ix : BitVec 32) : (hdrLine n c ver ix).dropWhile isSpace ≠ b!"[]" := by
  have : (hdrLine n c ver ix).dropWhile isSpace = hdrLine n c ver ix := dropWhile_false _ _ (by intro a ha; simp [hdrLine] at ha; subst ha; decide)
  rw [this]
  intro e
  have := congrArg List.length e
  simp [hdrLine] at this
  omega

theorem notEnd_first (junk data post : Bytes) (hpost : Solid post) (l : Bytes) (L L' : List Doc) (s : Rs) (hl : NoEol l)
    (hne : l.dropWhile isSpace ≠ b!"[]") (hL : pending junk L = l :: pending junk L') (hok : ∀ d ∈ L', OkDoc d)
    (h : R junk data post L s) : readObjEnd s = .ok (false, s) := by
  obtain ⟨sd, pos⟩ := s
  obtain ⟨rfl, _, h2, h3⟩ := h
  simp only at h2 h3
  rw [hL] at h3
  obtain ⟨ws, b', hws, hb, hr⟩ := h3
  exact notEnd_line l ws hl hne hws sd pos b' h2 hb (body_solid post hpost _ (pending_ok junk L' hok) b' hr)

theorem R_ref {junk data post : Bytes} {n : Bytes} {ix : BitVec 32} {rest : Doc} {L : List Doc} {s : Rs}
    (h : R junk data post (.ref n ix rest :: L) s) : R junk data post (.obj n refClass 0 ix .nil rest :: L) s := by
  have hlines : lines junk 0 (.obj n refClass 0 ix .nil rest) = lines junk 0 (.ref n ix rest) := rfl
  obtain ⟨h1, h2, h3, h4⟩ := h
  refine ⟨h1, ?_, h3, ?_⟩
  · intro d hd
    rcases List.mem_cons.1 hd with rfl | hd
    · obtain ⟨a, b⟩ := h2 _ List.mem_cons_self
      exact ⟨a, trivial, b⟩
    · exact h2 d (List.mem_cons_of_mem _ hd)
  · cases L with
    | nil => simpa only [pending, hlines] using h4
    | cons e L => simpa only [pending, hlines] using h4

def simAll (junk data post : Bytes) (hpost : Solid post) : SimAll reader where
  toSimSkip := (simSkip junk data post hpost).restrict (P := SkipDoc) hereditary_skip
  notEnd := by
    rintro d rest L s hne ⟨h, hs⟩
    have hok := h.2.1
    cases d with
    | nil => exact absurd rfl hne
    | val n v tl =>
      obtain ⟨⟨⟨⟨k1, k2, k3, k4⟩, hv⟩, hr⟩, hh, hr2⟩ := hs _ List.mem_cons_self
      obtain ⟨c, r, hc⟩ : ∃ c r, n = c :: r := by
        cases n with
        | nil => exact absurd rfl k1
        | cons c r => exact ⟨c, r, rfl⟩
      refine notEnd_first junk data post hpost (entryLine n (valText junk v).1 (valText junk v).2) (.val n v tl :: rest :: L)
        (tl :: rest :: L) s ?_ ?_ (pending_cons _ _ _ _ _ rfl) ?_ h
      · have hrv := reads_val junk n v hv [] k2 k3 (by simp)
        exact noEol_append k2 (noEol_cons (by decide) (noEol_append hrv.2.1 (noEol_cons (by decide) hrv.2.2)))
      · have hsp := k4 c (by rw [hc]; rfl)
        rw [mem_lineSpaces] at hsp
        have : (entryLine n (valText junk v).1 (valText junk v).2).dropWhile isSpace = entryLine n (valText junk v).1 (valText junk v).2 :=
          dropWhile_false _ _ (by intro a ha; rw [hc] at ha; simp [entryLine] at ha; subst ha; simpa using hsp)
        rw [this, hc]
        intro e
        simp only [entryLine, List.cons_append, List.cons.injEq] at e
        exact hh (by rw [hc, e.1]; rfl)
      · intro d hd
        rcases List.mem_cons.1 hd with rfl | hd
        · exact hr
        · exact hok d (List.mem_cons_of_mem _ hd)
    | obj n c ver ix ch tl =>
      obtain ⟨⟨hn, hc⟩, hch', hr⟩ := hok _ List.mem_cons_self
      have hpend : pending junk (.obj n c ver ix ch tl :: rest :: L) = hdrLine n c ver ix :: pending junk (ch :: tl :: rest :: L) :=
        pending_open _ _ _ _ _ _ (by
          simp only [lines, List.map_cons, List.map_append, emptyClass_null c hc.1, lines_snd junk (0 + 1) 0 ch])
      refine notEnd_first junk data post hpost _ _ _ s (noEol_hdrLine n c ver ix hn hc) (hdrLine_ne _ _ _ _) hpend ?_ h
      intro d hd
      rcases List.mem_cons.1 hd with rfl | hd
      · exact hch'
      · rcases List.mem_cons.1 hd with rfl | hd
        · exact hr
        · exact hok d (List.mem_cons_of_mem _ hd)
    | ref n ix tl =>
      obtain ⟨⟨hn, hc⟩, hr⟩ := hok _ List.mem_cons_self
      have hpend : pending junk (.ref n ix tl :: rest :: L) = hdrLine n refClass 0 ix :: pending junk (.nil :: tl :: rest :: L) :=
        pending_open _ _ _ _ _ _ rfl
      refine notEnd_first junk data post hpost _ _ _ s (noEol_hdrLine n refClass 0 ix hn hc) (hdrLine_ne _ _ _ _) hpend ?_ h
      intro d hd
      rcases List.mem_cons.1 hd with rfl | hd
      · trivial
      · rcases List.mem_cons.1 hd with rfl | hd
        · exact hr
        · exact hok d (List.mem_cons_of_mem _ hd)
  skipRest := by
    rintro d rest L s ⟨h, hs⟩
    obtain ⟨s', e, h'⟩ := skip_rest junk data post hpost d rest L (hs d List.mem_cons_self) s h
    exact ⟨s', e, h', fun x hx => hs x (List.mem_cons_of_mem _ hx)⟩
  skipObj := by
    rintro n c ver ix ch rest L s ⟨h, hs⟩
    have hd := hereditary_skip.obj (hs _ List.mem_cons_self)
    obtain ⟨s', e, h'⟩ := skip_whole junk data post hpost n c ver ix ch rest L hd.1 s h
    refine ⟨s', e, h', ?_⟩
    intro x hx
    rcases List.mem_cons.1 hx with rfl | hx
    · exact hd.2
    · exact hs x (List.mem_cons_of_mem _ hx)
  skipRef := by
    rintro n ix rest L s ⟨h, hs⟩
    obtain ⟨s', e, h'⟩ := skip_whole junk data post hpost _ _ _ _ .nil rest L hereditary_skip.nil s (R_ref h)
    refine ⟨s', e, h', ?_⟩
    intro x hx
    rcases List.mem_cons.1 hx with rfl | hx
    · exact hereditary_skip.ref (hs _ List.mem_cons_self)
    · exact hs x (List.mem_cons_of_mem _ hx)

end Asc

end Verif.Ar
