import Verif.Props.ArchiveBinsafe
import Verif.Props.ArchiveBinary

/-!
# C13, C59: the key table and the header of archives
-/

namespace Verif.Props

open Verif.Ar

/-- The names used by entries, in the order of use. -/
def entryNames : List Call → List Bytes
  | [] => []
  | .val n _ :: cs => n :: entryNames cs
  | _ :: cs => entryNames cs

theorem entryNames_eq (cs : List Call) : entryNames cs = cs.flatMap Bs.nameOf := by
  induction cs with
  | nil => rfl
  | cons c cs ih => cases c <;> simp [entryNames, Bs.nameOf, ih]

/-- The three steps of writing a BINSAFE archive: opening it (which writes a provisional header), the calls, and the
final `write_header`. -/
def bsFile (w : Ws) (save save' : Bool) (e e' : Env) (cs : List Call) : Ws × Bs.Wr × Ws :=
  let w1 := Bs.writeHeader w.pos save e 0 [] w
  let w2 := Bs.calls ⟨w1, 0, []⟩ cs
  (w1, w2, Bs.writeHeader w.pos save' e' w2.index w2.keys w2.ws)

/-- What `bsFile` leaves in the file. -/
theorem bsFile_eq (w : Ws) (hw : w.pos ≤ w.data.length) (save save' : Bool) (e e' : Env) (cs : List Call)
    (hde : e.date.length + e.user.length = e'.date.length + e'.user.length)
    (w1 : Ws) (w2 : Bs.Wr) (w3 : Ws) (hf : bsFile w save save' e e' cs = (w1, w2, w3))
    (hkeys : w2.keys.length ≤ 65536) :
    ∃ A H B, A.length = w.pos ∧ w1 = ⟨A ++ H ++ B, (A ++ H).length⟩ ∧ w2 = Bs.calls ⟨w1, 0, []⟩ cs ∧
      Bs.KeysOk w2.keys ∧ w2.keys = (entryNames cs).foldl Bs.addKey [] ∧
      ∀ body, w2.ws = w1.write body → ∃ H' Z off, off = (A ++ H' ++ body).length ∧ H'.length = H.length ∧
        H' = Bs.headBytes save' e' w2.index off ∧ w2.ws.pos = off ∧
        w3 = ⟨A ++ H' ++ body ++ Bs.tableBytes w2.keys ++ Z, off⟩ := by
  obtain ⟨A, B0, hA, hAB⟩ : ∃ A B0, A.length = w.pos ∧ w = ⟨A ++ B0, A.length⟩ :=
    ⟨w.data.take w.pos, w.data.drop w.pos, by simp; omega, by
      rw [List.take_append_drop]; simp [Nat.min_eq_left hw]⟩
  subst hAB
  obtain ⟨B, h1⟩ := Bs.writeHeader_first A B0 save e 0
  generalize hH : Bs.headBytes save e 0 A.length = H at h1
  unfold bsFile at hf
  simp only [h1, Prod.mk.injEq] at hf
  obtain ⟨rfl, f2, f3⟩ := hf
  subst f2
  obtain ⟨_, _, h3⟩ := Bs.calls_eq ⟨⟨A ++ H ++ B, (A ++ H).length⟩, 0, []⟩ cs (by simp)
  simp only at h3
  have hk : Bs.KeysOk (Bs.calls ⟨⟨A ++ H ++ B, (A ++ H).length⟩, 0, []⟩ cs).keys := by
    rw [h3] at hkeys ⊢
    exact Bs.fold_ok _ [] Bs.keysOk_nil hkeys
  refine ⟨A, H, B, rfl, rfl, rfl, hk, by rw [h3, entryNames_eq], ?_⟩
  intro body h2
  generalize Bs.calls ⟨⟨A ++ H ++ B, (A ++ H).length⟩, 0, []⟩ cs = w2 at *
  have hl : H.length = (Bs.headBytes save' e' w2.index (A ++ H ++ body).length).length := by
    rw [← hH, Bs.headBytes_length, Bs.headBytes_length]; omega
  have hH0 : H ≠ [] := by
    intro h0
    have := congrArg List.length h0
    rw [← hH, Bs.headBytes_length] at this
    simp at this
  have hws : w2.ws = ⟨A ++ H ++ body ++ B.drop body.length, (A ++ H ++ body).length⟩ := by
    rw [h2]
    simp only [Ws.write, splice_at]
    simp; omega
  obtain ⟨Z, h4⟩ := Bs.writeHeader_last A H body (B.drop body.length) save' e' w2.index w2.keys hk hH0 hl
  rw [← hws] at h4
  generalize hoff : (A ++ H ++ body).length = off at *
  refine ⟨_, Z, off, ?_, hl.symm, rfl, by rw [hws], by rw [← f3]; exact h4⟩
  simp only [List.length_append] at hoff ⊢
  omega

/-- C13: after any history of writes the table of a BINSAFE archive holds each name used by an entry exactly once
and numbers the names in order. Opening the finished archive restores the header, the number of objects and
exactly this table, and stops where the content begins; and in front of each entry the table gives the name under
which the entry was written. `date` and `user` must not contain line breaks and must have the same length when the
archive is opened and when it is finished; there must be no more than 65536 names, none longer than 65535
bytes, and the archive must be smaller than 4 GiB. -/
theorem c13_key_table (w : Ws) (hw : w.pos ≤ w.data.length) (save save' : Bool) (e e' : Env) (cs : List Call)
    (hde : e.date.length + e.user.length = e'.date.length + e'.user.length) (hd : NoEol e'.date) (hu : NoEol e'.user)
    (w1 : Ws) (w2 : Bs.Wr) (w3 : Ws) (hf : bsFile w save save' e e' cs = (w1, w2, w3))
    (hkeys : w2.keys.length ≤ 65536) (hnames : ∀ n ∈ entryNames cs, n.length < 65536) (h32 : w2.ws.pos < 2 ^ 32) :
    (w2.keys.map (·.1)).Nodup ∧ (∀ n, n ∈ w2.keys.map (·.1) ↔ n ∈ entryNames cs) ∧
      (∀ i (h : i < w2.keys.length), w2.keys[i].2.toNat = i) ∧
      openArchive ⟨w3.data, w.pos⟩ =
        .ok (⟨⟨1, b!"zCArchiverBinSafe", .binsafe, save', e'.date, e'.user⟩, w2.index.toNat,
          w2.keys.map (fun p => (p.1, Bs.keyHash p.1))⟩, ⟨w3.data, w1.pos⟩) ∧
      ∀ pre n v suf, cs = pre ++ .val n v :: suf →
        (Bs.entryKey (w2.keys.map (fun p => (p.1, Bs.keyHash p.1)))
          ⟨w3.data, (Bs.calls ⟨w1, 0, []⟩ pre).ws.pos⟩).map (·.1) = .ok n := by
  obtain ⟨A, H, B, hA, e1, hc, hk, hks, hbody⟩ := bsFile_eq w hw save save' e e' cs hde w1 w2 w3 hf hkeys
  have hw1 : w1.pos ≤ w1.data.length := by rw [e1]; simp
  have hmem : ∀ n, n ∈ w2.keys.map (·.1) ↔ n ∈ entryNames cs := by
    intro n
    rw [hks, Bs.fold_mem]
    simp
  refine ⟨hk.1, hmem, hk.2, ?_, ?_⟩
  · obtain ⟨body, hb, _⟩ := Bs.calls_eq ⟨w1, 0, []⟩ cs hw1
    rw [← hc] at hb
    obtain ⟨H', Z, off, hoff, hl, hH', hpos, e3⟩ := hbody body hb
    subst hH'
    have hopen := Bs.reads_open A body Z save' e' w2.index w2.keys hk hkeys
      (fun p hp => hnames _ ((hmem _).1 (List.mem_map.2 ⟨p, hp, rfl⟩))) hd hu off hoff (by rw [← hpos]; exact h32)
    rw [e3, e1, ← hA]
    simp only [hopen, List.length_append, hl]
  · intro pre n v suf hcs
    obtain ⟨b1, p1, p2⟩ := Bs.calls_eq ⟨w1, 0, []⟩ pre hw1
    have hsplit : w2 = Bs.calls (Bs.writeVal n v (Bs.calls ⟨w1, 0, []⟩ pre)) suf := by
      rw [hc, hcs, Bs.calls, List.foldl_append]; rfl
    simp only at p1 p2
    generalize Bs.calls ⟨w1, 0, []⟩ pre = wp at *
    have hle1 : wp.ws.pos ≤ wp.ws.data.length := by rw [p1]; exact Ws.write_le _ _ hw1
    rw [Bs.writeVal_eq n v wp hle1] at hsplit
    have hle2 := Ws.write_le wp.ws (Bs.head (Bs.keyFor wp.keys n) (Bs.tag v) ++ Bs.payload v) hle1
    obtain ⟨b3, q1, q2⟩ := Bs.calls_eq { wp with
      ws := wp.ws.write (Bs.head (Bs.keyFor wp.keys n) (Bs.tag v) ++ Bs.payload v),
      keys := Bs.addKey wp.keys n } suf hle2
    rw [← hsplit] at q1 q2
    simp only at q1 q2
    have hb : w2.ws = w1.write (b1 ++ (Bs.head (Bs.keyFor wp.keys n) (Bs.tag v) ++ Bs.payload v) ++ b3) := by
      rw [q1, p1, Ws.write_write _ _ _ hw1, Ws.write_write _ _ _ hw1]
    obtain ⟨H', Z, off, hoff, hl, hH', hpos, e3⟩ := hbody _ hb
    have hpre : Bs.addKey wp.keys n <+: w2.keys := by rw [q2]; exact Bs.fold_prefix _ _
    have hkp : Bs.KeysOk wp.keys := by
      have hp : wp.keys <+: w2.keys := (Bs.addKey_prefix wp.keys n).trans hpre
      have := hp.length_le
      rw [p2] at this ⊢
      exact Bs.fold_ok _ [] Bs.keysOk_nil (by omega)
    have hget := Bs.keyFor_get n hkp (by have := hpre.length_le; omega)
    have hget2 : (w2.keys[(Bs.keyFor wp.keys n).toNat]?).map (·.1) = some n := by
      obtain ⟨t, ht⟩ := hpre
      rw [← ht]
      cases hx : (Bs.addKey wp.keys n)[(Bs.keyFor wp.keys n).toNat]? with
      | none => rw [hx] at hget; simp at hget
      | some x =>
        have hlt := (List.getElem?_eq_some_iff.1 hx).1
        rw [List.getElem?_append_left hlt]
        exact hget
    have hp2 : wp.ws.pos = (A ++ H' ++ b1).length := by
      rw [p1, e1]; simp [Ws.write, hl]; omega
    obtain ⟨rst, hw3⟩ : ∃ rst, w3.data = (A ++ H' ++ b1) ++ ((encW 1 Bs.tHASH ++ encW 4 (Bs.keyFor wp.keys n)) ++ rst) :=
      ⟨encW 1 (Bs.tag v) ++ Bs.payload v ++ b3 ++ Bs.tableBytes w2.keys ++ Z, by
        rw [e3]; simp [Bs.head]⟩
    rw [hp2]
    have r1 := (Reads.u8 Bs.tHASH).atPos w3.data (A ++ H' ++ b1).length (encW 4 (Bs.keyFor wp.keys n) ++ rst)
      (by rw [hw3, List.length_append (as := A ++ H' ++ b1)]; omega) (by rw [hw3, List.drop_left, List.append_assoc])
    have r2 := (Reads.u32 (Bs.keyFor wp.keys n)).atPos w3.data _ rst r1.2.1 r1.2.2
    unfold Bs.entryKey
    rw [Rd.bind_ok r1.1]
    show Except.map _ ((Rd.u32 >>= fun hash => _) _) = _
    rw [Rd.bind_ok r2.1]
    cases hx : w2.keys[(Bs.keyFor wp.keys n).toNat]? with
    | none => rw [hx] at hget2; simp at hget2
    | some x =>
      rw [hx] at hget2
      simp only [Option.map_some, Option.some.injEq] at hget2
      have : (w2.keys.map (fun p => (p.1, Bs.keyHash p.1)))[(Bs.keyFor wp.keys n).toNat]? =
          some (x.1, Bs.keyHash x.1) := by rw [List.getElem?_map, hx]; rfl
      simp only [this]
      show Except.map _ (Except.ok (x.1, _)) = _
      rw [hget2]; rfl

/-- The number that the characters of a name spell in the base 33; characters above 127 count as negative ones. -/
def spelled (name : Bytes) : Int :=
  name.foldl (fun h c => 33 * h + (if c.toNat < 128 then (c.toNat : Int) else (c.toNat : Int) - 256)) 0

/-- C13: the hash in the table is that number, of which 32 bits are kept, modulo 97. -/
theorem c13_hash (name : Bytes) : ((Bs.keyHash name).toNat : Int) = spelled name % 2 ^ 32 % 97 := by
  have key : ∀ (l : Bytes) (h : BitVec 32) (i : Int), h = BitVec.ofInt 32 i →
      l.foldl (fun h c => h * 0x21 + (BitVec.ofNat 8 c.toNat).signExtend 32) h =
        BitVec.ofInt 32 (l.foldl (fun h c => 33 * h + (if c.toNat < 128 then (c.toNat : Int) else (c.toNat : Int) - 256)) i) := by
    intro l
    induction l with
    | nil => intro h i hi; exact hi
    | cons c l ih =>
      intro h i hi
      simp only [List.foldl_cons]
      refine ih _ _ ?_
      have hc : (BitVec.ofNat 8 c.toNat).signExtend 32 =
          BitVec.ofInt 32 (if c.toNat < 128 then (c.toNat : Int) else (c.toNat : Int) - 256) := by
        have := c.toNat_lt
        rw [BitVec.signExtend, BitVec.toInt_eq_toNat_cond, BitVec.toNat_ofNat, Nat.mod_eq_of_lt this]
        congr 1
        split <;> split <;> omega
      rw [hc, hi, BitVec.ofInt_add, BitVec.ofInt_mul, BitVec.mul_comm]
      rfl
  unfold Bs.keyHash spelled
  rw [key name 0 0 rfl, BitVec.toNat_umod, BitVec.toNat_ofInt]
  generalize (name.foldl _ _ : Int) = x
  rw [show BitVec.toNat (w := 32) 97 = 97 from rfl]
  omega

example : spelled b!"ab" = 33 * 97 + 98 := by decide

/-- C11 and C13 together: a document written to a BINSAFE archive is found again when the finished archive is opened
and its content is read. -/
theorem c13_binsafe_file_round_trip (w : Ws) (hw : w.pos ≤ w.data.length) (save save' : Bool) (e e' : Env) (d : Doc)
    (hn : d.Numbered 0) (hok : Bs.OkDoc d)
    (hde : e.date.length + e.user.length = e'.date.length + e'.user.length) (hd : NoEol e'.date) (hu : NoEol e'.user)
    (w1 : Ws) (w2 : Bs.Wr) (w3 : Ws) (hf : bsFile w save save' e e' d.calls = (w1, w2, w3))
    (hkeys : w2.keys.length ≤ 65536) (hnames : ∀ n ∈ entryNames d.calls, n.length < 65536)
    (h32 : w2.ws.pos < 2 ^ 32) :
    ∃ o s, openArchive ⟨w3.data, w.pos⟩ = .ok (o, s) ∧ o.header.save = save' ∧ o.count = (d.next 0).toNat ∧
      (readShape Bs.reader d.shape s).map (·.1) = .ok d.tree := by
  obtain ⟨_, _, _, hopen, _⟩ := c13_key_table w hw save save' e e' d.calls hde hd hu w1 w2 w3 hf hkeys hnames h32
  refine ⟨_, _, hopen, rfl, ?_, ?_⟩
  · obtain ⟨A, H, B, hA, e1, hc, _⟩ := bsFile_eq w hw save save' e e' d.calls hde w1 w2 w3 hf hkeys
    have hwr := Bs.write_doc d ⟨w1, 0, []⟩ (by rw [e1]; simp) hn []
    rw [List.append_nil, ← hc] at hwr
    rw [hwr]; rfl
  · obtain ⟨A, H, B, hA, e1, hc, hk, _, hbody⟩ := bsFile_eq w hw save save' e e' d.calls hde w1 w2 w3 hf hkeys
    have hwr := Bs.write_doc d ⟨w1, 0, []⟩ (by rw [e1]; simp) hn []
    rw [List.append_nil, ← hc] at hwr
    obtain ⟨H', Z, off, hoff, hl, hH', hpos, e3⟩ := hbody (Bs.enc [] d) (by rw [hwr]; rfl)
    have hp : w1.pos = (A ++ H').length := by rw [e1]; simp [hl]
    obtain ⟨s', e4, _⟩ := (Bs.sim w3.data (Bs.tableBytes w2.keys ++ Z)).readShape d [] ⟨w3.data, w1.pos⟩
      ⟨rfl, by simpa using hok, by
        show w1.pos ≤ w3.data.length
        rw [hp, e3]; simp only [List.length_append]; omega, _, by
        show w3.data.drop w1.pos = _
        rw [hp, e3]
        show List.drop _ (A ++ H' ++ Bs.enc [] d ++ Bs.tableBytes w2.keys ++ Z) = _
        rw [List.append_assoc, List.append_assoc (A ++ H'), List.drop_left], [], rfl⟩
    rw [e4]; rfl

/-- A file with content in front of the archive, and a document with repeated names. -/
def demoBsFile : Ws × Bs.Wr × Ws :=
  bsFile ⟨[7, 7], 2⟩ false true ⟨b!"15.1.2026 12:00:00", b!"Diego"⟩ ⟨b!"15.1.2026 12:00:01", b!"Milte"⟩ demoDocBs.calls

/-- The hypotheses of the two theorems hold for it. -/
example : NoEol b!"15.1.2026 12:00:01" ∧ NoEol b!"Milte" ∧ demoBsFile.2.1.keys.length = 4 ∧
    demoBsFile.2.1.ws.pos < 2 ^ 32 ∧ (entryNames demoDocBs.calls).length = 5 ∧
    (∀ n ∈ entryNames demoDocBs.calls, n.length < 65536) := by
  decide +kernel

/-! ## C59 -/

/-- The three steps of writing a BINARY archive. -/
def binFile (w : Ws) (save save' : Bool) (e e' : Env) (cs : List Call) : Option (Ws × Bin.Wr × Ws) :=
  let w1 := Bin.writeHeader w.pos save e 0 w
  (Bin.calls ⟨w1, 0, []⟩ cs).map fun w2 => (w1, w2, Bin.writeHeader w.pos save' e' w2.index w2.ws)

/-- C59, part: a document that starts with an object is found again when the finished BINARY archive is opened and
read. Missing: documents whose first object has a size with the low byte 10, and archives whose date and user do
not have the same length when the archive is opened and when it is finished. -/
theorem c59_binary_file_partial (w : Ws) (hw : w.pos ≤ w.data.length) (save save' : Bool) (e e' : Env)
    (n c : Bytes) (ver : BitVec 16) (ix : BitVec 32) (ch rest : Doc) (d : Doc) (hobj : d = .obj n c ver ix ch rest)
    (hn : d.Numbered 0) (hok : Bin.OkDoc d)
    (hde : e.date.length + e.user.length = e'.date.length + e'.user.length) (hd : NoEol e'.date) (hu : NoEol e'.user)
    (hidx : (d.next 0).toNat < 10 ^ 9) :
    ∃ w1 w2 w3, binFile w save save' e e' d.calls = some (w1, w2, w3) ∧
      (w2.ws.data[w1.pos]? ≠ some 10 → ∃ o s, openArchive ⟨w3.data, w.pos⟩ = .ok (o, s) ∧
        o = ⟨⟨1, b!"zCArchiverGeneric", .binary, save', e'.date, e'.user⟩, (d.next 0).toNat, []⟩ ∧
        readShape Bin.reader d.shape ⟨s, []⟩ = .ok (d.tree, ⟨⟨w3.data, w2.ws.pos⟩, []⟩)) := by
  have h1 := emits_countHeader .binary 9 10 save e 0 w hw
  have hw1 := Ws.write_le w (linesBytes .binary save e ++ countBytes 9 10 0) hw
  have hwr := Bin.write_doc d ⟨w.write (linesBytes .binary save e ++ countBytes 9 10 0), 0, []⟩ hw1 hn []
  rw [List.append_nil] at hwr
  refine ⟨w.write (linesBytes .binary save e ++ countBytes 9 10 0),
    ⟨w.write ((linesBytes .binary save e ++ countBytes 9 10 0) ++ Bin.enc d), d.next 0, []⟩,
    w.write ((linesBytes .binary save' e' ++ countBytes 9 10 (d.next 0)) ++ Bin.enc d), ?_, ?_⟩
  · unfold binFile
    simp only [Bin.writeHeader]
    rw [h1, hwr]
    simp only [Bin.calls, List.foldlM_nil, Option.pure_def, Option.map_some]
    rw [Ws.write_write _ _ _ hw, rewrite_countHeader _ _ _ _ _ _ _ _ _ (by decide) w hw hde]
  have hl : (linesBytes .binary save' e' ++ countBytes 9 10 (d.next 0)).length =
      (linesBytes .binary save e ++ countBytes 9 10 0).length := by
    have c1 := countField_length 9 10 (by decide) 0
    have c2 := countField_length 9 10 (by decide) (d.next 0)
    simp only [linesBytes, countBytes, List.length_append, c1, c2]
    cases save <;> cases save' <;> simp <;> omega
  have hop := open_count .binary (by decide) 9 10 save' e' (d.next 0) (dec_length_le _ 9 (by decide) hidx) (by omega) hd hu
  generalize linesBytes .binary save e ++ countBytes 9 10 0 = H at *
  generalize linesBytes .binary save' e' ++ countBytes 9 10 (d.next 0) = H' at *
  obtain ⟨A, B, hA, rfl⟩ : ∃ A B, A.length = w.pos ∧ w = ⟨A ++ B, A.length⟩ :=
    ⟨w.data.take w.pos, w.data.drop w.pos, by simp; omega, by
      rw [List.take_append_drop]; simp [Nat.min_eq_left hw]⟩
  simp only [Ws.write, splice_at]
  obtain ⟨t, ht⟩ : ∃ t, Bin.enc d = encW 4 (BitVec.ofNat 32 (4 + (Bin.hdrBytes n c ver ix ++ Bin.enc ch).length)) ++ t :=
    ⟨_, by rw [hobj, Bin.enc, List.append_assoc]⟩
  obtain ⟨x, y, hxy, hy⟩ : ∃ x y, Bin.enc d = x :: y ∧ y ≠ [] := by
    rw [ht]
    generalize BitVec.ofNat 32 _ = v
    have hl4 : (encW 4 v).length = 4 := by simp
    match hm : encW 4 v, hl4 with
    | [a, b, c, d], _ => exact ⟨a, [b, c, d] ++ t, rfl, by simp⟩
  intro hne
  have hx : x ≠ 10 := by
    intro h
    apply hne
    rw [hxy, ← h]
    have e1 : A ++ (H ++ x :: y) ++ List.drop (H ++ x :: y).length B = (A ++ H) ++ x :: (y ++ List.drop (H ++ x :: y).length B) := by
      simp
    rw [e1, ← List.length_append, List.getElem?_append_right (Nat.le_refl _)]
    simp
  generalize hZ : List.drop (H' ++ Bin.enc d).length B = Z
  have hd0 : (A ++ (H' ++ Bin.enc d) ++ Z).drop A.length = H' ++ (Bin.enc d ++ Z) := by simp
  have ho := hop.atPos (A ++ (H' ++ Bin.enc d) ++ Z) A.length (Bin.enc d ++ Z) (by simp) hd0 (by
    rw [hxy]
    refine ⟨?_, ?_⟩
    · intro c rst e
      cases e
      simpa [Fmt.ignored] using hx
    · intro e
      cases y with
      | nil => exact hy rfl
      | cons a b => simp at e)
  refine ⟨_, _, ho.1, rfl, ?_⟩
  obtain ⟨⟨⟨sd, sp⟩, se⟩, e4, r1, _, r3, r4, r5⟩ := (Bin.sim (A ++ (H' ++ Bin.enc d) ++ Z) Z []).readShape d []
    ⟨⟨A ++ (H' ++ Bin.enc d) ++ Z, A.length + H'.length⟩, []⟩ (by
    refine ⟨rfl, ?_, ho.2.1, ?_, by simp [Bin.endsOf]⟩
    · intro x hx
      simp only [List.mem_singleton] at hx
      subst hx
      exact hok
    · show List.drop _ _ = _
      rw [ho.2.2]; simp [Bin.encs])
  rw [e4]
  simp only at r1 r3 r4 r5
  subst r1
  simp only [Bin.endsOf, List.nil_append] at r5
  subst r5
  have : sp = A.length + (H ++ Bin.enc d).length := by
    have h4l := congrArg List.length r4
    simp [Bin.encs, Bin.enc] at h4l r3 ⊢
    omega
  rw [this]

/-- A document whose first object takes `19 + n` bytes. -/
def sized (n : Nat) : Doc :=
  .obj b!"%" b!"zCVob" 1 0 (.val b!"name" (.string (List.replicate n 65)) .nil) .nil

def env1 : Env := ⟨b!"15.1.2026 12:00:00", b!"Diego"⟩

/-- The hypotheses of the theorem hold for this document. -/
example : (sized 5).Numbered 0 ∧ Bin.OkDoc (sized 5) ∧ NoEol env1.date ∧ NoEol env1.user ∧
    ((binFile ⟨[7, 7], 2⟩ false true env1 env1 (sized 5).calls).map
      (fun (w1, w2, _) => w2.ws.data[w1.pos]?)) = some (some 24) := by decide +kernel

/-- Opening the archive and reading the document gives `true`. -/
def binReadsBack (e e' : Env) (d : Doc) : Bool :=
  match binFile ⟨[], 0⟩ false false e e' d.calls with
  | none => false
  | some (_, _, w3) =>
    match openArchive ⟨w3.data, 0⟩ with
    | .error _ => false
    | .ok (_, s) => (readShape Bin.reader d.shape ⟨s, []⟩).map (·.1) == .ok d.tree

example : binReadsBack env1 env1 (sized 5) = true := by decide +kernel

/-- C59 fails: when the first object takes 266 bytes, its first byte is taken for a line break behind the header. -/
theorem c59_first_size_violation : binReadsBack env1 env1 (sized 247) = false := by decide +kernel

/-- C59 fails: when the date grows by a digit between opening and finishing the archive, the final header overwrites
the beginning of the content. -/
theorem c59_longer_date_violation :
    binReadsBack ⟨b!"9.1.2026 23:59:59", b!"Diego"⟩ ⟨b!"10.1.2026 00:00:00", b!"Diego"⟩ (sized 5) = false := by
  decide +kernel

end Verif.Props
