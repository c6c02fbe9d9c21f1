import Verif.Lemmas.ArchiveBinsafeSkip
import Verif.Lemmas.ArchiveHeader

/-!
# C11 - C14: BINSAFE archives
-/

namespace Verif.Props

open Verif.Ar

/-! ## C11 -/

/-- C11: whatever is written to a BINSAFE archive is read back by the same sequence of calls, and the reader ends
up where the writer stopped. Strings and blobs must be shorter than 65536 bytes; names of objects and classes must
not be empty, at most 127 bytes long, and free of NUL, space and `]`. Names of entries are arbitrary. -/
theorem c11_binsafe_round_trip (d : Doc) (w : Bs.Wr) (hw : w.ws.pos ≤ w.ws.data.length) (hn : d.Numbered w.index)
    (hok : d.All (fun _ v => (∀ s, v = .string s → s.length < 65536) ∧ (∀ s, v = .raw s → s.length < 65536))
      (fun n c _ _ => (∀ x, x = n ∨ x = c → x ≠ [] ∧ x.length ≤ 127 ∧ ∀ b ∈ x, b ≠ 0 ∧ b ≠ 32 ∧ b ≠ 93)))
    (post : Bytes) :
    (Bs.calls w d.calls).index = d.next w.index ∧
      readShape Bs.reader d.shape ⟨(Bs.calls w d.calls).ws.data ++ post, w.ws.pos⟩ =
        .ok (d.tree, ⟨(Bs.calls w d.calls).ws.data ++ post, (Bs.calls w d.calls).ws.pos⟩) := by
  have hall : Bs.OkDoc d := by
    clear hn
    induction d with
    | nil => trivial
    | val n v rest ih =>
      refine ⟨?_, ih hok.2⟩
      have := hok.1
      cases v with
      | string s => exact this.1 s rfl
      | raw s => exact this.2 s rfl
      | _ => trivial
    | obj n c ver ix ch rest ihc ihr =>
      exact ⟨⟨hok.1 n (.inl rfl), hok.1 c (.inr rfl)⟩, ihc hok.2.1, ihr hok.2.2⟩
    | ref n ix rest ih => exact ⟨⟨hok.1 n (.inl rfl), hok.1 _ (.inr rfl)⟩, ih hok.2⟩
  have hwr := Bs.write_doc d w hw hn []
  rw [List.append_nil] at hwr
  have hwr' : Bs.calls w d.calls = ⟨w.ws.write (Bs.enc w.keys d), d.next w.index, Bs.keysAfter w.keys d⟩ := hwr
  rw [hwr']
  refine ⟨rfl, ?_⟩
  simp only
  have hdrop := Ws.write_drop w.ws (Bs.enc w.keys d) post hw
  have hle : w.ws.pos ≤ ((w.ws.write (Bs.enc w.keys d)).data ++ post).length := by
    have := Ws.write_le w.ws (Bs.enc w.keys d) hw
    simp only [Ws.write, List.length_append] at this ⊢; omega
  generalize (w.ws.write (Bs.enc w.keys d)).data ++ post = data at *
  obtain ⟨⟨sd, sp⟩, e, h1, _, h3, bs, h4, ks, rfl⟩ := (Bs.sim data _).readShape d [] ⟨data, w.ws.pos⟩
    ⟨rfl, by simpa using hall, hle, _, hdrop, w.keys, rfl⟩
  simp only at h1 h3
  subst h1
  rw [e]
  have hl1 := congrArg List.length hdrop
  have hl2 := congrArg List.length h4
  simp [Bs.enc] at hl1 hl2
  have : sp = (w.ws.write (Bs.enc w.keys d)).pos := by simp only [Ws.write]; omega
  rw [this]

/-- A document with nested, null and shared objects, repeated names and a string that looks like the end of
an object. -/
def demoDocBs : Doc :=
  .obj b!"%" b!"oCWorld:zCWorld" 64513 0
    (.val b!"name" (.string b!"[]") (.val b!"mode" (.enum 70000)
      (.obj b!"child" b!"zCVob" 1 1 (.val b!"mode" (.mat3 ⟨⟨1, 2, 3⟩, ⟨4, 5, 6⟩, ⟨7, 8, 9⟩⟩)
          (.val b!"blob" (.raw [1, 0, 10]) .nil))
        (.ref b!"again" 1 (.obj b!"none" b!"%" 0 0 .nil (.val b!"" (.vec2 ⟨1, 2⟩) .nil))))))
    .nil

example : demoDocBs.Numbered 0 ∧ Bs.OkDoc demoDocBs := by decide +kernel
example : (readShape Bs.reader demoDocBs.shape ⟨(Bs.calls ⟨⟨[], 0⟩, 0, []⟩ demoDocBs.calls).ws.data, 0⟩).map (·.1) =
    .ok demoDocBs.tree := by decide +kernel

/-- C11, what happens beyond the limit: a string reads back cut to its length modulo 65536. -/
theorem c11_long_string_truncated (n s : Bytes) (w : Bs.Wr) (post : Bytes) (hw : w.ws.pos ≤ w.ws.data.length) :
    (Bs.reader.val .string ⟨(Bs.call w (.val n (.string s))).ws.data ++ post, w.ws.pos⟩).map (·.1) =
      .ok (.string (s.take (s.length % 65536))) := by
  generalize hs1 : s.take (s.length % 65536) = s1
  generalize hs2 : s.drop (s.length % 65536) = s2
  have hs : s = s1 ++ s2 := by rw [← hs1, ← hs2, List.take_append_drop]
  have hl1 : s1.length = s.length % 65536 := by
    rw [← hs1, List.length_take]
    exact Nat.min_eq_left (Nat.mod_le _ _)
  have hlb : BitVec.ofNat 16 s.length = BitVec.ofNat 16 s1.length := by
    apply BitVec.eq_of_toNat_eq
    simp [hl1]
  have hc : (Bs.call w (.val n (.string s))).ws = w.ws.write (Bs.head (Bs.keyFor w.keys n) (Bs.tag (.string s1)) ++
      Bs.payload (.string s1) ++ s2) := by
    show (Bs.writeVal _ _ _).ws = _
    rw [Bs.writeVal_eq _ _ _ hw]
    simp only [Bs.tag, Bs.payload, hlb]
    rw [hs]
    simp
  have hdrop := Ws.write_drop w.ws (Bs.head (Bs.keyFor w.keys n) (Bs.tag (.string s1)) ++
      Bs.payload (.string s1) ++ s2) post hw
  have hle := Ws.write_le w.ws (Bs.head (Bs.keyFor w.keys n) (Bs.tag (.string s1)) ++
      Bs.payload (.string s1) ++ s2) hw
  rw [hc]
  have h1 := (Bs.reads_val (Bs.keyFor w.keys n) (.string s1) (by
    show s1.length < 65536
    rw [hl1]; exact Nat.mod_lt _ (by decide))).atPos _ w.ws.pos _
    (by simp only [Ws.write, List.length_append] at hle ⊢; omega)
    (hdrop.trans (by rw [List.append_assoc]))
  rw [show Bs.reader.val .string _ = _ from h1.1]
  rfl

/-! ## C12 -/

/-- The types of which the stored form is the same. -/
def SameStored : Val → Kind → Bool
  | .vec2 _, .vec2 => true
  | .vec2 _, .bbox => true
  | .bbox _, .vec2 => true
  | .bbox _, .bbox => true
  | .mat3 _, .mat3 => true
  | .mat3 _, .raw _ => true
  | .raw _, .mat3 => true
  | .raw _, .raw _ => true
  | v, k => v.kind == k

set_option linter.unusedSimpArgs false in
/-- C12, part: reading an entry as another type raises `ParserError`, unless one is a `Vec2` and the other a
bounding box, or one is a matrix and the other a raw blob. Missing from the full claim: these two pairs. -/
theorem c12_binsafe_type_confusion_partial (n : Bytes) (v : Val) (k : Kind) (h : SameStored v k = false) (w : Bs.Wr)
    (hw : w.ws.pos ≤ w.ws.data.length) (post : Bytes) :
    Bs.reader.val k ⟨(Bs.call w (.val n v)).ws.data ++ post, w.ws.pos⟩ = .error (.throw .parser) := by
  have hc : (Bs.call w (.val n v)).ws = w.ws.write (Bs.head (Bs.keyFor w.keys n) (Bs.tag v) ++ Bs.payload v) := by
    show (Bs.writeVal _ _ _).ws = _
    rw [Bs.writeVal_eq _ _ _ hw]
  have hdrop := Ws.write_drop w.ws (Bs.head (Bs.keyFor w.keys n) (Bs.tag v) ++ Bs.payload v) post hw
  have hle := Ws.write_le w.ws (Bs.head (Bs.keyFor w.keys n) (Bs.tag v) ++ Bs.payload v) hw
  rw [hc]
  have hle2 : w.ws.pos ≤ ((w.ws.write (Bs.head (Bs.keyFor w.keys n) (Bs.tag v) ++ Bs.payload v)).data ++ post).length := by
    simp only [Ws.write, List.length_append] at hle ⊢; omega
  generalize (w.ws.write (Bs.head (Bs.keyFor w.keys n) (Bs.tag v) ++ Bs.payload v)).data ++ post = data at *
  have key : ∀ ty, ty ≠ Bs.tag v → Bs.ensureMeta ty ⟨data, w.ws.pos⟩ = .error (.throw .parser) := by
    intro ty hne
    simp only [Bs.head, List.append_assoc] at hdrop
    have h1 := (Reads.u8 Bs.tHASH).atPos data _ _ hle2 hdrop
    have h2 := (Reads.seekCur (encW 4 (Bs.keyFor w.keys n)) 4 (by simp)).atPos data _ _ h1.2.1 h1.2.2
    have h3 := (Reads.u8 (Bs.tag v)).atPos data _ _ h2.2.1 h2.2.2
    unfold Bs.ensureMeta
    rw [Rd.bind_ok h1.1]
    simp only [bne_self_eq_false, Bool.false_eq_true, if_false]
    rw [Rd.bind_ok (p := Rd.seek 4 .cur) h2.1, Rd.bind_ok h3.1]
    have : (Bs.tag v != ty) = true := by simpa using fun h => hne h.symm
    rw [this]
    rfl
  have keyLen : ∀ ty, ty ≠ Bs.tag v → Bs.ensureMetaLen ty ⟨data, w.ws.pos⟩ = .error (.throw .parser) := by
    intro ty hne
    unfold Bs.ensureMetaLen
    rw [Rd.bind_err (key ty hne)]
  have rdErr : ∀ (ty : BitVec 8) {α β} (p : Rd α) (f : α → Rd β), ty ≠ Bs.tag v →
      (∀ e, Bs.ensureMetaLen ty ⟨data, w.ws.pos⟩ = .error e → p ⟨data, w.ws.pos⟩ = .error e) →
      (p >>= f) ⟨data, w.ws.pos⟩ = .error (.throw .parser) := by
    intro ty α β p f hne hp
    rw [Rd.bind_err (hp _ (keyLen ty hne))]
  have pfx : ∀ (ty : BitVec 8) (m : Nat) {α} (p : Rd α) e, Bs.ensureMetaLen ty ⟨data, w.ws.pos⟩ = .error e →
      Bs.readPrefix ty m p ⟨data, w.ws.pos⟩ = .error e := by
    intro ty m α p e he
    unfold Bs.readPrefix
    rw [Rd.bind_err he]
  show Bs.readVal k _ = _
  cases k with
  | string =>
    refine rdErr Bs.tSTRING _ _ ?_ (fun e he => by unfold Bs.readString; rw [Rd.bind_err he])
    cases v <;> first | (simp only [Bs.tag]; decide) | (simp [SameStored, Val.kind] at h)
  | int =>
    refine Rd.bind_err (key Bs.tINTEGER ?_)
    cases v <;> first | (simp only [Bs.tag]; decide) | (simp [SameStored, Val.kind] at h)
  | float =>
    refine Rd.bind_err (key Bs.tFLOAT ?_)
    cases v <;> first | (simp only [Bs.tag]; decide) | (simp [SameStored, Val.kind] at h)
  | byte =>
    refine Rd.bind_err (key Bs.tBYTE ?_)
    cases v <;> first | (simp only [Bs.tag]; decide) | (simp [SameStored, Val.kind] at h)
  | word =>
    refine Rd.bind_err (key Bs.tWORD ?_)
    cases v <;> first | (simp only [Bs.tag]; decide) | (simp [SameStored, Val.kind] at h)
  | enum =>
    refine Rd.bind_err (key Bs.tENUM ?_)
    cases v <;> first | (simp only [Bs.tag]; decide) | (simp [SameStored, Val.kind] at h)
  | bool =>
    refine Rd.bind_err (key Bs.tBOOL ?_)
    cases v <;> first | (simp only [Bs.tag]; decide) | (simp [SameStored, Val.kind] at h)
  | color =>
    refine Rd.bind_err (key Bs.tCOLOR ?_)
    cases v <;> first | (simp only [Bs.tag]; decide) | (simp [SameStored, Val.kind] at h)
  | vec3 =>
    refine Rd.bind_err (key Bs.tVEC3 ?_)
    cases v <;> first | (simp only [Bs.tag]; decide) | (simp [SameStored, Val.kind] at h)
  | vec2 =>
    refine rdErr Bs.tRAW_FLOAT _ _ ?_ (pfx _ _ _)
    cases v <;> first | (simp only [Bs.tag]; decide) | (simp [SameStored, Val.kind] at h)
  | bbox =>
    refine rdErr Bs.tRAW_FLOAT _ _ ?_ (pfx _ _ _)
    cases v <;> first | (simp only [Bs.tag]; decide) | (simp [SameStored, Val.kind] at h)
  | mat3 =>
    refine rdErr Bs.tRAW _ _ ?_ (pfx _ _ _)
    cases v <;> first | (simp only [Bs.tag]; decide) | (simp [SameStored, Val.kind] at h)
  | raw m =>
    refine rdErr Bs.tRAW _ _ ?_ (fun e he => by unfold Bs.readRaw; rw [Rd.bind_err he])
    cases v <;> first | (simp only [Bs.tag]; decide) | (simp [SameStored, Val.kind] at h)

example : SameStored (.int 5) .enum = false ∧ SameStored (.bool true) .int = false ∧
    SameStored (.vec3 ⟨0, 0, 0⟩) .vec2 = false := by decide

/-- C12 fails: a bounding box read as `Vec2` gives a value, the first two coordinates of its minimum. -/
theorem c12_bbox_as_vec2_violation (n : Bytes) (b : Aabb) (w : Bs.Wr) (hw : w.ws.pos ≤ w.ws.data.length)
    (post : Bytes) :
    (Bs.reader.val .vec2 ⟨(Bs.call w (.val n (.bbox b))).ws.data ++ post, w.ws.pos⟩).map (·.1) =
      .ok (.vec2 ⟨b.min.x, b.min.y⟩) := by
  have hc : (Bs.call w (.val n (.bbox b))).ws =
      w.ws.write (Bs.head (Bs.keyFor w.keys n) Bs.tRAW_FLOAT ++ (encW 2 (24 : BitVec 16) ++ b.enc)) := by
    show (Bs.writeVal _ _ _).ws = _
    rw [Bs.writeVal_eq _ _ _ hw]
    rfl
  have hdrop := Ws.write_drop w.ws (Bs.head (Bs.keyFor w.keys n) Bs.tRAW_FLOAT ++ (encW 2 (24 : BitVec 16) ++ b.enc)) post hw
  have hle := Ws.write_le w.ws (Bs.head (Bs.keyFor w.keys n) Bs.tRAW_FLOAT ++ (encW 2 (24 : BitVec 16) ++ b.enc)) hw
  rw [hc]
  have hle2 : w.ws.pos ≤ ((w.ws.write (Bs.head (Bs.keyFor w.keys n) Bs.tRAW_FLOAT ++
      (encW 2 (24 : BitVec 16) ++ b.enc))).data ++ post).length := by
    simp only [Ws.write, List.length_append] at hle ⊢; omega
  generalize (w.ws.write (Bs.head (Bs.keyFor w.keys n) Bs.tRAW_FLOAT ++
      (encW 2 (24 : BitVec 16) ++ b.enc))).data ++ post = data at *
  have he : b.enc = (⟨b.min.x, b.min.y⟩ : Vec2).mem ++ (encW 4 b.min.z ++ b.max.mem) := by
    simp [Aabb.enc, Vec2.mem, Vec3.mem]
  obtain ⟨rst, hdrop⟩ : ∃ rst, data.drop w.ws.pos = Bs.head (Bs.keyFor w.keys n) Bs.tRAW_FLOAT ++
      (encW 2 (24 : BitVec 16) ++ b.enc) ++ rst := ⟨_, hdrop⟩
  rw [he] at hdrop
  have h1 := (Bs.reads_metaLen (Bs.keyFor w.keys n) Bs.tRAW_FLOAT 24 (by decide)).atPos data _
    ((⟨b.min.x, b.min.y⟩ : Vec2).mem ++ ((encW 4 b.min.z ++ b.max.mem) ++ rst)) hle2 (by rw [hdrop]; simp)
  have h2 := (Reads.vec2 ⟨b.min.x, b.min.y⟩).atPos data _ _ h1.2.1 h1.2.2
  have h3 := (Reads.seekCur (encW 4 b.min.z ++ b.max.mem) 16 (by simp [Vec3.mem_length])).atPos data _ _ h2.2.1 h2.2.2
  show Except.map _ (Bs.readVal .vec2 _) = _
  have h4 : ∃ p, Bs.readPrefix Bs.tRAW_FLOAT 8 Rd.vec2 ⟨data, w.ws.pos⟩ = .ok (⟨b.min.x, b.min.y⟩, ⟨data, p⟩) := by
    apply Exists.intro
    unfold Bs.readPrefix
    rw [Rd.bind_ok h1.1]
    show (Rd.vec2 >>= fun v => (Rd.seek 16 .cur >>= fun _ => (pure v : Rd Vec2))) _ = _
    rw [Rd.bind_ok h2.1]
    refine (Rd.bind_ok (p := Rd.seek 16 .cur) h3.1).trans ?_
    rfl
  obtain ⟨p, h4⟩ := h4
  show Except.map _ ((Bs.readPrefix Bs.tRAW_FLOAT 8 Rd.vec2 >>= fun x => (pure (Val.vec2 x) : Rd Val)) _) = _
  rw [Rd.bind_ok h4]
  rfl

/-! ## C14 -/

/-- C14: `skip_object` returns on every byte sequence, inside of the file. -/
theorem c14_skip_terminates (current : Bool) (data : Bytes) (pos : Nat) (hp : pos ≤ data.length) :
    ∃ p, Bs.reader.skipObj current ⟨data, pos⟩ = .ok ((), ⟨data, p⟩) ∧ pos ≤ p ∧ p ≤ data.length := by
  obtain ⟨p, h1, h2, h3⟩ := Bs.skipLoop_total (2 * (data.length - pos) + 3) (if current then 1 else 0) data pos hp
    (by cases current <;> simp <;> omega) (by omega)
  exact ⟨p, h1, h3, h2⟩

/-- C14, part: on a well formed object `skip_object` stops exactly behind its end: from in front of it with
`skip_object(false)`, and behind its begin, wherever its entries `done` have been read, with `skip_object(true)`.
Missing: objects that hold a string starting with `[`. -/
theorem c14_skip_exact_partial (n c : Bytes) (ver : BitVec 16) (ix : BitVec 32) (ch rest : Doc) (w : Bs.Wr)
    (hw : w.ws.pos ≤ w.ws.data.length) (hnum : (Doc.obj n c ver ix ch rest).Numbered w.index)
    (hn : Bs.OkName n) (hc : Bs.OkName c)
    (hok : ch.All (fun _ v => Bs.OkVal v ∧ ∀ s, v = .string s → s.head? ≠ some 91)
      (fun n c _ _ => Bs.OkName n ∧ Bs.OkName c)) (post : Bytes) :
    let w1 := Bs.calls w (Doc.obj n c ver ix ch .nil).calls
    let w2 := Bs.calls w1 rest.calls
    Bs.reader.skipObj false ⟨w2.ws.data ++ post, w.ws.pos⟩ = .ok ((), ⟨w2.ws.data ++ post, w1.ws.pos⟩) ∧
      ∃ s1, Bs.reader.objBegin ⟨w2.ws.data ++ post, w.ws.pos⟩ = .ok (some ⟨n, c, ver, ix⟩, s1) ∧
        Bs.reader.skipObj true s1 = .ok ((), ⟨w2.ws.data ++ post, w1.ws.pos⟩) := by
  have hsk : Bs.SkipDoc ch := by
    clear hnum
    induction ch with
    | nil => trivial
    | val n v rest ih =>
      refine ⟨⟨hok.1.1, ?_⟩, ih hok.2⟩
      have := hok.1.2
      cases v with
      | string s => exact this s rfl
      | _ => trivial
    | obj n c ver ix ch rest ihc ihr => exact ⟨hok.1, ihc hok.2.1, ihr hok.2.2⟩
    | ref n ix rest ih => exact ⟨hok.1, ih hok.2⟩
  obtain ⟨hn1, hn2, hn3⟩ := hnum
  have hce : c.isEmpty = false := by simpa using hc.1
  intro w1 w2
  have e1 : w1 = _ := Bs.write_doc' (.obj n c ver ix ch .nil) w hw ⟨hn1, hn2, trivial⟩
  have e2 : w2 = _ := Bs.write_doc' rest w1 (by rw [e1]; exact Ws.write_le _ _ hw) (by rw [e1]; exact hn3)
  clear_value w2 w1
  subst e2
  subst e1
  simp only
  rw [Ws.write_write _ _ _ hw]
  generalize Bs.enc (Bs.keysAfter w.keys (.obj n c ver ix ch .nil)) rest = tl
  have hen : Bs.enc w.keys (.obj n c ver ix ch .nil) =
      Bs.mark (Bs.hdrText n c ver ix) ++ Bs.enc w.keys ch ++ Bs.mark b!"[]" := by
    simp [Bs.enc, hce]
  rw [hen]
  have hdrop := Ws.write_drop w.ws (Bs.mark (Bs.hdrText n c ver ix) ++ Bs.enc w.keys ch ++ Bs.mark b!"[]" ++ tl) post hw
  have hle := Ws.write_le w.ws (Bs.mark (Bs.hdrText n c ver ix) ++ Bs.enc w.keys ch ++ Bs.mark b!"[]" ++ tl) hw
  have hle2 : w.ws.pos ≤ ((w.ws.write (Bs.mark (Bs.hdrText n c ver ix) ++ Bs.enc w.keys ch ++
      Bs.mark b!"[]" ++ tl)).data ++ post).length := by
    simp only [Ws.write, List.length_append] at hle ⊢; omega
  generalize (w.ws.write (Bs.mark (Bs.hdrText n c ver ix) ++ Bs.enc w.keys ch ++
      Bs.mark b!"[]" ++ tl)).data ++ post = data at *
  generalize w.ws.data.drop (w.ws.pos + (Bs.mark (Bs.hdrText n c ver ix) ++ Bs.enc w.keys ch ++ Bs.mark b!"[]"
    ++ tl).length) ++ post = rst at *
  have hdrop' : data.drop w.ws.pos = Bs.mark (Bs.hdrText n c ver ix) ++ (Bs.enc w.keys ch ++ (Bs.mark b!"[]" ++
      (tl ++ rst))) := by rw [hdrop]; simp
  refine ⟨Bs.skip_object n c ver ix ch hn hc hsk w.keys data w.ws.pos _ hle2 hdrop', ?_⟩
  obtain ⟨h1, h2, h3⟩ := Bs.obj_step n c ver ix hn hc data w.ws.pos _ hle2 hdrop'
  refine ⟨_, h1, ?_⟩
  have := Bs.skip_rest ch hsk w.keys data _ _ h2 h3
  show Bs.skipObj true _ = _
  rw [this]
  simp only [Ws.write]
  congr 3
  simp only [List.length_append]
  omega

/-- An object to skip. -/
def demoSkip : Doc :=
  .val b!"name" (.string b!"[Xardas]") (.val b!"mode" (.enum 70000)
    (.obj b!"child" b!"zCVob" 1 1 (.val b!"pos" (.vec3 ⟨1, 2, 3⟩) .nil) (.ref b!"again" 1 .nil)))

example : ¬ Bs.SkipDoc demoSkip := by decide +kernel
example : Bs.SkipDoc (.val b!"name" (.string b!"Xardas") (.val b!"mode" (.enum 70000)
    (.obj b!"child" b!"zCVob" 1 1 (.val b!"pos" (.vec3 ⟨1, 2, 3⟩) .nil) (.ref b!"again" 1 .nil)))) := by decide +kernel

/-- C14 fails: an object with the string value `[]` is left inside, at the entry behind the string. -/
theorem c14_skip_string_violation :
    ∃ d : Doc, d.Numbered 0 ∧ Bs.OkDoc d ∧
      (Bs.reader.skipObj false ⟨(Bs.calls ⟨⟨[], 0⟩, 0, []⟩ d.calls).ws.data, 0⟩).map (fun r => r.2.pos) = .ok 26 ∧
      (Bs.calls ⟨⟨[], 0⟩, 0, []⟩ d.calls).ws.pos = 41 :=
  ⟨.obj b!"%" b!"zCVob" 0 0 (.val b!"name" (.string b!"[]") (.val b!"i" (.int 5) .nil)) .nil, by decide +kernel⟩

end Verif.Props
