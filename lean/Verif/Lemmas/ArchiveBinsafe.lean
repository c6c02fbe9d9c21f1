import Verif.Model.ArchiveBinsafe
import Verif.Lemmas.Archive
import Verif.Lemmas.Line

/-! # Lemmas about BINSAFE archives -/

namespace Verif

theorem takeWhile_all {α} (p : α → Bool) (l : List α) (h : ∀ x ∈ l, p x = true) : l.takeWhile p = l := by
  induction l with
  | nil => rfl
  | cons a l ih =>
    rw [List.takeWhile_cons, if_pos (h a (by simp)), ih (fun x hx => h x (by simp [hx]))]

theorem Reads.seekCur (bs : Bytes) (n : Nat) (hn : n = bs.length) : Reads (Rd.seek (n : Int) .cur) bs () := by
  intro pre post
  exact Rd.seek_ok (by simp only [Rd.seekTarget]; omega) (by simp)

theorem Reads.u16' (v : BitVec 16) : Reads Rd.u16 (encW 2 v) v := Reads.u16 v

end Verif

namespace Verif.Ar.Bs

/-- The type byte of a value. -/
def tag : Val → BitVec 8
  | .string _ => tSTRING
  | .int _ => tINTEGER
  | .float _ => tFLOAT
  | .byte _ => tBYTE
  | .word _ => tWORD
  | .enum _ => tENUM
  | .bool _ => tBOOL
  | .color _ => tCOLOR
  | .vec3 _ => tVEC3
  | .vec2 _ => tRAW_FLOAT
  | .bbox _ => tRAW_FLOAT
  | .mat3 _ => tRAW
  | .raw _ => tRAW

def blob (v : Bytes) : Bytes := encW 2 (BitVec.ofNat 16 v.length) ++ v.take (v.length % 65536)

/-- The bytes behind the type byte. -/
def payload : Val → Bytes
  | .string v => encW 2 (BitVec.ofNat 16 v.length) ++ v
  | .int v => encW 4 v
  | .float v => encW 4 v
  | .byte v => encW 1 v
  | .word v => encW 2 v
  | .enum v => encW 4 v
  | .bool v => encW 4 (if v then 1 else 0 : BitVec 32)
  | .color c => encW 1 c.b ++ encW 1 c.g ++ encW 1 c.r ++ encW 1 c.a
  | .vec3 v => v.mem
  | .vec2 v => encW 2 (8 : BitVec 16) ++ v.mem
  | .bbox v => encW 2 (24 : BitVec 16) ++ v.enc
  | .mat3 v => blob v.transpose.mem
  | .raw v => blob v

/-- The bytes in front of a payload. -/
def head (k : BitVec 32) (ty : BitVec 8) : Bytes := encW 1 tHASH ++ encW 4 k ++ encW 1 ty

/-- The number written for a name. -/
def keyFor (ks : Keys) (n : Bytes) : BitVec 32 :=
  match ks.find n with
  | none => BitVec.ofNat 32 ks.length
  | some k => k.zeroExtend 32

/-- The table after a name was used. -/
def addKey (ks : Keys) (n : Bytes) : Keys :=
  match ks.find n with
  | none => ks ++ [(n, BitVec.ofNat 16 ks.length)]
  | some _ => ks

theorem writeEntry_eq (n : Bytes) (ty : BitVec 8) (w : Wr) (hw : w.ws.pos ≤ w.ws.data.length) :
    writeEntry n ty w = { w with ws := w.ws.write (head (keyFor w.keys n) ty), keys := addKey w.keys n } := by
  unfold writeEntry keyFor addKey
  cases w.keys.find n with
  | none =>
    simp only
    have h := ((Emits.u8 tHASH).comp (Emits.u32 (BitVec.ofNat 32 w.keys.length))).comp (Emits.u8 ty)
    have := h w.ws hw
    simp only at this
    rw [this]; rfl
  | some k =>
    simp only
    have h := ((Emits.u8 tHASH).comp (Emits.u32 (k.zeroExtend 32))).comp (Emits.u8 ty)
    have := h w.ws hw
    simp only at this
    rw [this]; rfl

theorem emits_blob (v : Bytes) : Emits (writeBlob v) (blob v) := by
  have h := (Emits.u16 (BitVec.ofNat 16 v.length)).comp (Emits.write (v.take (BitVec.ofNat 16 v.length).toNat))
  have e : (BitVec.ofNat 16 v.length).toNat = v.length % 65536 := by simp
  rw [e] at h
  intro w hw
  have := h w hw
  unfold writeBlob blob
  rw [← this]
  simp only [e]

theorem writeVal_eq (n : Bytes) (v : Val) (w : Wr) (hw : w.ws.pos ≤ w.ws.data.length) :
    writeVal n v w = { w with ws := w.ws.write (head (keyFor w.keys n) (tag v) ++ payload v),
                              keys := addKey w.keys n } := by
  have key : ∀ (ty : BitVec 8) (f : Ws → Ws) (bs : Bytes), Emits f bs →
      ({ writeEntry n ty w with ws := f (writeEntry n ty w).ws } : Wr) =
        { w with ws := w.ws.write (head (keyFor w.keys n) ty ++ bs), keys := addKey w.keys n } := by
    intro ty f bs hf
    rw [writeEntry_eq n ty w hw]
    simp only
    rw [hf _ (Ws.write_le _ _ hw), Ws.write_write _ _ _ hw]
  cases v with
  | string v => exact key _ _ _ ((Emits.u16 (BitVec.ofNat 16 v.length)).comp (Emits.string v))
  | int v => exact key _ _ _ (Emits.u32 v)
  | float v => exact key _ _ _ (Emits.f32 v)
  | byte v => exact key _ _ _ (Emits.u8 v)
  | word v => exact key _ _ _ (Emits.u16 v)
  | enum v => exact key _ _ _ (Emits.u32 v)
  | bool v => exact key _ _ _ (Emits.u32 _)
  | color v => exact key _ _ _ (Emits.colorBgra v)
  | vec3 v => exact key _ _ _ (Emits.vec3 v)
  | vec2 v => exact key _ _ _ ((Emits.u16 8).comp (Emits.write v.mem))
  | bbox v => exact key _ _ _ ((Emits.u16 24).comp (Emits.write (v.min.mem ++ v.max.mem)))
  | mat3 v => exact key _ _ _ (emits_blob _)
  | raw v => exact key _ _ _ (emits_blob v)

/-- Values that survive: strings and blobs below 65536 bytes. -/
def OkVal : Val → Prop
  | .string v => v.length < 65536
  | .raw v => v.length < 65536
  | _ => True

instance : (v : Val) → Decidable (OkVal v)
  | .string v => inferInstanceAs (Decidable (v.length < 65536))
  | .raw v => inferInstanceAs (Decidable (v.length < 65536))
  | .int _ | .float _ | .byte _ | .word _ | .enum _ | .bool _ | .color _ | .vec3 _ | .vec2 _ | .bbox _ | .mat3 _ =>
    isTrue trivial

theorem reads_meta (k : BitVec 32) (ty : BitVec 8) : Reads (ensureMeta ty) (head k ty) () := by
  unfold ensureMeta head
  rw [List.append_assoc]
  refine Reads.bind (Reads.u8 tHASH) ?_
  simp only [bne_self_eq_false, Bool.false_eq_true, if_false]
  refine Reads.bind (Reads.seekCur (encW 4 k) 4 (by simp)) ?_
  refine (Reads.bind (Reads.u8 ty) (b2 := []) ?_).congr (by simp) rfl
  simp only [bne_self_eq_false, Bool.false_eq_true, if_false]
  exact Reads.pure ()

theorem reads_metaLen (k : BitVec 32) (ty : BitVec 8) (n : Nat) (hn : n < 65536) :
    Reads (ensureMetaLen ty) (head k ty ++ encW 2 (BitVec.ofNat 16 n)) n := by
  unfold ensureMetaLen
  refine Reads.bind (reads_meta k ty) ?_
  refine ((Reads.u16 (BitVec.ofNat 16 n)).bind_pure (f := fun x : BitVec 16 => x.toNat)).congr rfl ?_
  simp; omega

theorem reads_prefix {α} (k : BitVec 32) (ty : BitVec 8) (n : Nat) (hn : n < 65536) (p : Rd α) (bs : Bytes) (a : α)
    (h : Reads p bs a) :
    Reads (readPrefix ty n p) (head k ty ++ (encW 2 (BitVec.ofNat 16 n) ++ bs)) a := by
  unfold readPrefix
  rw [← List.append_assoc]
  refine Reads.bind (reads_metaLen k ty n hn) ?_
  simp only [Nat.lt_irrefl, if_false, Nat.sub_self]
  refine (Reads.bind h (b2 := []) ?_).congr (by simp) rfl
  exact (Reads.bind (Reads.seekCur [] 0 rfl) (b2 := []) (Reads.pure a)).congr (by simp) rfl

theorem blob_eq (v : Bytes) (h : v.length < 65536) : blob v = encW 2 (BitVec.ofNat 16 v.length) ++ v := by
  unfold blob
  rw [Nat.mod_eq_of_lt h, List.take_length]

theorem reads_val (k : BitVec 32) (v : Val) (h : OkVal v) : Reads (readVal v.kind) (head k (tag v) ++ payload v) v := by
  cases v with
  | string v =>
    have hv : v.length < 65536 := h
    have h1 : Reads readString (head k tSTRING ++ (encW 2 (BitVec.ofNat 16 v.length) ++ v)) v := by
      rw [← List.append_assoc]
      exact Reads.bind (reads_metaLen k tSTRING v.length hv) (Reads.string v)
    exact h1.bind_pure (f := Val.string)
  | int v => exact Reads.bind (reads_meta k _) ((Reads.u32 v).bind_pure (f := Val.int))
  | float v => exact Reads.bind (reads_meta k _) ((Reads.f32 v).bind_pure (f := Val.float))
  | byte v => exact Reads.bind (reads_meta k _) ((Reads.u8 v).bind_pure (f := Val.byte))
  | word v => exact Reads.bind (reads_meta k _) ((Reads.u16 v).bind_pure (f := Val.word))
  | enum v => exact Reads.bind (reads_meta k _) ((Reads.u32 v).bind_pure (f := Val.enum))
  | bool v =>
    refine (Reads.bind (reads_meta k _) ((Reads.u32 (if v then 1 else 0)).bind_pure
      (f := fun x => Val.bool (x != 0)))).congr rfl ?_
    cases v <;> rfl
  | color v => exact Reads.bind (reads_meta k _) ((Reads.colorBgra v).bind_pure (f := Val.color))
  | vec3 v => exact Reads.bind (reads_meta k _) ((Reads.vec3 v).bind_pure (f := Val.vec3))
  | vec2 v =>
    exact (reads_prefix k tRAW_FLOAT 8 (by decide) Rd.vec2 v.mem v (Reads.vec2 v)).bind_pure (f := Val.vec2)
  | bbox v =>
    exact (reads_prefix k tRAW_FLOAT 24 (by decide) Aabb.load v.enc v (Reads.aabb v)).bind_pure (f := Val.bbox)
  | mat3 v =>
    have e : payload (.mat3 v) = encW 2 (BitVec.ofNat 16 36) ++ v.transpose.mem := by
      simp only [payload]
      rw [blob_eq _ (by rw [Mat3.mem_length]; decide), Mat3.mem_length]
    rw [e]
    exact (reads_prefix k tRAW 36 (by decide) Rd.mat3 _ v (Reads.mat3 v)).bind_pure (f := Val.mat3)
  | raw v =>
    have hv : v.length < 65536 := h
    have h1 : Reads (readRaw v.length) (head k tRAW ++ payload (.raw v)) v := by
      simp only [payload]
      rw [blob_eq v hv, ← List.append_assoc]
      unfold readRaw
      refine Reads.bind (reads_metaLen k tRAW v.length hv) ?_
      simp only [Nat.lt_irrefl, if_false]
      exact Reads.readPadded v
    exact h1.bind_pure (f := Val.raw)

/-- The bytes of an object begin or end. -/
def mark (text : Bytes) : Bytes := encW 1 tSTRING ++ encW 2 (BitVec.ofNat 16 text.length) ++ text

theorem emits_mark (text : Bytes) : Emits (writeMark text) (mark text) := by
  have h := ((Emits.u8 tSTRING).comp (Emits.u16 (BitVec.ofNat 16 text.length))).comp (Emits.string text)
  exact h

/-- A name that survives: not empty, at most 127 characters, no NUL, space or closing bracket. -/
def OkName (n : Bytes) : Prop := n ≠ [] ∧ n.length ≤ 127 ∧ ∀ c ∈ n, c ≠ 0 ∧ c ≠ 32 ∧ c ≠ 93

instance (n : Bytes) : Decidable (OkName n) := inferInstanceAs (Decidable (_ ∧ _ ∧ _))

theorem cstr127_ok (n : Bytes) (h : OkName n) : cstr127 n = n := by
  unfold cstr127
  rw [takeWhile_all _ _ (by intro c hc; simpa using (h.2.2 c hc).1)]
  exact List.take_of_length_le h.2.1

theorem strtok_eq (t r : Bytes) (d : Byte) (ht : t ≠ []) (hnd : ∀ c ∈ t, isDelim c = false) (hd : isDelim d = true) :
    strtok (t ++ d :: r) = some (t, r) := by
  unfold strtok
  have e1 : (t ++ d :: r).dropWhile isDelim = t ++ d :: r := by
    apply dropWhile_false
    intro a ha
    cases t with
    | nil => exact absurd rfl ht
    | cons x t => simp at ha; subst ha; exact hnd _ (by simp)
  simp only [e1]
  have e2 : (t ++ d :: r).isEmpty = false := by simp
  rw [e2]
  have e3 : (t ++ d :: r).takeWhile (fun c => !isDelim c) = t :=
    takeWhile_append_stop _ _ _ (fun x hx => by simp [hnd x hx]) (by intro x hx; simp at hx; subst hx; simp [hd])
  have e4 : (t ++ d :: r).dropWhile (fun c => !isDelim c) = d :: r :=
    dropWhile_append_stop _ _ _ (fun x hx => by simp [hnd x hx]) (by intro x hx; simp at hx; subst hx; simp [hd])
  rw [e3, e4]
  simp

theorem isDelim_iff (c : Byte) : isDelim c = true ↔ c = 32 ∨ c = 93 := by simp [isDelim]

theorem OkName.delim {n : Bytes} (h : OkName n) : ∀ c ∈ n, isDelim c = false := by
  intro c hc
  have := h.2.2 c hc
  rw [← Bool.not_eq_true, isDelim_iff]
  simp [this]

theorem decInt_delim (i : Int) : ∀ c ∈ decInt i, isDelim c = false := by
  intro c hc
  rw [← Bool.not_eq_true, isDelim_iff]
  rcases decInt_chars i c hc with rfl | h
  · decide
  · have h1 := isDigit_ne c h 32 (by simp)
    have h2 := isDigit_ne c h 93 (by simp)
    simp [h1, h2]

theorem decInt_nonul (i : Int) : ∀ c ∈ decInt i, c ≠ 0 := by
  intro c hc
  rcases decInt_chars i c hc with rfl | h
  · decide
  · exact isDigit_ne c h 0 (by simp)

theorem atoi_decInt (i : Int) (h1 : -2 ^ 63 ≤ i) (h2 : i < 2 ^ 63) : atoi (decInt i) = BitVec.ofInt 32 i := by
  unfold atoi
  rw [strtol_decInt']
  simp only
  congr 1
  omega

theorem parseHdr_hdrText (n c : Bytes) (ver : BitVec 16) (ix : BitVec 32) (hn : OkName n) (hc : OkName c) :
    parseHdr (hdrText n c ver ix) = some ⟨n, c, ver, ix⟩ := by
  have ht : hdrText n c ver ix =
      91 :: (n ++ 32 :: (c ++ 32 :: (decInt ver.toNat ++ 32 :: (decInt ix.toInt ++ [93])))) := by
    simp [hdrText, cstr127_ok n hn, cstr127_ok c hc]
  have hnz : (n ++ 32 :: (c ++ 32 :: (decInt ver.toNat ++ 32 :: (decInt ix.toInt ++ [93])))).takeWhile (· != 0)
      = n ++ 32 :: (c ++ 32 :: (decInt ver.toNat ++ 32 :: (decInt ix.toInt ++ [93]))) := by
    apply takeWhile_all
    intro x hx
    simp only [List.mem_append, List.mem_cons, List.not_mem_nil, or_false] at hx
    have : x ≠ 0 := by
      rcases hx with h | rfl | h | rfl | h | rfl | h | rfl
      · exact (hn.2.2 x h).1
      · decide
      · exact (hc.2.2 x h).1
      · decide
      · exact decInt_nonul _ x h
      · decide
      · exact decInt_nonul _ x h
      · decide
    simpa using this
  unfold parseHdr
  rw [ht, if_neg (by simp; omega)]
  simp only [hnz]
  rw [strtok_eq n _ 32 hn.1 hn.delim rfl]
  simp only
  rw [strtok_eq c _ 32 hc.1 hc.delim rfl]
  simp only
  rw [strtok_eq _ _ 32 (decInt_ne_nil _) (decInt_delim _) rfl]
  simp only
  rw [strtok_eq _ [] 93 (decInt_ne_nil _) (decInt_delim _) rfl]
  simp only
  have hv := ver.isLt
  have hi1 := BitVec.le_toInt ix
  have hi2 := BitVec.toInt_lt (x := ix)
  rw [atoi_decInt _ (by omega) (by omega), atoi_decInt _ (by omega) (by omega)]
  congr 2
  · apply BitVec.eq_of_toNat_eq
    simp
  · simp

theorem hdrText_length (n c : Bytes) (ver : BitVec 16) (ix : BitVec 32) (hn : OkName n) (hc : OkName c) :
    (hdrText n c ver ix).length < 65536 := by
  have hv := ver.isLt
  have hi1 := BitVec.le_toInt ix
  have hi2 := BitVec.toInt_lt (x := ix)
  have h1 : (decInt ver.toNat).length ≤ 20 := by
    unfold decInt
    have := dec_length_le (ver.toNat : Int).natAbs 6 (by decide) (by omega)
    split <;> (try simp only [List.length_cons]) <;> omega
  have h2 : (decInt ix.toInt).length ≤ 20 := by
    unfold decInt
    have := dec_length_le ix.toInt.natAbs 10 (by decide) (by omega)
    split <;> (try simp only [List.length_cons]) <;> omega
  simp only [hdrText, List.length_append, List.length_cons, List.length_nil, cstr127_ok n hn, cstr127_ok c hc]
  have := hn.2.1
  have := hc.2.1
  omega

/-- Reading an object begin. -/
theorem reads_begin (text : Bytes) (h : Hdr) (ht : text.length < 65536) (hp : parseHdr text = some h) :
    Reads readObjBegin (mark text) (some h) := by
  have hr : Reads (do
      let ty ← Rd.u8
      if ty != tSTRING then
        Rd.fail .ub
      let len ← Rd.u16
      let line ← Rd.string len.toNat
      return line) (mark text) text := by
    unfold mark
    rw [List.append_assoc]
    refine Reads.bind (Reads.u8 tSTRING) ?_
    simp only [bne_self_eq_false, Bool.false_eq_true, if_false]
    refine Reads.bind (Reads.u16 _) ?_
    have e : (BitVec.ofNat 16 text.length).toNat = text.length := by simp; omega
    rw [e]
    exact (Reads.string text).bind_pure (f := id)
  intro pre post
  have hu := (Reads.u8 tSTRING).atPos (pre ++ mark text ++ post) pre.length
    (encW 2 (BitVec.ofNat 16 text.length) ++ text ++ post) (by simp) (by simp [mark])
  have hv := (Reads.u16 (BitVec.ofNat 16 text.length)).atPos (pre ++ mark text ++ post) (pre.length + 1)
    (text ++ post) (by simpa using hu.2.1) (by simpa using hu.2.2)
  have hs := (Reads.string text).atPos (pre ++ mark text ++ post) (pre.length + 1 + 2)
    post (by simpa using hv.2.1) (by simpa using hv.2.2)
  have e : (BitVec.ofNat 16 text.length).toNat = text.length := by simp; omega
  have hl : (mark text).length = 3 + text.length := by simp [mark]; omega
  generalize hdata : pre ++ mark text ++ post = data at *
  have hlen : data.length = pre.length + (3 + text.length) + post.length := by
    rw [← hdata, List.length_append, List.length_append, hl]
  have heof : Rd.eof ⟨data, pre.length⟩ = .ok (false, ⟨data, pre.length⟩) := by
    simp [Rd.eof]; omega
  have htell : Rd.tell ⟨data, pre.length⟩ = .ok (pre.length, ⟨data, pre.length⟩) := rfl
  unfold readObjBegin
  rw [Rd.bind_ok heof]
  simp only [Bool.false_eq_true, if_false]
  rw [Rd.bind_ok htell, Rd.bind_ok hu.1]
  simp only [bne_self_eq_false, Bool.false_eq_true, if_false, encW_length]
  rw [Rd.bind_ok hv.1, e, Rd.bind_ok (by simpa using hs.1), hp]
  simp only [Rd.pure_def, hl]
  congr 3
  omega

/-- Reading an object end. -/
theorem reads_end : Reads readObjEnd (mark b!"[]") true := by
  intro pre post
  have hm : mark b!"[]" = [1, 2, 0, 91, 93] := by decide
  rw [hm]
  generalize hdata : pre ++ [1, 2, 0, 91, 93] ++ post = data
  have hu := (Reads.u8 tSTRING).atPos data pre.length ([2, 0, 91, 93] ++ post) (by rw [← hdata]; simp)
    (by rw [← hdata]; simp; rfl)
  have hv := (Reads.u16 2).atPos data (pre.length + 1) ([91, 93] ++ post) (by simpa using hu.2.1)
    (by rw [show pre.length + 1 = pre.length + (encW 1 tSTRING).length by simp, hu.2.2]; rfl)
  have hs := (Reads.string [91, 93]).atPos data (pre.length + 1 + 2) post (by simpa using hv.2.1)
    (by simpa using hv.2.2)
  have hlen : data.length = pre.length + 5 + post.length := by rw [← hdata]; simp; omega
  have heof : Rd.eof ⟨data, pre.length⟩ = .ok (false, ⟨data, pre.length⟩) := by simp [Rd.eof]; omega
  have htell : Rd.tell ⟨data, pre.length⟩ = .ok (pre.length, ⟨data, pre.length⟩) := rfl
  unfold readObjEnd
  rw [Rd.bind_ok heof]
  simp only [Bool.false_eq_true, if_false]
  rw [Rd.bind_ok htell, Rd.bind_ok hu.1]
  simp only [bne_self_eq_false, Bool.false_eq_true, if_false, encW_length]
  rw [Rd.bind_ok hv.1]
  simp only [bne_self_eq_false, Bool.false_eq_true, if_false, encW_length]
  rw [Rd.bind_ok (by simpa using hs.1)]
  simp

/-- The table after a document was written. -/
def keysAfter : Keys → Doc → Keys
  | ks, .nil => ks
  | ks, .val n _ rest => keysAfter (addKey ks n) rest
  | ks, .obj _ _ _ _ ch rest => keysAfter (keysAfter ks ch) rest
  | ks, .ref _ _ rest => keysAfter ks rest

/-- The bytes of a document. -/
def enc : Keys → Doc → Bytes
  | _, .nil => []
  | ks, .val n v rest => head (keyFor ks n) (tag v) ++ payload v ++ enc (addKey ks n) rest
  | ks, .obj n c ver ix ch rest =>
    mark (hdrText n (if c.isEmpty then nullClass else c) ver ix) ++ enc ks ch ++ mark b!"[]" ++
      enc (keysAfter ks ch) rest
  | ks, .ref n ix rest => mark (hdrText n refClass 0 ix) ++ mark b!"[]" ++ enc ks rest

theorem write_doc (d : Doc) (w : Wr) (hw : w.ws.pos ≤ w.ws.data.length) (hn : d.Numbered w.index)
    (cs : List Call) :
    calls w (d.calls ++ cs) =
      calls ⟨w.ws.write (enc w.keys d), d.next w.index, keysAfter w.keys d⟩ cs := by
  induction d generalizing w cs with
  | nil => simp [Doc.calls, enc, Doc.next, keysAfter, Ws.write_nil _ hw]
  | val n v rest ih =>
    simp only [Doc.calls, List.cons_append, calls, List.foldl_cons, call]
    rw [writeVal_eq n v w hw]
    have := ih ⟨w.ws.write (head (keyFor w.keys n) (tag v) ++ payload v), w.index, addKey w.keys n⟩
      (Ws.write_le _ _ hw) hn cs
    simp only [calls] at this
    rw [this, Ws.write_write _ _ _ hw]
    simp [enc, Doc.next, keysAfter]
  | ref n ix rest ih =>
    simp only [Doc.calls, List.cons_append, calls, List.foldl_cons, call, ref]
    have e := ((emits_mark (hdrText n refClass 0 ix)).comp (emits_mark b!"[]")) w.ws hw
    simp only at e
    rw [e]
    have := ih ⟨w.ws.write (mark (hdrText n refClass 0 ix) ++ mark b!"[]"), w.index, w.keys⟩
      (Ws.write_le _ _ hw) hn cs
    simp only [calls] at this
    rw [this, Ws.write_write _ _ _ hw]
    simp [enc, Doc.next, keysAfter]
  | obj n c ver ix ch rest ihc ihr =>
    obtain ⟨hix, hnc, hnr⟩ := hn
    simp only [Doc.calls, List.cons_append, calls, List.foldl_cons, call, List.append_assoc, objBegin]
    rw [← hix, emits_mark _ w.ws hw]
    generalize hi : (if emptyClass c then w.index else w.index + 1) = i1 at hnc hnr
    have h1 := ihc ⟨w.ws.write (mark (hdrText n (if c.isEmpty then nullClass else c) ver ix)), i1, w.keys⟩
      (Ws.write_le _ _ hw) hnc (.finish :: (rest.calls ++ cs))
    simp only [calls] at h1
    rw [h1, Ws.write_write _ _ _ hw]
    simp only [List.foldl_cons, call, objEnd]
    rw [emits_mark _ _ (Ws.write_le _ _ hw), Ws.write_write _ _ _ hw]
    have h2 := ihr ⟨w.ws.write (mark (hdrText n (if c.isEmpty then nullClass else c) ver ix) ++ enc w.keys ch ++
      mark b!"[]"), ch.next i1, keysAfter w.keys ch⟩ (Ws.write_le _ _ hw) hnr cs
    simp only [calls] at h2
    rw [h2, Ws.write_write _ _ _ hw]
    simp only [enc, Doc.next, hi, keysAfter, List.append_assoc]

theorem write_doc' (d : Doc) (w : Wr) (hw : w.ws.pos ≤ w.ws.data.length) (hn : d.Numbered w.index) :
    calls w d.calls = ⟨w.ws.write (enc w.keys d), d.next w.index, keysAfter w.keys d⟩ := by
  have := write_doc d w hw hn []
  rw [List.append_nil] at this
  exact this

/-- Documents that survive. -/
def OkDoc (d : Doc) : Prop := d.All (fun _ v => OkVal v) (fun n c _ _ => OkName n ∧ OkName c)

instance (d : Doc) : Decidable (OkDoc d) := Doc.decAll d

/-- `bs` are the bytes of the levels. -/
def Levels : List Doc → Bytes → Prop
  | [], bs => bs = []
  | [d], bs => ∃ ks, bs = enc ks d
  | d :: L, bs => ∃ ks b, bs = enc ks d ++ mark b!"[]" ++ b ∧ Levels L b

/-- The reader is in front of the levels `L`, `post` follows. -/
def R (data post : Bytes) (L : List Doc) (s : Rs) : Prop :=
  s.data = data ∧ (∀ d ∈ L, OkDoc d) ∧ s.pos ≤ data.length ∧ ∃ bs, data.drop s.pos = bs ++ post ∧ Levels L bs

theorem levels_cons {d : Doc} {L : List Doc} {bs : Bytes} (h : Levels (d :: L) bs) :
    ∃ ks r, bs = enc ks d ++ r ∧ ∀ ks' d', Levels (d' :: L) (enc ks' d' ++ r) := by
  cases L with
  | nil =>
    obtain ⟨ks, rfl⟩ := h
    exact ⟨ks, [], by simp, fun ks' d' => ⟨ks', by simp⟩⟩
  | cons e L =>
    obtain ⟨ks, b, rfl, hb⟩ := h
    exact ⟨ks, mark b!"[]" ++ b, by simp, fun ks' d' => ⟨ks', b, by simp, hb⟩⟩

theorem obj_step (n c : Bytes) (ver : BitVec 16) (ix : BitVec 32) (hn : OkName n) (hc : OkName c)
    (data : Bytes) (pos : Nat) (r : Bytes) (hp : pos ≤ data.length)
    (hd : data.drop pos = mark (hdrText n c ver ix) ++ r) :
    readObjBegin ⟨data, pos⟩ = .ok (some ⟨n, c, ver, ix⟩, ⟨data, pos + (mark (hdrText n c ver ix)).length⟩) ∧
      pos + (mark (hdrText n c ver ix)).length ≤ data.length ∧
      data.drop (pos + (mark (hdrText n c ver ix)).length) = r :=
  (reads_begin _ _ (hdrText_length n c ver ix hn hc) (parseHdr_hdrText n c ver ix hn hc)).atPos data pos r hp hd

/-- The BINSAFE reader simulates documents. -/
def sim (data post : Bytes) : Sim reader where
  R := R data post
  val := by
    rintro n v rest L ⟨d, pos⟩ ⟨rfl, hok, hp, bs, hd, hl⟩
    obtain ⟨ks, r, rfl, hr⟩ := levels_cons hl
    obtain ⟨hv, hrest⟩ := hok _ List.mem_cons_self
    simp only [enc, List.append_assoc] at hd hp
    obtain ⟨h1, h2, h3⟩ := (reads_val (keyFor ks n) v hv).atPos d pos _ hp (by rw [hd, List.append_assoc])
    refine ⟨_, h1, rfl, ?_, h2, enc (addKey ks n) rest ++ r, by rw [h3]; simp, hr _ _⟩
    intro x hx
    simp only [List.mem_cons] at hx
    rcases hx with rfl | h
    · exact hrest
    · exact hok x (by simp [h])
  obj := by
    rintro n c ver ix ch rest L ⟨d, pos⟩ ⟨rfl, hok, hp, bs, hd, hl⟩
    obtain ⟨ks, r, rfl, hr⟩ := levels_cons hl
    obtain ⟨hv, hch, hrest⟩ := hok _ List.mem_cons_self
    have hce : c.isEmpty = false := by simpa using hv.2.1
    simp only [enc, List.append_assoc, hce, Bool.false_eq_true, if_false] at hd hp
    obtain ⟨h1, h2, h3⟩ := obj_step n c ver ix hv.1 hv.2 d pos _ hp hd
    refine ⟨_, h1, rfl, ?_, h2, _, ?_, ks, enc (keysAfter ks ch) rest ++ r, rfl, hr _ _⟩
    · intro x hx
      simp only [List.mem_cons] at hx
      rcases hx with rfl | rfl | h
      · exact hch
      · exact hrest
      · exact hok x (by simp [h])
    · rw [h3]; simp
  ref := by
    rintro n ix rest L ⟨d, pos⟩ ⟨rfl, hok, hp, bs, hd, hl⟩
    obtain ⟨ks, r, rfl, hr⟩ := levels_cons hl
    obtain ⟨hv, hrest⟩ := hok _ List.mem_cons_self
    simp only [enc, List.append_assoc] at hd hp
    obtain ⟨h1, h2, h3⟩ := obj_step n refClass 0 ix hv.1 hv.2 d pos _ hp hd
    refine ⟨_, h1, rfl, ?_, h2, _, ?_, ks, enc ks rest ++ r, rfl, hr _ _⟩
    · intro x hx
      simp only [List.mem_cons] at hx
      rcases hx with rfl | rfl | h
      · trivial
      · exact hrest
      · exact hok x (by simp [h])
    · rw [h3]; simp [enc]
  fin := by
    rintro rest L ⟨d, pos⟩ ⟨rfl, hok, hp, bs, hd, ks, b, rfl, hb⟩
    simp only [enc, List.nil_append, List.append_assoc] at hd hp
    obtain ⟨h1, h2, h3⟩ := reads_end.atPos d pos _ hp hd
    exact ⟨_, h1, rfl, fun x hx => hok x (List.mem_cons_of_mem _ hx), h2, b, h3, hb⟩

end Verif.Ar.Bs
