import Verif.Model.ArchiveBinary
import Verif.Lemmas.Archive
import Verif.Lemmas.Chunk
import Verif.Lemmas.Line

/-! # Lemmas about BINARY archives -/

namespace Verif.Ar.Bin

/-- The bytes of a value. -/
def encVal : Val → Bytes
  | .string v => v ++ [0]
  | .int v => encW 4 v
  | .float v => encW 4 v
  | .byte v => encW 1 v
  | .word v => encW 2 v
  | .enum v => encW 1 (v.truncate 8)
  | .bool v => encW 1 (if v then 1 else 0 : BitVec 8)
  | .color c => encW 1 c.b ++ encW 1 c.g ++ encW 1 c.r ++ encW 1 c.a
  | .vec3 v => v.mem
  | .vec2 v => v.mem
  | .bbox v => v.enc
  | .mat3 v => v.transpose.mem
  | .raw v => v

/-- Values that survive: strings without NUL, CR and LF, enum values that fit a byte. -/
def OkVal : Val → Prop
  | .string v => NoEol v
  | .enum v => v.toNat < 256
  | _ => True

instance : (v : Val) → Decidable (OkVal v)
  | .string v => inferInstanceAs (Decidable (NoEol v))
  | .enum v => inferInstanceAs (Decidable (v.toNat < 256))
  | .int _ | .float _ | .byte _ | .word _ | .bool _ | .color _ | .vec3 _ | .vec2 _ | .bbox _ | .mat3 _ | .raw _ =>
    isTrue trivial

theorem emits_val (v : Val) : Emits (writeVal v) (encVal v) := by
  cases v with
  | string v => exact Emits.string0 v
  | int v => exact Emits.u32 v
  | float v => exact Emits.f32 v
  | byte v => exact Emits.u8 v
  | word v => exact Emits.u16 v
  | enum v => exact Emits.u8 _
  | bool v => exact Emits.u8 _
  | color v => exact Emits.colorBgra v
  | vec3 v => exact Emits.vec3 v
  | vec2 v => exact Emits.vec2 v
  | bbox v => exact Emits.aabb v
  | mat3 v => exact Emits.mat3 v
  | raw v => exact Emits.write v

theorem reads_val (v : Val) (h : OkVal v) : Reads (readVal v.kind) (encVal v) v := by
  cases v with
  | string v => exact (Reads.line0 v h).bind_pure (f := Val.string)
  | int v => exact (Reads.u32 v).bind_pure (f := Val.int)
  | float v => exact (Reads.f32 v).bind_pure (f := Val.float)
  | byte v => exact (Reads.u8 v).bind_pure (f := Val.byte)
  | word v => exact (Reads.u16 v).bind_pure (f := Val.word)
  | enum v =>
    refine ((Reads.u8 (v.truncate 8)).bind_pure (f := fun x => Val.enum (x.zeroExtend 32))).congr rfl ?_
    have h : v.toNat < 256 := h
    congr 1
    apply BitVec.eq_of_toNat_eq
    simp; omega
  | bool v =>
    refine ((Reads.u8 (if v then 1 else 0)).bind_pure (f := fun x => Val.bool (x != 0))).congr rfl ?_
    cases v <;> rfl
  | color v => exact (Reads.colorBgra v).bind_pure (f := Val.color)
  | vec3 v => exact (Reads.vec3 v).bind_pure (f := Val.vec3)
  | vec2 v => exact (Reads.vec2 v).bind_pure (f := Val.vec2)
  | bbox v => exact (Reads.aabb v).bind_pure (f := Val.bbox)
  | mat3 v => exact (Reads.mat3 v).bind_pure (f := Val.mat3)
  | raw v => exact (Reads.readPadded v).bind_pure (f := Val.raw)

/-- Everything of an object but its size. -/
def hdrBytes (n c : Bytes) (ver : BitVec 16) (ix : BitVec 32) : Bytes :=
  encW 2 ver ++ encW 4 ix ++ (n ++ [0]) ++ (c ++ [0])

/-- The bytes of a document. -/
def enc : Doc → Bytes
  | .nil => []
  | .val _ v rest => encVal v ++ enc rest
  | .obj n c ver ix ch rest =>
    let body := hdrBytes n c ver ix ++ enc ch
    encW 4 (BitVec.ofNat 32 (4 + body.length)) ++ body ++ enc rest
  | .ref n ix rest =>
    let body := hdrBytes n refClass 0 ix
    encW 4 (BitVec.ofNat 32 (4 + body.length)) ++ body ++ enc rest

/-- Documents that survive. -/
def OkDoc (d : Doc) : Prop :=
  d.All (fun _ v => OkVal v) (fun n c _ _ => NoEol n ∧ NoEol c) ∧ (enc d).length < 2 ^ 32

instance (d : Doc) : Decidable (OkDoc d) := inferInstanceAs (Decidable (_ ∧ _))

/-- Patching the first four bytes of what was just written. -/
theorem patch4 (w : Ws) (hw : w.pos ≤ w.data.length) (x y : BitVec 32) (body : Bytes) :
    (Ws.u32 y ((w.write (encW 4 x ++ body)).seek w.pos .beg)).seek (w.write (encW 4 x ++ body)).pos .beg
      = w.write (encW 4 y ++ body) := by
  have := splice_patch w.data [] (encW 4 x) (encW 4 y) body w.pos hw (by simp)
  simp only [List.nil_append, List.length_nil, Nat.add_zero] at this
  simp only [Ws.seek, Rd.seekTarget, Ws.u32, Ws.word, Ws.write, Int.toNat_natCast, this]
  simp

theorem emits_ref (n : Bytes) (ix : BitVec 32) (w : Wr) (hw : w.ws.pos ≤ w.ws.data.length) (rest : Doc) :
    enc (.ref n ix rest) = enc (.ref n ix .nil) ++ enc rest ∧
    ref n ix w = { w with ws := w.ws.write (enc (.ref n ix .nil)) } := by
  refine ⟨by simp [enc], ?_⟩
  have h := ((((Emits.u32 (BitVec.ofNat 32 (6 + n.length + 1 + 2))).comp (Emits.u16 0)).comp (Emits.u32 ix)).comp
    (Emits.string0 n)).comp (Emits.string0 refClass)
  have e := h w.ws hw
  simp only [List.append_assoc] at e
  unfold ref
  simp only
  rw [e]
  have hsz : BitVec.ofInt 32 (((w.ws.write (encW 4 (BitVec.ofNat 32 (6 + n.length + 1 + 2)) ++ (encW 2 (0 : BitVec 16) ++
      (encW 4 ix ++ (n ++ ([0] ++ (refClass ++ [0]))))))).pos : Int) - (w.ws.pos : Int))
      = BitVec.ofNat 32 (4 + (hdrBytes n refClass 0 ix).length) := by
    simp only [Ws.write, hdrBytes, List.length_append, encW_length]
    rw [← BitVec.ofInt_natCast]
    congr 1
    omega
  rw [hsz, patch4 w.ws hw]
  simp [enc, hdrBytes]

theorem write_doc (d : Doc) (w : Wr) (hw : w.ws.pos ≤ w.ws.data.length) (hn : d.Numbered w.index)
    (cs : List Call) :
    calls w (d.calls ++ cs) = calls { w with ws := w.ws.write (enc d), index := d.next w.index } cs := by
  induction d generalizing w cs with
  | nil => simp [Doc.calls, enc, Doc.next, Ws.write_nil _ hw]
  | val n v rest ih =>
    simp only [Doc.calls, List.cons_append, calls, List.foldlM_cons, call]
    simp only [Option.bind_eq_bind, Option.bind_some]
    rw [emits_val v w.ws hw]
    have := ih ⟨w.ws.write (encVal v), w.index, w.objects⟩ (Ws.write_le _ _ hw) hn cs
    simp only [calls] at this
    rw [this, enc, Ws.write_write _ _ _ hw, Doc.next]
  | ref n ix rest ih =>
    obtain ⟨e1, e2⟩ := emits_ref n ix w hw rest
    simp only [Doc.calls, List.cons_append, calls, List.foldlM_cons, call, e2]
    simp only [Option.bind_eq_bind, Option.bind_some]
    have := ih ⟨w.ws.write (enc (.ref n ix .nil)), w.index, w.objects⟩ (Ws.write_le _ _ hw) hn cs
    simp only [calls] at this
    rw [this, e1, Ws.write_write _ _ _ hw, Doc.next]
  | obj n c ver ix ch rest ihc ihr =>
    obtain ⟨hix, hnc, hnr⟩ := hn
    have hb := ((((Emits.u32 (BitVec.ofNat 32 (6 + n.length + c.length + 2))).comp (Emits.u16 ver)).comp
      (Emits.u32 (if emptyClass c then 0 else w.index))).comp (Emits.string0 n)).comp (Emits.string0 c)
    have e := hb w.ws hw
    simp only [List.append_assoc] at e
    simp only [Doc.calls, List.cons_append, calls, List.foldlM_cons, call, List.append_assoc]
    simp only [Option.bind_eq_bind, Option.bind_some]
    generalize hi : (if emptyClass c then w.index else w.index + 1) = i1 at hnc hnr
    have hob : objBegin n c ver w = ⟨w.ws.write (encW 4 (BitVec.ofNat 32 (6 + n.length + c.length + 2)) ++
        hdrBytes n c ver ix), i1, w.ws.pos :: w.objects⟩ := by
      unfold objBegin
      simp only
      rw [e, hi, hix]
      simp [hdrBytes]
    rw [hob]
    have h1 := ihc ⟨w.ws.write (encW 4 (BitVec.ofNat 32 (6 + n.length + c.length + 2)) ++
        hdrBytes n c ver ix), i1, w.ws.pos :: w.objects⟩ (Ws.write_le w.ws _ hw) hnc
    simp only [calls] at h1
    rw [h1, Ws.write_write _ _ _ hw]
    simp only [List.foldlM_cons, call, objEnd, Option.bind_eq_bind, Option.bind_some, List.append_assoc]
    have hsz : BitVec.ofInt 32 (((w.ws.write (encW 4 (BitVec.ofNat 32 (6 + n.length + c.length + 2)) ++
        (hdrBytes n c ver ix ++ enc ch))).pos : Int) - (w.ws.pos : Int))
        = BitVec.ofNat 32 (4 + (hdrBytes n c ver ix ++ enc ch).length) := by
      simp only [Ws.write, List.length_append, encW_length]
      rw [← BitVec.ofInt_natCast]
      congr 1
      omega
    rw [hsz, patch4 w.ws hw]
    have h2 := ihr ⟨w.ws.write (encW 4 (BitVec.ofNat 32 (4 + (hdrBytes n c ver ix ++ enc ch).length)) ++
      (hdrBytes n c ver ix ++ enc ch)), ch.next i1, w.objects⟩ (Ws.write_le _ _ hw) hnr cs
    simp only [calls] at h2
    rw [h2, Ws.write_write _ _ _ hw]
    simp only [enc, Doc.next, hi, List.append_assoc]

/-- The bytes of the unread levels. -/
def encs (L : List Doc) : Bytes := (L.map enc).flatten

/-- The stack of object ends when the levels start at position `p`: one for each level but the outermost. -/
def endsOf : Nat → List Doc → List Nat
  | p, d :: e :: L => (p + (enc d).length) :: endsOf (p + (enc d).length) (e :: L)
  | _, _ => []

/-- The reader is in front of the levels `L`, `post` follows, `tail` is below on the stack. -/
def R (data post : Bytes) (tail : List Nat) (L : List Doc) (s : Rr) : Prop :=
  s.rs.data = data ∧ (∀ d ∈ L, OkDoc d) ∧ s.rs.pos ≤ data.length ∧
    data.drop s.rs.pos = encs L ++ post ∧ s.ends = endsOf s.rs.pos L ++ tail

theorem reads_hdr (n c : Bytes) (ver : BitVec 16) (ix : BitVec 32) (hn : NoEol n) (hc : NoEol c) (size : BitVec 32)
    (data : Bytes) (pos : Nat) (rest : Bytes) (hp : pos ≤ data.length)
    (hd : data.drop pos = (encW 4 size ++ hdrBytes n c ver ix) ++ rest) :
    readHdr ⟨data, pos⟩ = .ok ((pos + size.toNat, ⟨n, c, ver, ix⟩),
      ⟨data, pos + (4 + (hdrBytes n c ver ix).length)⟩) := by
  have h : Reads (do
      let size ← Rd.u32
      let version ← Rd.u16
      let index ← Rd.u32
      let name ← Rd.line false
      let cls ← Rd.line false
      return (pos + size.toNat, (⟨name, cls, version, index⟩ : Hdr)))
      (encW 4 size ++ hdrBytes n c ver ix) (pos + size.toNat, ⟨n, c, ver, ix⟩) := by
    refine Reads.congr (Reads.bind (Reads.u32 size) (Reads.bind (Reads.u16 ver) (Reads.bind (Reads.u32 ix)
      (Reads.bind (Reads.line0 n hn) (Reads.bind (Reads.line0 c hc) (Reads.pure _)))))) ?_ rfl
    simp [hdrBytes]
  have := (h.atPos data pos rest hp hd).1
  have ht : Rd.tell ⟨data, pos⟩ = .ok (pos, ⟨data, pos⟩) := rfl
  unfold readHdr
  rw [Rd.bind_ok ht, this]
  simp

theorem okDoc_val {n v rest} (h : OkDoc (.val n v rest)) : OkVal v ∧ OkDoc rest := by
  obtain ⟨⟨h1, h2⟩, h3⟩ := h
  simp only [enc, List.length_append] at h3
  exact ⟨h1, h2, by omega⟩

theorem okDoc_obj {n c ver ix ch rest} (h : OkDoc (.obj n c ver ix ch rest)) :
    NoEol n ∧ NoEol c ∧ OkDoc ch ∧ OkDoc rest ∧ 4 + (hdrBytes n c ver ix ++ enc ch).length < 2 ^ 32 := by
  obtain ⟨⟨h1, h2, h2'⟩, h3⟩ := h
  simp only [enc, List.length_append, encW_length] at h3
  refine ⟨h1.1, h1.2, ⟨h2, by omega⟩, ⟨h2', by omega⟩, ?_⟩
  simp only [List.length_append]; omega

theorem okDoc_ref {n ix rest} (h : OkDoc (.ref n ix rest)) :
    NoEol n ∧ NoEol refClass ∧ OkDoc rest ∧ 4 + (hdrBytes n refClass 0 ix).length < 2 ^ 32 := by
  obtain ⟨⟨h1, h2⟩, h3⟩ := h
  simp only [enc, List.length_append, encW_length] at h3
  exact ⟨h1.1, h1.2, ⟨h2, by omega⟩, by omega⟩

theorem obj_step (n c : Bytes) (ver : BitVec 16) (ix : BitVec 32) (hn : NoEol n) (hc : NoEol c) (ch rest : Doc)
    (L : List Doc) (hsz : 4 + (hdrBytes n c ver ix ++ enc ch).length < 2 ^ 32) (hch : OkDoc ch)
    (hrest : OkDoc rest) (hL : ∀ d ∈ L, OkDoc d) (data post : Bytes) (tail : List Nat) (pos : Nat) (ends : List Nat)
    (hp : pos ≤ data.length)
    (hd : data.drop pos = (encW 4 (BitVec.ofNat 32 (4 + (hdrBytes n c ver ix ++ enc ch).length)) ++
      hdrBytes n c ver ix) ++ (enc ch ++ (enc rest ++ (encs L ++ post))))
    (he : ends = endsOf (pos + (4 + (hdrBytes n c ver ix ++ enc ch).length)) (rest :: L) ++ tail) :
    ∃ s', readObjBegin ⟨⟨data, pos⟩, ends⟩ = .ok (some ⟨n, c, ver, ix⟩, s') ∧ R data post tail (ch :: rest :: L) s' := by
  have h1 := reads_hdr n c ver ix hn hc _ data pos _ hp hd
  have hlt : pos < data.length := by
    have := congrArg List.length hd
    simp at this; omega
  refine ⟨⟨⟨data, pos + (4 + (hdrBytes n c ver ix).length)⟩,
    (pos + (BitVec.ofNat 32 (4 + (hdrBytes n c ver ix ++ enc ch).length)).toNat) :: ends⟩, ?_, ?_⟩
  · unfold readObjBegin
    simp only [h1]
    rw [if_neg (by omega)]
  · have hl := congrArg List.length hd
    simp at hl
    refine ⟨rfl, ?_, ?_, ?_, ?_⟩
    · intro d hd'
      simp only [List.mem_cons] at hd'
      rcases hd' with rfl | rfl | h
      · exact hch
      · exact hrest
      · exact hL d h
    · show pos + (4 + (hdrBytes n c ver ix).length) ≤ data.length
      simp at hsz
      omega
    · show data.drop (pos + (4 + (hdrBytes n c ver ix).length)) = _
      rw [← List.drop_drop, hd]
      have e : (encW 4 (BitVec.ofNat 32 (4 + (hdrBytes n c ver ix ++ enc ch).length)) ++
        hdrBytes n c ver ix).length = 4 + (hdrBytes n c ver ix).length := by simp
      rw [← e, List.drop_left]
      simp [encs]
    · show _ :: ends = (_ :: endsOf _ (rest :: L)) ++ tail
      have e : (BitVec.ofNat 32 (4 + (hdrBytes n c ver ix ++ enc ch).length)).toNat
          = 4 + (hdrBytes n c ver ix ++ enc ch).length := by
        rw [BitVec.toNat_ofNat]; exact Nat.mod_eq_of_lt hsz
      rw [e, he, List.cons_append, List.length_append]
      have e2 : pos + (4 + (hdrBytes n c ver ix).length) + (enc ch).length
        = pos + (4 + ((hdrBytes n c ver ix).length + (enc ch).length)) := by omega
      simp only [e2]

/-- The BINARY reader simulates documents. -/
def sim (data post : Bytes) (tail : List Nat) : Sim reader where
  R := R data post tail
  val := by
    rintro n v rest L ⟨⟨d, pos⟩, ends⟩ ⟨rfl, hok, hp, hd, he⟩
    obtain ⟨hv, hr⟩ := okDoc_val (hok _ List.mem_cons_self)
    simp only [encs, List.map_cons, List.flatten_cons, enc, List.append_assoc] at hp hd he
    obtain ⟨h1, h2, h3⟩ := (reads_val v hv).atPos d pos _ hp hd
    refine ⟨⟨⟨d, pos + (encVal v).length⟩, ends⟩, ?_, rfl, ?_, h2, ?_, ?_⟩
    · show lift (readVal v.kind) _ = _
      simp only [lift, h1]
    · intro x hx
      simp only [List.mem_cons] at hx
      rcases hx with rfl | h
      · exact hr
      · exact hok x (by simp [h])
    · show d.drop (pos + (encVal v).length) = _
      rw [h3]; simp [encs]
    · show ends = _
      rw [he]
      cases L with
      | nil => rfl
      | cons e L => simp only [endsOf, enc, List.length_append, Nat.add_assoc]
  obj := by
    rintro n c ver ix ch rest L ⟨⟨d, pos⟩, ends⟩ ⟨rfl, hok, hp, hd, he⟩
    obtain ⟨h1, h2, h3, h4, h5⟩ := okDoc_obj (hok _ List.mem_cons_self)
    simp only [encs, List.map_cons, List.flatten_cons, enc, List.append_assoc] at hp hd he
    refine obj_step n c ver ix h1 h2 ch rest L h5 h3 h4 (fun x hx => hok x (by simp [hx])) d post tail pos ends hp
      ?_ ?_
    · rw [hd]; simp [encs]
    · rw [he]
      cases L with
      | nil => rfl
      | cons e L =>
        simp only [endsOf, enc, List.length_append, encW_length, Nat.add_assoc]
  ref := by
    rintro n ix rest L ⟨⟨d, pos⟩, ends⟩ ⟨rfl, hok, hp, hd, he⟩
    obtain ⟨h1, h2, h4, h5⟩ := okDoc_ref (hok _ List.mem_cons_self)
    simp only [encs, List.map_cons, List.flatten_cons, enc, List.append_assoc] at hp hd he
    refine obj_step n refClass 0 ix h1 h2 .nil rest L (by simpa [enc] using h5) ⟨trivial, by simp [enc]⟩ h4
      (fun x hx => hok x (by simp [hx])) d post tail pos ends hp ?_ ?_
    · rw [hd]; simp [encs, enc]
    · rw [he]
      cases L with
      | nil => rfl
      | cons e L =>
        simp only [endsOf, enc, List.length_append, encW_length, Nat.add_assoc, List.append_nil]
  fin := by
    rintro rest L ⟨⟨d, pos⟩, ends⟩ ⟨rfl, hok, hp, hd, he⟩
    simp only [endsOf, enc, List.length_nil, Nat.add_zero, List.cons_append] at he hd hp
    refine ⟨⟨⟨d, pos⟩, endsOf pos (rest :: L) ++ tail⟩, ?_, rfl, ?_, hp, ?_, rfl⟩
    · show readObjEnd _ = _
      simp only [readObjEnd, he, if_true]
    · intro x hx
      exact hok x (by simp at hx ⊢; right; exact hx)
    · show d.drop pos = _
      rw [hd]; simp [encs, enc]

end Verif.Ar.Bin
