import Verif.Lemmas.ArchiveBinary

/-!
# C10: BINARY archives
-/

namespace Verif.Props

open Verif.Ar

/-- C10: whatever is written to a BINARY archive - entries, nested objects, references, null objects - is read
back by the same sequence of calls, and the reader ends up where the writer stopped. Strings and names must be
free of NUL, CR and LF, enum values below 256, and the document smaller than 4 GiB. `tail` are objects that
were already open. -/
theorem c10_binary_round_trip (d : Doc) (w : Bin.Wr) (hw : w.ws.pos ≤ w.ws.data.length)
    (hn : d.Numbered w.index)
    (hok : d.All (fun _ v => (∀ s, v = .string s → NoEol s) ∧ (∀ e, v = .enum e → e.toNat < 256))
      (fun n c _ _ => NoEol n ∧ NoEol c)) (post : Bytes) (tail : List Nat) :
    ∃ w', Bin.calls w d.calls = some w' ∧ w'.index = d.next w.index ∧ w'.objects = w.objects ∧
      (w'.ws.pos - w.ws.pos < 2 ^ 32 →
        readShape Bin.reader d.shape ⟨⟨w'.ws.data ++ post, w.ws.pos⟩, tail⟩ =
          .ok (d.tree, ⟨⟨w'.ws.data ++ post, w'.ws.pos⟩, tail⟩)) := by
  have hall : d.All (fun _ v => Bin.OkVal v) (fun n c _ _ => NoEol n ∧ NoEol c) := by
    clear hn
    induction d with
    | nil => trivial
    | val n v rest ih =>
      refine ⟨?_, ih hok.2⟩
      have := hok.1
      cases v with
      | string s => exact this.1 s rfl
      | enum e => exact this.2 e rfl
      | _ => trivial
    | obj n c ver ix ch rest ihc ihr => exact ⟨hok.1, ihc hok.2.1, ihr hok.2.2⟩
    | ref n ix rest ih => exact ⟨hok.1, ih hok.2⟩
  have hwr := Bin.write_doc d w hw hn []
  rw [List.append_nil] at hwr
  refine ⟨{ w with ws := w.ws.write (Bin.enc d), index := d.next w.index }, by rw [hwr]; rfl, rfl, rfl, ?_⟩
  intro hsz
  simp only [Ws.write] at hsz
  have hlen : (w.ws.data.take w.ws.pos).length = w.ws.pos := by simp; omega
  generalize hdata : (w.ws.write (Bin.enc d)).data ++ post = data
  have hsplit : data = w.ws.data.take w.ws.pos ++ Bin.enc d ++
      (w.ws.data.drop (w.ws.pos + (Bin.enc d).length) ++ post) := by
    rw [← hdata, Ws.write, splice_le _ _ _ hw]; simp
  generalize hpost : (w.ws.data.drop (w.ws.pos + (Bin.enc d).length) ++ post) = post' at hsplit
  obtain ⟨s', e, h1, _, h3, h4, h5⟩ := (Bin.sim data post' tail).readShape d [] ⟨⟨data, w.ws.pos⟩, tail⟩ (by
    refine ⟨rfl, ?_, ?_, ?_, by simp [Bin.endsOf]⟩
    · intro x hx
      simp only [List.mem_singleton] at hx
      subst hx
      exact ⟨hall, by omega⟩
    · rw [hsplit]; simp; omega
    · show data.drop w.ws.pos = _
      rw [hsplit, List.append_assoc]
      conv => lhs; rw [← hlen]
      rw [hlen]
      have : List.drop w.ws.pos (w.ws.data.take w.ws.pos ++ (Bin.enc d ++ post')) = Bin.enc d ++ post' := by
        conv => lhs; arg 1; rw [← hlen]
        rw [List.drop_left]
      rw [this]; simp [Bin.encs])
  rw [e]
  obtain ⟨⟨sd, sp⟩, se⟩ := s'
  simp only at h1 h3 h4 h5
  subst h1
  have hpos : sp = w.ws.pos + (Bin.enc d).length := by
    have h4l := congrArg List.length h4
    have hdl := congrArg List.length hsplit
    simp [Bin.encs, Bin.enc] at h4l hdl
    omega
  simp only [Bin.endsOf, List.nil_append] at h5
  subst h5
  simp only [Ws.write, hpos]

/-- A document with nested, null and shared objects. -/
def demoDoc : Doc :=
  .obj b!"%" b!"oCWorld:zCWorld" 64513 0
    (.val b!"name" (.string b!"Xardas") (.val b!"mode" (.enum 200)
      (.obj b!"child" b!"zCVob" 1 1 (.val b!"flag" (.bool true) (.val b!"blob" (.raw [1, 0, 10]) .nil))
        (.ref b!"again" 1 (.obj b!"none" b!"%" 0 0 .nil (.val b!"pos" (.vec3 ⟨1, 2, 3⟩) .nil))))))
    .nil

example : demoDoc.Numbered 0 := by decide
example : demoDoc.All (fun _ v => Bin.OkVal v) (fun n c _ _ => NoEol n ∧ NoEol c) := by decide
example : ((Bin.calls ⟨⟨[], 0⟩, 0, []⟩ demoDoc.calls).map fun w =>
    (readShape Bin.reader demoDoc.shape ⟨⟨w.ws.data, 0⟩, []⟩).map (·.1)) = some (.ok demoDoc.tree) := by
  decide +kernel

/-- C10: a string with a line break is cut off, and its rest is taken for the entries that follow. -/
theorem c10_line_break_violation :
    ∃ d : Doc, d.Numbered 0 ∧
      ((Bin.calls ⟨⟨[], 0⟩, 0, []⟩ d.calls).map fun w =>
        (readShape Bin.reader d.shape ⟨⟨w.ws.data, 0⟩, []⟩).map (·.1)) =
      some (.ok (.val (.string b!"a") (.val (.byte 98) .nil))) ∧
      d.tree = .val (.string b!"a\nb") (.val (.byte 7) .nil) :=
  ⟨.val b!"s" (.string b!"a\nb") (.val b!"i" (.byte 7) .nil), by decide, by decide +kernel, by decide⟩

/-- C10: an enum value of 256 or more is read back modulo 256. -/
theorem c10_enum_truncated (name : Bytes) (v : BitVec 32) (w : Bin.Wr) (hw : w.ws.pos ≤ w.ws.data.length)
    (post : Bytes) :
    ∃ w', Bin.call w (.val name (.enum v)) = some w' ∧
      Bin.reader.val .enum ⟨⟨w'.ws.data ++ post, w.ws.pos⟩, []⟩ =
        .ok (.enum (BitVec.ofNat 32 (v.toNat % 256)), ⟨⟨w'.ws.data ++ post, w'.ws.pos⟩, []⟩) := by
  refine ⟨_, rfl, ?_⟩
  have h := ((Reads.u8 (v.truncate 8)).bind_pure (f := fun x => Val.enum (x.zeroExtend 32))).of_write w.ws hw post
  have e : Bin.writeVal (.enum v) w.ws = w.ws.write (encW 1 (v.truncate 8)) := Emits.u8 _ w.ws hw
  have ev : (v.truncate 8).zeroExtend 32 = BitVec.ofNat 32 (v.toNat % 256) := by
    apply BitVec.eq_of_toNat_eq; simp
  show Bin.lift (Bin.readVal .enum) _ = _
  simp only [Bin.lift, e]
  have h2 : Bin.readVal .enum ⟨(w.ws.write (encW 1 (v.truncate 8))).data ++ post, w.ws.pos⟩ = _ := h
  rw [h2, ev]

/-- C10: an object can be skipped in front of it with `skip_object(false)`, and after `read_object_begin`, from
wherever its reader has got to, with `skip_object(true)`. Either way the reader stops where the entries behind the
object start. -/
theorem c10_binary_skip (n c : Bytes) (ver : BitVec 16) (ix : BitVec 32) (ch rest : Doc) (w : Bin.Wr)
    (hw : w.ws.pos ≤ w.ws.data.length) (hnum : (Doc.obj n c ver ix ch rest).Numbered w.index)
    (hok : Bin.OkDoc (.obj n c ver ix ch rest)) (post : Bytes) (tail : List Nat) :
    ∃ w1 w2, Bin.calls w (Doc.obj n c ver ix ch .nil).calls = some w1 ∧ Bin.calls w1 rest.calls = some w2 ∧
      Bin.reader.skipObj false ⟨⟨w2.ws.data ++ post, w.ws.pos⟩, tail⟩ =
        .ok ((), ⟨⟨w2.ws.data ++ post, w1.ws.pos⟩, tail⟩) ∧
      ∃ s1, Bin.reader.objBegin ⟨⟨w2.ws.data ++ post, w.ws.pos⟩, tail⟩ = .ok (some ⟨n, c, ver, ix⟩, s1) ∧
        ∀ p, Bin.reader.skipObj true ⟨⟨w2.ws.data ++ post, p⟩, s1.ends⟩ =
          .ok ((), ⟨⟨w2.ws.data ++ post, w1.ws.pos⟩, tail⟩) := by
  obtain ⟨h1, h2, h3, h4, h5⟩ := Bin.okDoc_obj hok
  obtain ⟨hn1, hn2, hn3⟩ := hnum
  have e1 := Bin.write_doc (.obj n c ver ix ch .nil) w hw ⟨hn1, hn2, trivial⟩ []
  rw [List.append_nil] at e1
  have e2 := Bin.write_doc rest ⟨w.ws.write (Bin.enc (.obj n c ver ix ch .nil)),
    (Doc.obj n c ver ix ch .nil).next w.index, w.objects⟩ (Ws.write_le _ _ hw) hn3 []
  rw [List.append_nil] at e2
  refine ⟨_, _, e1.trans rfl, e2.trans rfl, ?_⟩
  simp only
  rw [Ws.write_write _ _ _ hw]
  generalize hdata : (w.ws.write (Bin.enc (.obj n c ver ix ch .nil) ++ Bin.enc rest)).data ++ post = data
  generalize hbody : Bin.hdrBytes n c ver ix = hb at h5
  have hend : (w.ws.write (Bin.enc (.obj n c ver ix ch .nil))).pos = w.ws.pos + (4 + (hb ++ Bin.enc ch).length) := by
    simp [Ws.write, Bin.enc, hbody]
  have hdrop : data.drop w.ws.pos = (encW 4 (BitVec.ofNat 32 (4 + (hb ++ Bin.enc ch).length)) ++ hb) ++
      (Bin.enc ch ++ (Bin.enc rest ++ (w.ws.data.drop (w.ws.pos +
        (Bin.enc (.obj n c ver ix ch .nil) ++ Bin.enc rest).length) ++ post))) := by
    have hlen : (w.ws.data.take w.ws.pos).length = w.ws.pos := by simp; omega
    rw [← hdata, Ws.write, splice_le _ _ _ hw]
    simp only [List.append_assoc]
    conv => lhs; arg 1; rw [← hlen]
    rw [List.drop_left]
    simp [Bin.enc, hbody]
  have hpl : w.ws.pos ≤ data.length := by
    have := congrArg List.length hdrop
    simp at this; omega
  have hel : w.ws.pos + (4 + (hb ++ Bin.enc ch).length) ≤ data.length := by
    have := congrArg List.length hdrop
    simp at this ⊢; omega
  have hsz : (BitVec.ofNat 32 (4 + (hb ++ Bin.enc ch).length)).toNat = 4 + (hb ++ Bin.enc ch).length := by
    rw [BitVec.toNat_ofNat]; exact Nat.mod_eq_of_lt h5
  rw [hend]
  constructor
  · have hu := (Reads.u32 (BitVec.ofNat 32 (4 + (hb ++ Bin.enc ch).length))).atPos data w.ws.pos _ hpl
      (by rw [hdrop, List.append_assoc])
    simp only [encW_length] at hu
    have hs4 : (BitVec.ofNat 32 (4 + (hb ++ Bin.enc ch).length) - 4).toNat = (hb ++ Bin.enc ch).length := by
      rw [BitVec.toNat_sub, hsz]
      have : (4 : BitVec 32).toNat = 4 := rfl
      rw [this]
      omega
    have hskip : Bin.skipNext ⟨data, w.ws.pos⟩ = .ok ((), ⟨data, w.ws.pos + (4 + (hb ++ Bin.enc ch).length)⟩) := by
      unfold Bin.skipNext
      rw [Rd.bind_ok hu.1, hs4]
      exact Rd.seek_ok (by simp only [Rd.seekTarget]; omega) hel
    show Bin.lift Bin.skipNext _ = _
    simp only [Bin.lift, hskip]
  · subst hbody
    have hh := Bin.reads_hdr n c ver ix h1 h2 _ data w.ws.pos _ hpl hdrop
    refine ⟨⟨⟨data, w.ws.pos + (4 + (Bin.hdrBytes n c ver ix).length)⟩,
      (w.ws.pos + (BitVec.ofNat 32 (4 + (Bin.hdrBytes n c ver ix ++ Bin.enc ch).length)).toNat) :: tail⟩, ?_, ?_⟩
    · show Bin.readObjBegin _ = _
      unfold Bin.readObjBegin
      simp only [hh]
      rw [if_neg (by omega)]
    · intro p
      simp only [Bin.reader, if_true, Bin.skipCurrent, Bin.lift]
      rw [hsz, Rd.seek_beg hel]

example : Bin.OkDoc demoDoc := by decide +kernel

/-- Opening an object, reading one entry and skipping the rest. -/
example : (do
    let w ← Bin.calls ⟨⟨[], 0⟩, 0, []⟩ demoDoc.calls
    let s : Bin.Rr := ⟨⟨w.ws.data, 0⟩, []⟩
    return (do
      let (_, s) ← Bin.reader.objBegin s
      let (_, s) ← Bin.reader.val .string s
      let (_, s) ← Bin.reader.skipObj true s
      return decide (s.rs.pos = w.ws.pos))) = some (.ok true) := by decide +kernel

end Verif.Props
