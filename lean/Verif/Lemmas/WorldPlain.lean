import Verif.Lemmas.World
import Verif.Lemmas.Level
import Verif.Props.ArchiveAscii
import Verif.Props.VobTree

/-! # Lemmas about worlds that are not part of a saved game -/

namespace Verif.World

open Ar VobTree
open Obj (Ctx Game)

variable {σ : Type}

/-- A reader in front of an object whose first child is a section with raw bytes. Behind the section is `P`. -/
structure RawFirst (r : RawReader σ) (name k bytes : Bytes) (ix : BitVec 32) (P : σ → Prop) (s : σ) : Prop where
  steps : ∃ s1 s2 s3 s4, r.objBegin s = .ok (some ⟨name, className, versionId, ix⟩, s1) ∧ r.objEnd s1 = .ok (false, s1) ∧
    r.objBegin s1 = .ok (some ⟨b!"MeshAndBsp", k, 0, 0⟩, s2) ∧
    (∀ (α : Type) (p : Rd α) x, Reads p bytes x → r.stream p s2 = .ok (x, s3)) ∧
    (∀ (α : Type) (p : Rd α) x a b, bytes = a ++ b → Reads p a x → ∃ s', r.stream p s2 = .ok (x, s')) ∧
    r.objEnd s3 = .ok (true, s4) ∧ P s4

theorem load_plain {r : RawReader σ} {S : Schema} {c : Ctx} (hs : c.save = false) (wide : Bool) (n : Nat) (x : Load σ) :
    load r S c wide n x = loadSections r S wide n n x := by
  unfold load
  simp only [bind, Except.bind, hs, Bool.false_eq_true, if_false]
  cases loadSections r S wide n n x <;> rfl

/-- Reading the object. -/
theorem plain_read {c : Ctx} {kids : Kids} {f : Forest} {w : World} {H : GHeap} {S : Schema} (hs : c.save = false)
    {r : RawReader σ} (M : SimMore r.toReader) {level level' : Level} {d : Doc} {name k bytes : Bytes} {ix : BitVec 32} {s : σ}
    (h : ∀ (wide : Bool) (level : Level) e L s, L ≠ [] → M.R (d.app e :: L) s →
        ∃ N s2 g' φ w', (∀ n ≥ N, load r S { c with game := .g1 } wide n ⟨s, ⟨[], []⟩, [], {}, level⟩ =
            .ok ⟨s2, g', rootPushes φ f, w', level⟩) ∧ M.R (e :: L) s2 ∧ w'.spawnFlags = 0 ∧
          IsCopy H kids f.nodes φ (w.part c.save) w' g'.heap (rootPushes φ f) ∧
          (c.save = false → ∀ n ≥ N, ∀ m ≥ 5, loadSections r S wide n m ⟨s, ⟨[], []⟩, [], {}, level⟩ =
            .ok ⟨s2, g', rootPushes φ f, w', level⟩))
    (hlev : ∀ n ≥ 8, Reads (Level.load false n level) bytes level') (hR : RawFirst r name k bytes ix (M.R [d, .nil]) s) :
    ∃ N s' g' φ K w', (∀ n ≥ N, loadObject r S c false n ⟨s, ⟨[], []⟩, [], {}, level⟩ = .ok ⟨s', g', K, w', level'⟩) ∧ M.R [.nil] s' ∧
      w'.spawnFlags = 0 ∧ IsCopy H kids f.nodes φ w.plain w' g'.heap K := by
  obtain ⟨s1, s2, s3, s4, e0, e1, e2, e3, -, e5, e6⟩ := hR.steps
  obtain ⟨N, s5, g', φ, w', -, c2, c3, c4, c5⟩ := h false level' .nil [.nil] s4 (by simp) (by rw [Doc.app_nil]; exact e6)
  obtain ⟨s6, e7, r6⟩ := M.fin _ _ _ c2
  refine ⟨N + 8, s6, g', φ, rootPushes φ f, w', fun n hn => ?_, r6, c3, by simpa [hs, part] using c4⟩
  obtain ⟨m, rfl⟩ : ∃ m, n = m + 1 := ⟨n - 1, by omega⟩
  have hsec : loadSection r S false (m + 1) b!"MeshAndBsp" ⟨s2, ⟨[], []⟩, [], {}, level⟩ = .ok ⟨s3, ⟨[], []⟩, [], {}, level'⟩ := by
    unfold loadSection
    rw [if_pos rfl]
    simp only [e3 _ _ _ (hlev (m + 1) (by omega)), bind, Except.bind]
    rfl
  unfold loadObject
  simp only [e0, bind, Except.bind, if_true]
  rw [load_plain hs, sec_step (x := ⟨s1, ⟨[], []⟩, [], {}, level⟩) e1 e2 (by decide) hsec e5, c5 hs _ (by omega) _ (by omega)]
  simp only [endOrSkip_true e7]
  rfl

/-- Determining the version. -/
theorem plain_version {r : RawReader σ} {name k bytes : Bytes} {ix : BitVec 32} {P : σ → Prop} {s : σ} {v : BitVec 32}
    (hv : bytes.take 4 = encW 4 v) (hR : RawFirst r name k bytes ix P s) (n : Nat) (hn : 1 ≤ n) :
    determineVersion r false n s = .ok (gameOf v) := by
  obtain ⟨s1, s2, s3, s4, e0, e1, e2, -, e4, -, -⟩ := hR.steps
  obtain ⟨m, rfl⟩ : ∃ m, n = m + 1 := ⟨n - 1, by omega⟩
  obtain ⟨s', e⟩ := e4 _ Rd.u32 v (bytes.take 4) (bytes.drop 4) (List.take_append_drop ..).symm (by rw [hv]; exact Reads.u32 v)
  unfold determineVersion
  simp only [Bool.false_eq_true, if_false, e0, bind, Except.bind]
  unfold findVersion
  simp only [e1, e2, bind, Except.bind, Bool.false_eq_true, if_false, if_true, e]
  rfl

theorem savePlain_ok {ω : Type} {W : Writer ω} {c : Ctx} {e : MeshEnv} {H : GHeap} {kids : Kids} {fuel : Nat} {name : Bytes} {l : Level}
    {w : World} {g g' : GWr} {x x1 x2 x3 x4 x5 x6 : ω} {cs : List Call} (h1 : W.call x (.begin name className versionId) = .ok x1)
    (h2 : W.call x1 (.begin b!"MeshAndBsp" [] 0) = .ok x2) (h3 : W.stream (l.save c.game e) x2 = .ok x3) (h4 : W.call x3 .finish = .ok x4)
    (hw : w.save c H kids fuel ⟨g.index + 1, g.cache⟩ = .ok (cs, g')) (h5 : cs.foldlM W.call x4 = .ok x5) (h6 : W.call x5 .finish = .ok x6) :
    savePlain W c e H kids fuel name l w g x = .ok (x6, g') := by
  unfold savePlain
  simp only [h1, h2, h3, h4, hw, h5, h6, bind, Except.bind, pure, Except.pure]

theorem binWriter_call {a b : Bin.Wr} {c : Call} (h : Bin.call a c = some b) : binWriter.call a c = .ok b := by
  simp only [binWriter, h]

theorem foldlM_bin (cs : List Call) : ∀ (a a' : Bin.Wr), Bin.calls a cs = some a' → cs.foldlM binWriter.call a = .ok a' := by
  induction cs with
  | nil => intro a a' h; cases h; rfl
  | cons x cs ih =>
    intro a a' h
    simp only [Bin.calls, List.foldlM_cons, Option.bind_eq_bind, Option.bind_eq_some_iff] at h
    obtain ⟨b, h1, h2⟩ := h
    rw [List.foldlM_cons]
    rw [binWriter_call h1]
    exact ih b a' h2

theorem foldlM_pure {ω : Type} (f : ω → Call → ω) (cs : List Call) : ∀ a, cs.foldlM (fun a c => (.ok (f a c) : Except Fail ω)) a =
    .ok (cs.foldl f a) := by
  induction cs with
  | nil => intro a; rfl
  | cons x cs ih =>
    intro a
    rw [List.foldlM_cons, List.foldl_cons]
    exact ih _

/-! ## BINARY -/

/-- The document with the section of the mesh. -/
def binPlain (name : Bytes) (ix : BitVec 32) (bytes : Bytes) (d : Doc) : Doc :=
  objDoc name ix (.obj b!"MeshAndBsp" [] 0 0 (.val [] (.raw bytes) .nil) d)

theorem bin_first (name : Bytes) (ix : BitVec 32) (bytes : Bytes) (d : Doc) (data post : Bytes) (tail : List Nat) (s : Bin.Rr)
    (h : Bin.R data post tail [binPlain name ix bytes d] s) :
    RawFirst binReader name [] bytes ix ((Bin.simMore data post tail).R [d, .nil]) s := by
  obtain ⟨s1, e1, r1⟩ := (Bin.simMore data post tail).obj _ _ _ _ _ _ _ _ h
  have e2 := (Bin.simMore data post tail).more _ _ _ _ _ _ _ _ (by simp) r1
  obtain ⟨⟨⟨sd, sp⟩, se⟩, e3, r3⟩ := (Bin.simMore data post tail).obj _ _ _ _ _ _ _ _ r1
  obtain ⟨q1, q2, q3, q4, q5⟩ := r3
  simp only at q1 q3 q4 q5
  subst q1
  simp only [Bin.encs, List.map_cons, List.map_nil, List.flatten_cons, List.flatten_nil, Bin.enc, Bin.encVal, List.append_nil,
    List.append_assoc] at q4
  have hl := congrArg List.length q4
  simp only [List.length_append, List.length_drop] at hl
  have r4 : Bin.R sd post tail [.nil, d, .nil] ⟨⟨sd, sp + bytes.length⟩, se⟩ := by
    refine ⟨rfl, ?_, by show sp + bytes.length ≤ _; omega, ?_, ?_⟩
    · intro x hx
      simp only [List.mem_cons, List.not_mem_nil, or_false] at hx
      rcases hx with rfl | rfl | rfl
      · exact ⟨trivial, by simp [Bin.enc]⟩
      · exact q2 _ (by simp)
      · exact ⟨trivial, by simp [Bin.enc]⟩
    · show sd.drop (sp + bytes.length) = _
      rw [← List.drop_drop, q4]
      simp [Bin.encs, Bin.enc]
    · rw [q5]
      simp [Bin.endsOf, Bin.enc, Bin.encVal]
  obtain ⟨s5, e5, r5⟩ := (Bin.simMore sd post tail).fin _ _ _ r4
  refine ⟨s1, ⟨⟨sd, sp⟩, se⟩, ⟨⟨sd, sp + bytes.length⟩, se⟩, s5, e1, e2, e3, ?_, ?_, e5, r5⟩
  · intro α p x hp
    show Bin.lift p _ = _
    unfold Bin.lift
    rw [show p (⟨⟨sd, sp⟩, se⟩ : Bin.Rr).rs = _ from (hp.atPos sd sp _ q3 q4).1]
  · rintro α p x a b rfl hp
    rw [List.append_assoc] at q4
    refine ⟨⟨⟨sd, sp + a.length⟩, se⟩, ?_⟩
    show Bin.lift p _ = _
    unfold Bin.lift
    rw [show p (⟨⟨sd, sp⟩, se⟩ : Bin.Rr).rs = _ from (hp.atPos sd sp _ q3 q4).1]

theorem bin_write (name : Bytes) (bytes : Bytes) (d : Doc) (a : Bin.Wr) (ha : a.ws.pos ≤ a.ws.data.length) (hd : d.Numbered (a.index + 1))
    (hpos : a.ws.pos + name.length + 200 < 2 ^ 32) (op : Ws → Except Fail Ws)
    (hop : ∀ w : Ws, w.pos ≤ w.data.length → w.pos + 8 < 2 ^ 32 → op w = .ok (w.write bytes)) :
    ∃ x1 x2 x3 x4 x5, binWriter.call a (.begin name className versionId) = .ok x1 ∧
      binWriter.call x1 (.begin b!"MeshAndBsp" [] 0) = .ok x2 ∧ binWriter.stream op x2 = .ok x3 ∧ binWriter.call x3 .finish = .ok x4 ∧
      d.calls.foldlM binWriter.call x4 = .ok x5 ∧ binWriter.call x5 .finish =
        .ok { a with ws := a.ws.write (Bin.enc (binPlain name a.index bytes d)), index := d.next (a.index + 1) } := by
  have hnum : (binPlain name a.index bytes d).Numbered a.index := ⟨rfl, ⟨rfl, trivial, hd⟩, trivial⟩
  have hwd := Bin.write_doc _ a ha hnum []
  rw [List.append_nil] at hwd
  have hb : ∀ (x : Bin.Wr) n c v, Bin.call x (.begin n c v) = some (Bin.objBegin n c v x) := fun _ _ _ _ => rfl
  have hle : ∀ (x : Bin.Wr) n c v, x.ws.pos ≤ x.ws.data.length → (Bin.objBegin n c v x).ws.pos ≤ (Bin.objBegin n c v x).ws.data.length ∧
      (Bin.objBegin n c v x).ws.pos = x.ws.pos + n.length + c.length + 12 := by
    intro x n c v hx
    have h := ((((Emits.u32 (BitVec.ofNat 32 (6 + n.length + c.length + 2))).comp (Emits.u16 v)).comp
      (Emits.u32 (if emptyClass c then 0 else x.index))).comp (Emits.string0 n)).comp (Emits.string0 c) x.ws hx
    have e : (Bin.objBegin n c v x).ws = _ := h
    rw [e]
    refine ⟨Ws.write_le _ _ hx, ?_⟩
    simp [Ws.write]
    omega
  obtain ⟨l1, p1⟩ := hle a name className versionId ha
  obtain ⟨l2, p2⟩ := hle _ b!"MeshAndBsp" [] 0 l1
  generalize hx1 : Bin.objBegin name className versionId a = x1 at *
  generalize hx2 : Bin.objBegin b!"MeshAndBsp" [] 0 x1 = x2 at *
  have h3 := hop x2.ws l2 (by
    have : className.length = 15 := by decide
    have : (b!"MeshAndBsp").length = 10 := by decide
    simp only [List.length_nil] at p2
    omega)
  have hcalls : (binPlain name a.index bytes d).calls = .begin name className versionId :: .begin b!"MeshAndBsp" [] 0 ::
      .val [] (.raw bytes) :: .finish :: (d.calls ++ [.finish]) := by simp [binPlain, objDoc, Doc.calls]
  rw [hcalls] at hwd
  have hv : Bin.call x2 (.val [] (.raw bytes)) = some { x2 with ws := x2.ws.write bytes } := rfl
  simp only [Bin.calls, List.foldlM_cons, List.foldlM_append, List.foldlM_nil, Option.bind_eq_bind, hb, hx1, hx2, Option.bind_some, hv] at hwd
  obtain ⟨x4, e4, hwd⟩ := Option.bind_eq_some_iff.1 (hwd.trans rfl)
  obtain ⟨x5, e5, hwd⟩ := Option.bind_eq_some_iff.1 hwd
  obtain ⟨x6, e6, hwd⟩ := Option.bind_eq_some_iff.1 hwd
  simp only [Option.pure_def, Option.some.injEq] at hwd
  subst hwd
  refine ⟨x1, x2, { x2 with ws := x2.ws.write bytes }, x4, x5, ?_, ?_, ?_, ?_, foldlM_bin _ _ _ e5, ?_⟩
  · exact binWriter_call (by rw [hb, hx1])
  · exact binWriter_call (by rw [hb, hx2])
  · show (do return { x2 with ws := ← op x2.ws }) = _
    rw [h3]
    rfl
  · exact binWriter_call e4
  · exact binWriter_call e6

/-! ## BINSAFE -/

/-- The bytes of a world with the section of the mesh. -/
def bsPlain (name : Bytes) (ix : BitVec 32) (bytes : Bytes) (ks : Bs.Keys) (d : Doc) : Bytes :=
  Bs.mark (Bs.hdrText name className versionId ix) ++ (Bs.mark (Bs.hdrText b!"MeshAndBsp" nullClass 0 0) ++ (bytes ++ (Bs.mark b!"[]" ++
    (Bs.enc ks d ++ Bs.mark b!"[]"))))

theorem bs_first (name : Bytes) (hname : Bs.OkName name) (ix : BitVec 32) (bytes : Bytes) (ks : Bs.Keys) (d : Doc) (hd : Bs.OkDoc d)
    (data post : Bytes) (pos : Nat) (hp : pos ≤ data.length) (h : data.drop pos = bsPlain name ix bytes ks d ++ post) :
    RawFirst bsReader name nullClass bytes ix ((Bs.simMore data post).R [d, .nil]) ⟨data, pos⟩ := by
  simp only [bsPlain, List.append_assoc] at h
  obtain ⟨e1, p1, h1⟩ := Bs.obj_step name className versionId ix hname (by decide) data pos _ hp h
  have e2 := Bs.end_hdr _ (Bs.hdrText_length b!"MeshAndBsp" nullClass 0 0 (by decide) (by decide))
    (Bs.hdr_ne_end b!"MeshAndBsp" nullClass 0 0 (by decide) (by decide)) _ _ _ p1 h1
  obtain ⟨e3, p3, h3⟩ := Bs.obj_step b!"MeshAndBsp" nullClass 0 0 (by decide) (by decide) data _ _ p1 h1
  generalize pos + (Bs.mark (Bs.hdrText name className versionId ix)).length = q1 at *
  generalize q1 + (Bs.mark (Bs.hdrText b!"MeshAndBsp" nullClass 0 0)).length = q2 at *
  have p4 : q2 + bytes.length ≤ data.length := by
    have := congrArg List.length h3
    simp only [List.length_drop, List.length_append] at this
    omega
  have h4 : data.drop (q2 + bytes.length) = Bs.mark b!"[]" ++ (Bs.enc ks d ++ (Bs.mark b!"[]" ++ post)) := by
    rw [← List.drop_drop, h3, List.drop_left]
  obtain ⟨e5, p5, h5⟩ := Bs.reads_end.atPos data _ _ p4 h4
  refine ⟨⟨data, q1⟩, ⟨data, q2⟩, ⟨data, q2 + bytes.length⟩, _, e1, e2, e3, ?_, ?_, e5, rfl, ?_, p5,
    Bs.enc ks d ++ (Bs.mark b!"[]" ++ []), by rw [h5]; simp, ks, [], by simp, [], rfl⟩
  · intro α p x hx
    exact (hx.atPos data q2 _ p3 h3).1
  · rintro α p x a b rfl hx
    rw [List.append_assoc] at h3
    exact ⟨_, (hx.atPos data q2 _ p3 h3).1⟩
  · intro x hx
    simp only [List.mem_cons, List.not_mem_nil, or_false] at hx
    rcases hx with rfl | rfl
    · exact hd
    · trivial

theorem bs_write (name : Bytes) (bytes : Bytes) (d : Doc) (a : Bs.Wr) (ha : a.ws.pos ≤ a.ws.data.length) (hd : d.Numbered (a.index + 1))
    (hname : Bs.OkName name) (hpos : a.ws.pos + 2 ^ 17 < 2 ^ 32) (op : Ws → Except Fail Ws)
    (hop : ∀ w : Ws, w.pos ≤ w.data.length → w.pos + 8 < 2 ^ 32 → op w = .ok (w.write bytes)) :
    ∃ x1 x2 x3 x4 x5, bsWriter.call a (.begin name className versionId) = .ok x1 ∧
      bsWriter.call x1 (.begin b!"MeshAndBsp" [] 0) = .ok x2 ∧ bsWriter.stream op x2 = .ok x3 ∧ bsWriter.call x3 .finish = .ok x4 ∧
      d.calls.foldl Bs.call x4 = x5 ∧ bsWriter.call x5 .finish =
        .ok ⟨a.ws.write (bsPlain name a.index bytes a.keys d), d.next (a.index + 1), Bs.keysAfter a.keys d⟩ := by
  have b1 := Bs.emits_mark (Bs.hdrText name className versionId a.index) a.ws ha
  generalize ht1 : Bs.hdrText name className versionId a.index = t1 at b1
  have l1 := Ws.write_le a.ws (Bs.mark t1) ha
  have b2 := Bs.emits_mark (Bs.hdrText b!"MeshAndBsp" nullClass 0 0) _ l1
  rw [Ws.write_write _ _ _ ha] at b2
  have hlen : t1.length < 2 ^ 16 := by
    rw [← ht1]
    exact Bs.hdrText_length _ _ _ _ hname (by decide)
  have h3 := hop (a.ws.write (Bs.mark t1 ++ Bs.mark (Bs.hdrText b!"MeshAndBsp" nullClass 0 0))) (Ws.write_le _ _ ha) (by
    have : (Bs.hdrText b!"MeshAndBsp" nullClass 0 0).length = 18 := by decide
    simp only [Ws.write, List.length_append, Bs.mark, encW_length, this]
    omega)
  rw [Ws.write_write _ _ _ ha] at h3
  have b4 := Bs.emits_mark b!"[]" (a.ws.write (Bs.mark t1 ++ Bs.mark (Bs.hdrText b!"MeshAndBsp" nullClass 0 0) ++ bytes)) (Ws.write_le _ _ ha)
  rw [Ws.write_write _ _ _ ha] at b4
  have b5 := Bs.write_doc' d ⟨a.ws.write (Bs.mark t1 ++ Bs.mark (Bs.hdrText b!"MeshAndBsp" nullClass 0 0) ++ bytes ++ Bs.mark b!"[]"), a.index + 1,
    a.keys⟩ (Ws.write_le _ _ ha) hd
  dsimp only at b5
  rw [Ws.write_write _ _ _ ha] at b5
  have b6 := Bs.emits_mark b!"[]" _ (Ws.write_le a.ws (Bs.mark t1 ++ Bs.mark (Bs.hdrText b!"MeshAndBsp" nullClass 0 0) ++ bytes ++ Bs.mark b!"[]" ++
    Bs.enc a.keys d) ha)
  rw [Ws.write_write _ _ _ ha] at b6
  have c1 : Bs.call a (.begin name className versionId) = ⟨a.ws.write (Bs.mark t1), a.index + 1, a.keys⟩ := by
    show Bs.objBegin _ _ _ _ = _
    unfold Bs.objBegin
    rw [if_neg (by decide), if_neg (by decide), if_neg (by decide)]
    simp only [ht1]
    rw [b1]
  have c2 : Bs.call ⟨a.ws.write (Bs.mark t1), a.index + 1, a.keys⟩ (.begin b!"MeshAndBsp" [] 0) =
      ⟨a.ws.write (Bs.mark t1 ++ Bs.mark (Bs.hdrText b!"MeshAndBsp" nullClass 0 0)), a.index + 1, a.keys⟩ := by
    show Bs.objBegin _ _ _ _ = _
    unfold Bs.objBegin
    rw [if_pos (by decide), if_pos (by decide), if_pos (by decide)]
    dsimp only
    rw [b2]
  refine ⟨_, _, ⟨a.ws.write (Bs.mark t1 ++ Bs.mark (Bs.hdrText b!"MeshAndBsp" nullClass 0 0) ++ bytes), a.index + 1, a.keys⟩,
    ⟨a.ws.write (Bs.mark t1 ++ Bs.mark (Bs.hdrText b!"MeshAndBsp" nullClass 0 0) ++ bytes ++ Bs.mark b!"[]"), a.index + 1, a.keys⟩, _,
    congrArg Except.ok c1, congrArg Except.ok c2, ?_, ?_, b5, ?_⟩
  · show (do return { (⟨_, a.index + 1, a.keys⟩ : Bs.Wr) with ws := ← op _ }) = _
    rw [h3]
    rfl
  · show Except.ok (Bs.objEnd _) = _
    unfold Bs.objEnd
    dsimp only
    rw [b4]
  · show Except.ok (Bs.objEnd _) = _
    unfold Bs.objEnd
    dsimp only
    rw [b6]
    simp only [bsPlain, ht1, List.append_assoc]

/-! ## ASCII -/

/-- The text of a world with the section of the mesh. -/
def ascPlain (junk name : Bytes) (ix : BitVec 32) (bytes : Bytes) (d : Doc) : Bytes :=
  Asc.text [(0, Asc.hdrLine name className versionId ix), (1, Asc.hdrLine b!"MeshAndBsp" nullClass 0 0)] ++ (bytes ++
    (Asc.text [(1, b!"[]")] ++ (Asc.text (Asc.lines junk 1 d) ++ Asc.text [(0, b!"[]")])))

/-- The end of an object behind its indentation. -/
theorem asc_end (ind ws : Bytes) (hi : ∀ x ∈ ind, x = 9) (hws : ∀ x ∈ ws, x ∈ Rd.lineSpaces) :
    ReadsIf Asc.readObjEnd (ind ++ (b!"[]" ++ 10 :: ws)) true Solid := by
  intro pre post hq
  have hl := ReadsIf.line (ind ++ b!"[]") ws (by
    intro c hc
    rcases List.mem_append.1 hc with hc | hc
    · rw [hi c hc]; decide
    · rcases (by simpa using hc : c = 91 ∨ c = 93) with rfl | rfl <;> decide) hws pre post hq
  rw [← List.append_assoc ind]
  generalize hd : pre ++ ((ind ++ b!"[]") ++ 10 :: ws) ++ post = data at hl ⊢
  have heof : Rd.eof ⟨data, pre.length⟩ = .ok (false, ⟨data, pre.length⟩) := by
    simp only [Rd.eof]
    have : pre.length < data.length := by rw [← hd]; simp
    simp [this]
  unfold Asc.readObjEnd
  rw [Rd.bind_ok heof]
  simp only [Bool.false_eq_true, if_false]
  rw [Rd.bind_ok (p := Rd.tell) (show Rd.tell ⟨data, pre.length⟩ = .ok (pre.length, ⟨data, pre.length⟩) from rfl),
    Rd.bind_ok hl]
  have : (ind ++ b!"[]").dropWhile Verif.isSpace = b!"[]" := by
    clear hd hl
    induction ind with
    | nil => decide
    | cons c ind ih =>
      have := hi c (by simp)
      subst this
      rw [List.cons_append, List.dropWhile_cons_of_pos (by decide)]
      exact ih fun x hx => hi x (by simp [hx])
  rw [this, if_neg (by decide)]
  rfl

theorem asc_first (junk name : Bytes) (hname : Asc.OkName name) (ix : BitVec 32) (bytes : Bytes) (d : Doc) (hd : Asc.OkDoc d)
    (hb : ∃ x y t, bytes = x :: y :: t ∧ x ∉ Rd.lineSpaces) (data post : Bytes) (hpost : Solid post) (pos : Nat) (hp : pos ≤ data.length)
    (h : data.drop pos = ascPlain junk name ix bytes d ++ post) :
    RawFirst ascReader name nullClass bytes ix ((Asc.simMore junk data post hpost).R [d, .nil]) ⟨data, pos⟩ := by
  have h1 : data.drop pos = (Asc.hdrLine name className versionId ix ++ 10 :: [9]) ++ ((Asc.hdrLine b!"MeshAndBsp" nullClass 0 0 ++ 10 :: []) ++
      (bytes ++ (Asc.text [(1, b!"[]")] ++ (Asc.text (Asc.lines junk 1 d ++ [(0, b!"[]")]) ++ post)))) := by
    rw [h, Asc.text_append]
    simp [ascPlain, Asc.text]
  have hsb : ∀ t, Solid (bytes ++ t) := by
    intro t
    obtain ⟨x, y, t', rfl, hx⟩ := hb
    exact ⟨by rintro c r e; cases e; exact hx, by simp⟩
  have hs2 : ∀ t, Solid ((Asc.hdrLine b!"MeshAndBsp" nullClass 0 0 ++ 10 :: []) ++ t) := fun t => solid_cons 91 _ (by decide) (by decide)
  obtain ⟨e1, p1, q1⟩ := (Asc.reads_begin name className versionId ix hname (by decide) [9] (by decide)).atPos data pos _ hp h1 (hs2 _)
  have e2 := Asc.end_hdr b!"MeshAndBsp" nullClass 0 0 (by decide) (by decide) [] (by simp) data _ _ p1 q1 (hsb _)
  obtain ⟨e3, p3, q3⟩ := (Asc.reads_begin b!"MeshAndBsp" nullClass 0 0 (by decide) (by decide) [] (by simp)).atPos data _ _ p1 q1 (hsb _)
  generalize pos + (Asc.hdrLine name className versionId ix ++ 10 :: [9]).length = s1 at *
  generalize s1 + (Asc.hdrLine b!"MeshAndBsp" nullClass 0 0 ++ 10 :: []).length = s2 at *
  have p4 : s2 + bytes.length ≤ data.length := by
    have := congrArg List.length q3
    simp only [List.length_drop, List.length_append] at this
    omega
  have q4 : data.drop (s2 + bytes.length) = Asc.text [(1, b!"[]")] ++ (Asc.text (Asc.lines junk 1 d ++ [(0, b!"[]")]) ++ post) := by
    rw [← List.drop_drop, q3, List.drop_left]
  obtain ⟨k, hk⟩ : ∃ k, ∀ p, (Asc.lines junk 1 d ++ [(0, b!"[]")]).head? = some p → p.1 = k := by
    cases (Asc.lines junk 1 d ++ [(0, b!"[]")]).head? with
    | none => exact ⟨0, by simp⟩
    | some q => exact ⟨q.1, by rintro p hp; cases hp; rfl⟩
  obtain ⟨ws, b', c1, c2, c3⟩ := Asc.body_text post _ k _ hk rfl
  have hws : ∀ x ∈ ws, x ∈ Rd.lineSpaces := by
    intro x hx
    rw [c2, if_neg (by simp)] at hx
    rw [List.eq_of_mem_replicate hx]
    decide
  have hpend : (Asc.lines junk 1 d ++ [(0, b!"[]")]).map (fun p : BitVec 32 × Bytes => p.2) = Asc.pending junk [d, .nil] := by
    rw [List.map_append, Asc.lines_snd junk 1 0 d]
    rfl
  rw [hpend] at c3
  have hok : ∀ x ∈ [d, Doc.nil], Asc.OkDoc x := by
    intro x hx
    simp only [List.mem_cons, List.not_mem_nil, or_false] at hx
    rcases hx with rfl | rfl
    · exact hd
    · trivial
  rw [c1] at q4
  obtain ⟨e5, p5, q5⟩ := (asc_end [9] ws (by simp) hws).atPos data _ b' p4 (by rw [q4]; simp [Asc.text])
    (Asc.body_solid post hpost _ (Asc.pending_ok junk _ hok) b' c3)
  refine ⟨⟨data, s1⟩, ⟨data, s2⟩, ⟨data, s2 + bytes.length⟩, _, e1, e2, e3, ?_, ?_, e5, rfl, hok, p5, by rw [q5]; exact c3⟩
  · intro α p x hx
    exact (hx.atPos data s2 _ p3 q3).1
  · rintro α p x a b rfl hx
    rw [List.append_assoc] at q3
    exact ⟨_, (hx.atPos data s2 _ p3 q3).1⟩

theorem asc_write (name : Bytes) (bytes : Bytes) (d : Doc) (a : Asc.Wr) (ha : a.ws.pos ≤ a.ws.data.length) (hi : a.indent = 0)
    (hd : d.Numbered (a.index + 1)) (hpos : a.ws.pos + name.length + 200 < 2 ^ 32) (op : Ws → Except Fail Ws)
    (hop : ∀ w : Ws, w.pos ≤ w.data.length → w.pos + 8 < 2 ^ 32 → op w = .ok (w.write bytes)) :
    ∃ x1 x2 x3 x4 x5, ascWriter.call a (.begin name className versionId) = .ok x1 ∧
      ascWriter.call x1 (.begin b!"MeshAndBsp" [] 0) = .ok x2 ∧ ascWriter.stream op x2 = .ok x3 ∧ ascWriter.call x3 .finish = .ok x4 ∧
      d.calls.foldl Asc.call x4 = x5 ∧ ascWriter.call x5 .finish =
        .ok { a with ws := a.ws.write (ascPlain a.junk name a.index bytes d), index := d.next (a.index + 1) } := by
  obtain ⟨ws, ix, ind, junk⟩ := a
  simp only at ha hi hd hpos
  subst hi
  have c1 := Asc.emits_begin name className versionId ⟨ws, ix, 0, junk⟩ ha
  rw [if_neg (by decide), if_neg (by decide), if_neg (by decide)] at c1
  dsimp only at c1
  generalize ht1 : Asc.text [((0 : BitVec 32), Asc.hdrLine name className versionId ix)] = t1 at c1
  have c2 := Asc.emits_begin b!"MeshAndBsp" [] 0 ⟨ws.write t1, ix + 1, 0 + 1, junk⟩ (Ws.write_le _ _ ha)
  rw [if_pos (by decide), if_pos (by decide), if_pos (by decide)] at c2
  dsimp only at c2
  rw [Ws.write_write _ _ _ ha] at c2
  generalize ht2 : Asc.text [((0 : BitVec 32) + 1, Asc.hdrLine b!"MeshAndBsp" nullClass 0 0)] = t2 at c2
  have hl1 : t1.length ≤ name.length + 60 := by
    have d1 := dec_length_le versionId.toNat 10 (by decide) (by decide)
    have d2 := dec_length_le ix.toNat 10 (by decide) (by have := ix.isLt; omega)
    have : className.length = 15 := by decide
    rw [← ht1]
    simp [Asc.text, Asc.hdrLine]
    omega
  have hl2 : t2.length = 20 := by
    rw [← ht2]
    decide
  have h3 := hop (ws.write (t1 ++ t2)) (Ws.write_le _ _ ha) (by
    simp only [Ws.write, List.length_append]
    omega)
  rw [Ws.write_write _ _ _ ha] at h3
  have c4 := Asc.emits_end ⟨ws.write (t1 ++ t2 ++ bytes), ix + 1, 0 + 1 + 1, junk⟩ (Ws.write_le _ _ ha)
  dsimp only at c4
  rw [Ws.write_write _ _ _ ha, BitVec.add_sub_cancel] at c4
  generalize ht4 : Asc.text [((0 : BitVec 32) + 1, b!"[]")] = t4 at c4
  have c5 := Asc.write_doc d ⟨ws.write (t1 ++ t2 ++ bytes ++ t4), ix + 1, 0 + 1, junk⟩ (Ws.write_le _ _ ha) hd []
  dsimp only at c5
  rw [List.append_nil, Ws.write_write _ _ _ ha] at c5
  generalize ht5 : Asc.text (Asc.lines junk (0 + 1) d) = t5 at c5
  have c6 := Asc.emits_end ⟨ws.write (t1 ++ t2 ++ bytes ++ t4 ++ t5), d.next (ix + 1), 0 + 1, junk⟩ (Ws.write_le _ _ ha)
  dsimp only at c6
  rw [Ws.write_write _ _ _ ha, BitVec.add_sub_cancel] at c6
  refine ⟨_, _, ⟨ws.write (t1 ++ t2 ++ bytes), ix + 1, 0 + 1 + 1, junk⟩, _, _, congrArg Except.ok c1, congrArg Except.ok c2, ?_,
    congrArg Except.ok c4, c5, ?_⟩
  · show (do return { (⟨_, ix + 1, 0 + 1 + 1, junk⟩ : Asc.Wr) with ws := ← op _ }) = _
    rw [h3]
    rfl
  · refine (congrArg Except.ok c6).trans ?_
    congr 2
    show ws.write _ = ws.write _
    congr 1
    rw [← ht1, ← ht2, ← ht4, ← ht5]
    simp [ascPlain, Asc.text]

end Verif.World
