import Verif.Lemmas.ArchiveGraphFmt
import Verif.Lemmas.ReadSeq
import Verif.Model.World

/-! # Sections: objects without a class, one after the other -/

namespace Verif.Ar

/-- A simulation that also covers `read_object_end` where another object begins. -/
structure SimMore {σ} (r : Reader σ) extends SimSkip r where
  more : ∀ n c ver ix ch rest L s, L ≠ [] → R (.obj n c ver ix ch rest :: L) s → r.objEnd s = .ok (false, s)

/-- BINARY. -/
def Bin.simMore (data post : Bytes) (tail : List Nat) : SimMore Bin.reader where
  toSimSkip := Bin.simSkip data post tail
  more := by
    rintro n c ver ix ch rest L ⟨⟨d, pos⟩, ends⟩ hL ⟨rfl, hok, hp, hd, he⟩
    cases L with
    | nil => exact absurd rfl hL
    | cons e L =>
      simp only [Bin.endsOf, List.cons_append] at he hd hp
      subst he
      have hl := congrArg List.length hd
      simp only [Bin.encs, List.map_cons, List.flatten_cons, Bin.enc, List.length_drop, List.length_append, encW_length] at hl
      change Bin.readObjEnd ⟨⟨d, pos⟩, _ :: _⟩ = _
      unfold Bin.readObjEnd
      simp only
      rw [if_neg (by simp only [Bin.enc, List.length_append, encW_length]; omega)]
      simp only [Except.ok.injEq, Prod.mk.injEq, and_true, decide_eq_false_iff_not]
      omega

/-- `read_object_end` in front of the header of an object. -/
theorem Bs.end_hdr (text : Bytes) (hlt : text.length < 2 ^ 16) (hlen2 : text.length ≠ 2) (d : Bytes) (pos : Nat) (tl : Bytes)
    (hp : pos ≤ d.length) (hd : d.drop pos = mark text ++ tl) : Bs.readObjEnd ⟨d, pos⟩ = .ok (false, ⟨d, pos⟩) := by
  have hu := (Reads.u8 tSTRING).atPos d pos (encW 2 (BitVec.ofNat 16 text.length) ++ (text ++ tl)) hp (by rw [hd]; simp [mark])
  have hv := (Reads.u16 (BitVec.ofNat 16 text.length)).atPos d (pos + 1) (text ++ tl) (by simpa using hu.2.1) (by simpa using hu.2.2)
  have hlt2 : pos < d.length := by
    have := hu.2.1
    simp at this; omega
  have heof : Rd.eof ⟨d, pos⟩ = .ok (false, ⟨d, pos⟩) := by simp [Rd.eof]; omega
  have htell : Rd.tell ⟨d, pos⟩ = .ok (pos, ⟨d, pos⟩) := rfl
  have hne : (BitVec.ofNat 16 text.length != 2) = true := by
    rw [bne_iff_ne]
    intro e
    have := congrArg BitVec.toNat e
    rw [BitVec.toNat_ofNat, Nat.mod_eq_of_lt hlt] at this
    exact hlen2 this
  unfold readObjEnd
  rw [Rd.bind_ok heof]
  simp only [Bool.false_eq_true, if_false]
  rw [Rd.bind_ok htell, Rd.bind_ok hu.1]
  simp only [bne_self_eq_false, Bool.false_eq_true, if_false, encW_length]
  rw [Rd.bind_ok hv.1]
  simp only [hne, if_true]
  rw [Rd.bind_ok (Asc.seek_beg d pos _ hp)]
  rfl

theorem Bs.hdr_ne_end (n c : Bytes) (ver : BitVec 16) (ix : BitVec 32) (hn : OkName n) (hc : OkName c) :
    (hdrText n c ver ix).length ≠ 2 := by
  have h1 := List.length_pos_iff.2 hn.1
  have h2 := List.length_pos_iff.2 hc.1
  simp only [hdrText, List.length_append, List.length_cons, List.length_nil]
  omega

/-- BINSAFE. -/
def Bs.simMore (data post : Bytes) : SimMore Bs.reader where
  toSimSkip := Bs.simSkip data post
  more := by
    rintro n c ver ix ch rest L ⟨d, pos⟩ _ ⟨rfl, hok, hp, bs, hd, hl⟩
    obtain ⟨ks, r, rfl, hr⟩ := Bs.levels_cons hl
    obtain ⟨hv, hch, hrest⟩ := hok _ List.mem_cons_self
    have hce : c.isEmpty = false := by simpa using hv.2.1
    simp only [Bs.enc, List.append_assoc, hce, Bool.false_eq_true, if_false] at hd hp
    exact Bs.end_hdr _ (Bs.hdrText_length n c ver ix hv.1 hv.2) (Bs.hdr_ne_end n c ver ix hv.1 hv.2) _ _ _ hp hd

/-- `read_object_end` in front of the header of an object. -/
theorem Asc.end_hdr (n c : Bytes) (ver : BitVec 16) (ix : BitVec 32) (hn : OkName n) (hc : OkName c) (ws : Bytes)
    (hws : ∀ x ∈ ws, x ∈ Rd.lineSpaces) (d : Bytes) (pos : Nat) (b' : Bytes) (hp : pos ≤ d.length)
    (hbb : d.drop pos = (hdrLine n c ver ix ++ 10 :: ws) ++ b') (hb : Solid b') : Asc.readObjEnd ⟨d, pos⟩ = .ok (false, ⟨d, pos⟩) := by
  have hl := congrArg List.length hbb
  simp only [List.length_drop, List.length_append, List.length_cons] at hl
  have heof : Rd.eof ⟨d, pos⟩ = .ok (false, ⟨d, pos⟩) := by simp [Rd.eof]; omega
  have hline := ((ReadsIf.line (hdrLine n c ver ix) ws (noEol_hdrLine n c ver ix hn hc) hws).atPos d pos b' hp hbb hb).1
  unfold readObjEnd
  rw [Rd.bind_ok heof]
  simp only [Bool.false_eq_true, if_false]
  rw [Rd.bind_ok (p := Rd.tell) (show Rd.tell ⟨d, pos⟩ = .ok (pos, ⟨d, pos⟩) from rfl), Rd.bind_ok hline]
  have hne : ((hdrLine n c ver ix).dropWhile isSpace != b!"[]") = true := by
    have : (hdrLine n c ver ix).dropWhile isSpace = hdrLine n c ver ix := by
      apply dropWhile_false
      intro a ha
      have : a = 91 := by simpa [hdrLine] using ha.symm
      subst this
      decide
    rw [this, bne_iff_ne]
    intro e
    have := congrArg List.length e
    have h2 := List.length_pos_iff.2 hn.1
    simp [hdrLine] at this
    omega
  rw [hne, if_pos rfl]
  rw [Rd.bind_ok (Asc.seek_beg d pos _ hp)]
  rfl

/-- ASCII. -/
def Asc.simMore (junk data post : Bytes) (hpost : Solid post) : SimMore Asc.reader where
  toSimSkip := Asc.simSkip junk data post hpost
  more := by
    rintro n c ver ix ch rest L ⟨d, pos⟩ _ ⟨rfl, hok, hp, hb⟩
    simp only at hb
    obtain ⟨⟨hn, hc⟩, hch, hrr⟩ := hok _ List.mem_cons_self
    rw [pending_open junk (.obj n c ver ix ch rest) ch rest L (hdrLine n c ver ix)
      (by simp only [lines, List.map_cons, List.map_append, emptyClass_null c hc.1, lines_snd junk (0 + 1) 0 ch])] at hb
    obtain ⟨ws, b', hws, hbb, hr⟩ := hb
    exact Asc.end_hdr n c ver ix hn hc ws hws d pos b' hp hbb (body_solid post hpost _ (pending_ok junk (ch :: rest :: L) (by
        intro x hx
        simp only [List.mem_cons] at hx
        rcases hx with rfl | rfl | hx
        · exact hch
        · exact hrr
        · exact hok x (by simp [hx]))) b' hr)

/-- Nothing, or the end of an object. -/
def Stops (l : List Call) : Prop := l = [] ∨ ∃ l', l = .finish :: l'

/-- A document is determined by the calls that write it, since objects are numbered. -/
theorem Doc.calls_inj (d : Doc) : ∀ (e : Doc) (i : BitVec 32) (X Y : List Call), Stops X → Stops Y → d.calls ++ X = e.calls ++ Y →
    d.Numbered i → e.Numbered i → d = e ∧ X = Y := by
  induction d with
  | nil =>
    intro e i X Y hX hY h _ _
    cases e with
    | nil => exact ⟨rfl, h⟩
    | val n v r => rcases hX with rfl | ⟨_, rfl⟩ <;> cases h
    | obj n c ver ix ch r => rcases hX with rfl | ⟨_, rfl⟩ <;> cases h
    | ref n ix r => rcases hX with rfl | ⟨_, rfl⟩ <;> cases h
  | val n v r ih =>
    intro e i X Y hX hY h hd he
    cases e with
    | nil => rcases hY with rfl | ⟨_, rfl⟩ <;> cases h
    | val n' v' r' =>
      simp only [Doc.calls, List.cons_append, List.cons.injEq, Call.val.injEq] at h
      obtain ⟨⟨rfl, rfl⟩, h⟩ := h
      obtain ⟨rfl, rfl⟩ := ih r' i X Y hX hY h hd he
      exact ⟨rfl, rfl⟩
    | obj n c ver ix ch r => cases h
    | ref n ix r => cases h
  | ref n ix r ih =>
    intro e i X Y hX hY h hd he
    cases e with
    | nil => rcases hY with rfl | ⟨_, rfl⟩ <;> cases h
    | ref n' v' r' =>
      simp only [Doc.calls, List.cons_append, List.cons.injEq, Call.ref.injEq] at h
      obtain ⟨⟨rfl, rfl⟩, h⟩ := h
      obtain ⟨rfl, rfl⟩ := ih r' i X Y hX hY h hd he
      exact ⟨rfl, rfl⟩
    | obj n c ver ix ch r => cases h
    | val n ix r => cases h
  | obj n c ver ix ch r ihc ihr =>
    intro e i X Y hX hY h hd he
    cases e with
    | nil => rcases hY with rfl | ⟨_, rfl⟩ <;> cases h
    | val n v r => cases h
    | ref n ix r => cases h
    | obj n' c' ver' ix' ch' r' =>
      simp only [Doc.calls, List.cons_append, List.cons.injEq, Call.begin.injEq, List.append_assoc] at h
      obtain ⟨⟨rfl, rfl, rfl⟩, h⟩ := h
      obtain ⟨h1, h2, h3⟩ := hd
      obtain ⟨g1, g2, g3⟩ := he
      obtain ⟨rfl, hh⟩ := ihc ch' _ _ _ (.inr ⟨_, rfl⟩) (.inr ⟨_, rfl⟩) h h2 g2
      obtain ⟨rfl, rfl⟩ := ihr r' _ X Y hX hY (List.cons.inj hh).2 h3 g3
      exact ⟨by rw [h1, g1], rfl⟩

open World (Section writeSections)

/-- `writeSections` with another name for the class. -/
def writeSecs (k : Bytes) (ptr : Bytes → Option Nat → GWr → Except Fail (List Call × GWr)) :
    List Section → GWr → Except Fail (List Call × GWr)
  | [], g => .ok ([], g)
  | (n, fs) :: rest, g => do
    let (cs, g) ← writeFields ptr fs g
    let (ds, g) ← writeSecs k ptr rest g
    return (.begin n k 0 :: (cs ++ .finish :: ds), g)

theorem writeSections_eq (ptr : Bytes → Option Nat → GWr → Except Fail (List Call × GWr)) (secs : List Section) :
    ∀ g, writeSections ptr secs g = writeSecs [] ptr secs g := by
  induction secs with
  | nil => intro g; rfl
  | cons s secs ih =>
    intro g
    obtain ⟨n, fs⟩ := s
    simp only [writeSections, writeSecs, ih]

/-- A writer for which the empty class is `%` writes the same. -/
theorem writeSecs_null {α} (call : α → Call → α) (h : ∀ w n, call w (.begin n [] 0) = call w (.begin n nullClass 0))
    (ptr : Bytes → Option Nat → GWr → Except Fail (List Call × GWr)) (secs : List Section) :
    ∀ g cs g', writeSecs [] ptr secs g = .ok (cs, g') →
      ∃ ds, writeSecs nullClass ptr secs g = .ok (ds, g') ∧ ∀ w, cs.foldl call w = ds.foldl call w := by
  induction secs with
  | nil => intro g cs g' hw; exact ⟨_, hw, fun _ => by cases hw; rfl⟩
  | cons s secs ih =>
    intro g cs g' hw
    obtain ⟨n, fs⟩ := s
    simp only [writeSecs] at hw ⊢
    cases hf : writeFields ptr fs g with
    | error e => rw [hf] at hw; cases hw
    | ok x =>
      obtain ⟨c1, g1⟩ := x
      rw [hf] at hw
      simp only [bind, Except.bind] at hw ⊢
      cases hs : writeSecs [] ptr secs g1 with
      | error e => rw [hs] at hw; cases hw
      | ok x =>
        obtain ⟨c2, g2⟩ := x
        rw [hs] at hw
        cases hw
        obtain ⟨ds, e1, e2⟩ := ih g1 c2 _ hs
        rw [e1]
        refine ⟨_, rfl, fun w => ?_⟩
        simp only [List.foldl_cons, List.foldl_append, h, e2]

theorem writeSecs_total (k : Bytes) (dom : List Nat) {H : GHeap} {roots S pv po} (hg : GraphOk H roots dom S pv po) (fuel : Nat)
    (secs : List Section) : ∀ w, (∀ s ∈ secs, ∀ n a, Field.ptr n (some a) ∈ s.2 → (H a).isSome) →
      (unwritten dom w).length < fuel → Writes w (writeSecs k (writePtr H fuel) secs w) := by
  induction secs with
  | nil => intro w _ _; exact ⟨[], w, rfl, fun _ h => h⟩
  | cons s secs ih =>
    intro w hin hlt
    obtain ⟨n, fs⟩ := s
    obtain ⟨c1, w1, e1, hm1⟩ := writeFields_total dom H fuel (writePtr_total hg fuel) fs w
      (hin (n, fs) List.mem_cons_self) hlt
    obtain ⟨c2, w2, e2, hm2⟩ := ih w1 (fun s hs => hin s (List.mem_cons_of_mem _ hs))
      (Nat.lt_of_le_of_lt (unwritten_mono dom w w1 hm1) hlt)
    refine ⟨.begin n k 0 :: (c1 ++ .finish :: c2), w2, ?_, fun a h => hm2 a (hm1 a h)⟩
    simp only [writeSecs, e1]
    show (writeSecs k (writePtr H fuel) secs w1 >>= fun _ => _) = _
    rw [e2]
    rfl

/-- Reading known values and objects, with enough fuel. -/
def RunList {σ} (r : Reader σ) (S : Schema) (φ : Nat → Nat) (fs : List Field) (s : σ) (g : GRd) (s' : σ) (g' : GRd) : Prop :=
  ∃ N, ∀ pf ≥ N, readAs r (readPtr r S pf) (fs.map Field.want) s g = .ok (fs.map (Field.got φ), s', g')

/-- Reading sections. -/
def RunSecs {σ} (r : Reader σ) (S : Schema) (k : Bytes) (φ : Nat → Nat) : List Section → σ → GRd → σ → GRd → Prop
  | [], s, g, s', g' => s' = s ∧ g' = g
  | (n, fs) :: rest, s, g, s', g' =>
    ∃ s1 s2 s3 g2, r.objEnd s = .ok (false, s) ∧ r.objBegin s = .ok (some ⟨n, k, 0, 0⟩, s1) ∧ RunList r S φ fs s1 g s2 g2 ∧
      r.objEnd s2 = .ok (true, s3) ∧ RunSecs r S k φ rest s3 g2 s' g'

/-- All fields of the sections. -/
def allFields (secs : List Section) : List Field := secs.flatMap (·.2)

/-- `RunFields` with a list of calls. -/
theorem RunFields.list {σ} {r : Reader σ} {S : Schema} {fs : List Field} {s s' : σ} {g g' : GRd} {φ : Nat → Nat}
    (h : RunFields r S fs s g (fs.map (Field.got φ), s', g')) : RunList r S φ fs s g s' g' := by
  obtain ⟨N, hN⟩ := h (listed (fs.map Field.want)) [] (by
    intro k hk
    simpa using follows_listed fs k hk)
  refine ⟨N, fun pf hpf => ?_⟩
  have := hN pf hpf (N + fs.length + 1) (by omega)
  rw [← List.nil_append (List.map Field.want _), readFields_listed _ [] [] _ _ _ rfl (by simp; omega)] at this
  cases hr : readAs r (readPtr r S pf) (fs.map Field.want) s g with
  | error e => rw [hr] at this; cases this
  | ok x => rw [hr] at this; simpa [Except.map] using this

theorem RunList.congr {σ} {r : Reader σ} {S : Schema} {fs : List Field} {s s' : σ} {g g' : GRd} {φ ψ : Nat → Nat}
    (h : RunList r S φ fs s g s' g') (e : fs.map (Field.got φ) = fs.map (Field.got ψ)) : RunList r S ψ fs s g s' g' := by
  obtain ⟨N, hN⟩ := h
  exact ⟨N, fun pf hpf => by rw [hN pf hpf, e]⟩

/-- What is to be shown about sections which were written as `cs`. -/
structure SecStep {σ} (H : GHeap) {r : Reader σ} (M : SimMore r) (S : Schema) (pv : Bytes → Val → Prop)
    (po : Bytes → Bytes → BitVec 16 → BitVec 32 → Prop) (base : BitVec 32) (k : Bytes) (order : List Nat) (secs : List Section)
    (cs : List Call) (w' : GWr) (d : Doc) (new : List Nat) : Prop where
  calls : cs = d.calls
  numbered : d.Numbered (base + BitVec.ofNat 32 order.length)
  next : d.next (base + BitVec.ofNat 32 order.length) = base + BitVec.ofNat 32 (order ++ new).length
  wr : w' = ⟨base + BitVec.ofNat 32 (order ++ new).length, wcache base (order ++ new)⟩
  nodup : (order ++ new).Nodup
  reach : ∀ a ∈ new, Reach H (allFields secs) a
  inOrder : ∀ f ∈ allFields secs, f.In (order ++ new)
  all : d.All pv po
  read : (order ++ new).length ≤ 2 ^ 32 → ∀ e L s heap, L ≠ [] → heap.length = order.length → M.R (d.app e :: L) s →
    ∃ s' hs, RunSecs r S k (order ++ new).idxOf secs s ⟨heap, rcache base order.length⟩ s'
        ⟨heap ++ hs, rcache base (order ++ new).length⟩ ∧
      M.R (e :: L) s' ∧ Copied H (order ++ new) new hs

theorem writeSecs_step {σ} {H : GHeap} {r : Reader σ} {M : SimMore r} {S : Schema} {pv : Bytes → Val → Prop}
    {po : Bytes → Bytes → BitVec 16 → BitVec 32 → Prop} {base : BitVec 32} (k : Bytes) (hk : emptyClass k = true)
    (hS : ∀ a o, H a = some o → Follows (S o.type) o.fields)
    (hok : ∀ a o, H a = some o → ∀ f ∈ o.fields, f.Ok pv po) (fuel : Nat) :
    ∀ secs order cs w', (∀ s ∈ secs, po s.1 k 0 0) → (∀ f ∈ allFields secs, f.Ok pv po) → order.Nodup →
      writeSecs k (writePtr H fuel) secs ⟨base + BitVec.ofNat 32 order.length, wcache base order⟩ = .ok (cs, w') →
      ∃ d new, SecStep H M S pv po base k order secs cs w' d new := by
  intro secs
  induction secs with
  | nil =>
    intro order cs w' _ _ hnd h
    cases h
    refine ⟨.nil, [], rfl, trivial, by simp [Doc.next], by simp, by simpa using hnd, by simp, by simp [allFields], trivial, ?_⟩
    intro _ e L s heap _ hh hR
    exact ⟨s, [], ⟨rfl, by simp⟩, hR, rfl, by simp⟩
  | cons sec secs ih =>
    intro order cs w' hpo hf hnd h
    obtain ⟨n, fs⟩ := sec
    have hf1 : ∀ f ∈ fs, f.Ok pv po := fun f hf' => hf f (by simp [allFields, hf'])
    have hf2 : ∀ f ∈ allFields secs, f.Ok pv po := fun f hf' => hf f (by
      simp only [allFields, List.flatMap_cons, List.mem_append] at hf' ⊢; exact .inr hf')
    simp only [writeSecs] at h
    generalize hw1 : writeFields (writePtr H fuel) fs ⟨base + BitVec.ofNat 32 order.length, wcache base order⟩ = res at h
    cases res with
    | error e => cases h
    | ok out =>
      obtain ⟨cs1, w1⟩ := out
      obtain ⟨d1, new1, st1⟩ := writeFields_step (M := M.toSimSkip) (S := S) fuel (writePtr_step hS hok fuel) fs order cs1 w1 hf1 hnd hw1
      change (writeSecs k (writePtr H fuel) secs w1 >>= fun _ => _) = _ at h
      rw [st1.wr] at h
      generalize hw2 : writeSecs k (writePtr H fuel) secs
        ⟨base + BitVec.ofNat 32 (order ++ new1).length, wcache base (order ++ new1)⟩ = res2 at h
      cases res2 with
      | error e => cases h
      | ok out2 =>
        obtain ⟨cs2, w2⟩ := out2
        cases h
        obtain ⟨d2, new2, st2⟩ := ih (order ++ new1) cs2 _ (fun s hs => hpo s (List.mem_cons_of_mem _ hs)) hf2 st1.nodup hw2
        have hassoc : order ++ new1 ++ new2 = order ++ (new1 ++ new2) := List.append_assoc _ _ _
        have hix : (if emptyClass k = true then base + BitVec.ofNat 32 order.length
            else base + BitVec.ofNat 32 order.length + 1) = base + BitVec.ofNat 32 order.length := if_pos hk
        refine ⟨.obj n k 0 0 d1 d2, new1 ++ new2, ?_, ⟨?_, ?_, ?_⟩, ?_, ?_, ?_, ?_, ?_,
          ⟨hpo (n, fs) List.mem_cons_self, st1.all, st2.all⟩, ?_⟩
        · rw [st1.calls, st2.calls]; rfl
        · exact (if_pos hk).symm
        · rw [hix]; exact st1.numbered
        · rw [hix, st1.next]; exact st2.numbered
        · simp only [Doc.next, hix]; rw [st1.next, st2.next, hassoc]
        · rw [st2.wr, hassoc]
        · rw [← hassoc]; exact st2.nodup
        · intro a ha
          rcases List.mem_append.1 ha with ha | ha
          · exact (st1.reach a ha).mono (fun f hf => by simp [allFields, hf])
          · exact (st2.reach a ha).mono fun f hf => by
              simp only [allFields, List.flatMap_cons, List.mem_append] at hf ⊢; exact .inr hf
        · intro f hf
          rw [← hassoc]
          simp only [allFields, List.flatMap_cons, List.mem_append] at hf
          rcases hf with hf | hf
          · exact (st1.inOrder f hf).mono
          · exact st2.inOrder f hf
        · rw [← hassoc]
          intro hlen e L s heap hL hh hR
          have hmore := M.more _ _ _ _ _ _ _ _ hL hR
          obtain ⟨s1, e1, h1⟩ := M.obj _ _ _ _ _ _ _ _ hR
          obtain ⟨s2, hs1, hrun1, hR1, hc1⟩ := st1.read (by simp at hlen ⊢; omega) .nil _ s1 heap hh (by rw [Doc.app_nil]; exact h1)
          obtain ⟨s3, e3, h3⟩ := M.fin _ _ _ hR1
          obtain ⟨s4, hs2, hrun2, hR2, hc2⟩ := st2.read hlen e L s3 (heap ++ hs1) hL (by simp [hh, hc1.1]) h3
          refine ⟨s4, hs1 ++ hs2, ⟨s1, s2, s3, _, hmore, e1, hrun1.list.congr ?_, e3, ?_⟩, hR2, (hc1.mono new2).append hc2⟩
          · exact (map_got_congr new2 st1.inOrder).symm
          · rw [← List.append_assoc]; exact hrun2

/-- The loaded objects are a copy of what can be reached. -/
theorem Copied.isCopy {H : GHeap} {roots : List Field} {new : List Nat} {hs : List (ObjectType × List Got)}
    (hc : Copied H new new hs) (hin : ∀ f ∈ roots, f.In new) (hreach : ∀ a ∈ new, Reach H roots a) (hnd : new.Nodup) :
    IsCopy H roots hs new.idxOf := by
  have hall : ∀ a, Reach H roots a → a ∈ new := by
    intro a ha
    induction ha with
    | root hm => exact hin _ hm _ _ rfl
    | @step a o n b _ h1 h2 ih =>
      obtain ⟨k, hk, hka⟩ := List.mem_iff_getElem.1 ih
      obtain ⟨o', ho', hin, _⟩ := hc.2 k a (by rw [List.getElem?_eq_getElem hk, hka])
      rw [h1] at ho'
      cases ho'
      exact hin _ h2 _ _ rfl
  refine ⟨?_, ?_, ?_⟩
  · intro a ha
    have hm := hall a ha
    have hk := List.idxOf_lt_length_of_mem hm
    obtain ⟨o, h1, _, h3⟩ := hc.2 (new.idxOf a) a (by rw [List.getElem?_eq_getElem hk]; simp)
    exact ⟨o, h1, h3⟩
  · intro a b ha hb e
    have h1 := List.idxOf_lt_length_of_mem (hall a ha)
    have h2 := List.idxOf_lt_length_of_mem (hall b hb)
    have e1 : new[new.idxOf a] = a := by simp
    have e2 : new[new.idxOf b] = b := by simp
    rw [← e1, ← e2]
    congr 1
  · intro n hn
    rw [hc.1] at hn
    exact ⟨new[n], hreach _ (List.getElem_mem hn), hnd.idxOf_getElem n hn⟩

/-- The part of writing sections and, behind them, fields, and reading them again, that does not depend on the format. -/
theorem sections_round_trip {σ} {r : Reader σ} (M : SimMore r) {H : GHeap} {secs : List Section} {fs : List Field} {dom S pv po}
    (hg : GraphOk H (allFields secs ++ fs) dom S pv po) (base : BitVec 32) (k : Bytes) (hk : emptyClass k = true)
    (hpo : ∀ s ∈ secs, po s.1 k 0 0) (fuel : Nat) (cs ds : List Call) (w1 w2 : GWr)
    (hw1 : writeSecs k (writePtr H fuel) secs ⟨base, []⟩ = .ok (cs, w1))
    (hw2 : writeFields (writePtr H fuel) fs w1 = .ok (ds, w2)) :
    ∃ d1 d2 : Doc, cs = d1.calls ∧ ds = d2.calls ∧ (d1.app d2).Numbered base ∧ (d1.app d2).next base = w2.index ∧ (d1.app d2).All pv po ∧
      ∀ e L s, L ≠ [] → M.R ((d1.app d2).app e :: L) s →
        ∃ s1 s2 g1 g2 φ, RunSecs r S k φ secs s ⟨[], []⟩ s1 g1 ∧ M.R (d2.app e :: L) s1 ∧ RunList r S φ fs s1 g1 s2 g2 ∧
          M.R (e :: L) s2 ∧ IsCopy H (allFields secs ++ fs) g2.heap φ := by
  have hb : base + BitVec.ofNat 32 ([] : List Nat).length = base := by simp
  obtain ⟨d1, n1, st1⟩ := writeSecs_step (M := M) (S := S) (base := base) k hk hg.loads hg.fieldsOk fuel secs [] cs w1 hpo
    (fun f hf => hg.rootsOk f (List.mem_append_left _ hf)) .nil (by rw [hb]; exact hw1)
  rw [st1.wr] at hw2
  obtain ⟨d2, n2, st2⟩ := writeFields_step (M := M.toSimSkip) (S := S) fuel (writePtr_step hg.loads hg.fieldsOk fuel) fs ([] ++ n1) ds w2
    (fun f hf => hg.rootsOk f (List.mem_append_right _ hf)) st1.nodup hw2
  simp only [List.nil_append] at st2
  have hnum := st1.numbered
  have hnext := st1.next
  rw [hb] at hnum hnext
  simp only [List.nil_append] at hnext
  have hreach : ∀ a ∈ n1 ++ n2, Reach H (allFields secs ++ fs) a := by
    intro a ha
    rcases List.mem_append.1 ha with ha | ha
    · exact (st1.reach a ha).mono fun f hf => List.mem_append_left _ hf
    · exact (st2.reach a ha).mono fun f hf => List.mem_append_right _ hf
  have hH : ∀ a, Reach H (allFields secs ++ fs) a → (H a).isSome := by
    intro a ha
    cases ha with
    | root hm => exact hg.rootsIn _ _ hm
    | step _ h1 h2 => exact hg.closed _ _ h1 _ _ h2
  have hlen := nodup_length_le (n1 ++ n2) dom st2.nodup (by
    intro a ha
    obtain ⟨o, ho⟩ := Option.isSome_iff_exists.1 (hH a (hreach a ha))
    exact hg.finite a o ho)
  have hsmall := hg.small
  refine ⟨d1, d2, st1.calls, st2.calls, Doc.numbered_app _ _ _ hnum (by rw [hnext]; exact st2.numbered), ?_,
    Doc.all_app _ _ st1.all st2.all, ?_⟩
  · rw [Doc.next_app, hnext, st2.next, st2.wr]
  · intro e L s hL hR
    rw [Doc.app_assoc] at hR
    obtain ⟨s1, hs1, hrun1, hR1, hc1⟩ := st1.read (by simp at hlen ⊢; omega) _ L s [] hL rfl hR
    simp only [List.nil_append] at hrun1 hc1
    obtain ⟨s2, hs2, hrun2, hR2, hc2⟩ := st2.read (by omega) e L s1 hs1 hc1.1 hR1
    refine ⟨s1, s2, _, _, (n1 ++ n2).idxOf, ?_, hR1, hrun2.list, hR2, ?_⟩
    · have : ∀ secs s g s' g', (∀ f ∈ allFields secs, f.In n1) → RunSecs r S k n1.idxOf secs s g s' g' →
          RunSecs r S k (n1 ++ n2).idxOf secs s g s' g' := by
        intro secs
        induction secs with
        | nil => intro s g s' g' _ h; exact h
        | cons sec secs ih =>
          obtain ⟨n, fs⟩ := sec
          rintro s g s' g' hin ⟨a1, a2, a3, b2, h1, h2, h3, h4, h5⟩
          refine ⟨a1, a2, a3, b2, h1, h2, h3.congr ?_, h4, ih _ _ _ _ ?_ h5⟩
          · exact (map_got_congr n2 fun f hf => hin f (by simp [allFields, hf])).symm
          · intro f hf
            exact hin f (by simp only [allFields, List.flatMap_cons, List.mem_append] at hf ⊢; exact .inr hf)
      exact this _ _ _ _ _ (fun f hf => by simpa using st1.inOrder f hf) hrun1
    · refine Copied.isCopy ((hc1.mono n2).append hc2) ?_ hreach st2.nodup
      intro f hf
      rcases List.mem_append.1 hf with hf | hf
      · have := st1.inOrder f hf
        rw [List.nil_append] at this
        exact this.mono
      · exact st2.inOrder f hf

end Verif.Ar
