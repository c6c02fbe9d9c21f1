import Verif.Lemmas.ArchiveGraph
import Verif.Props.ArchiveBinary
import Verif.Props.ArchiveBinsafe
import Verif.Props.ArchiveAscii

/-! # Object graphs in the three formats -/

namespace Verif.Ar

theorem nodup_length_le : ∀ (l m : List Nat), l.Nodup → (∀ a ∈ l, a ∈ m) → l.length ≤ m.length := by
  intro l
  induction l with
  | nil => intro m _ _; simp
  | cons a l ih =>
    intro m hnd h
    have hnd' := List.nodup_cons.1 hnd
    have := ih (m.erase a) hnd'.2 (by
      intro b hb
      have hne : b ≠ a := by intro e; subst e; exact hnd'.1 hb
      exact (List.mem_erase_of_ne hne).2 (h b (List.mem_cons_of_mem _ hb)))
    have hm := h a List.mem_cons_self
    rw [List.length_erase_of_mem hm] at this
    have : 0 < m.length := List.length_pos_of_mem hm
    simp only [List.length_cons]
    omega

/-- A finite heap without dangling pointers, and what is written of it: all objects have types with a class name, their `load` belongs
to their `save`, and their names and values suit the format. -/
structure GraphOk (H : GHeap) (roots : List Field) (dom : List Nat) (S : Schema) (pv : Bytes → Val → Prop)
    (po : Bytes → Bytes → BitVec 16 → BitVec 32 → Prop) : Prop where
  finite : ∀ a o, H a = some o → a ∈ dom
  small : dom.length ≤ 2 ^ 32
  rootsIn : ∀ n a, Field.ptr n (some a) ∈ roots → (H a).isSome
  closed : ∀ a o, H a = some o → ∀ n b, Field.ptr n (some b) ∈ o.fields → (H b).isSome
  types : ∀ a o, H a = some o → o.type ≠ .ignored ∧ o.type ≠ .unknown
  loads : ∀ a o, H a = some o → Follows (S o.type) o.fields
  rootsOk : ∀ f ∈ roots, f.Ok pv po
  fieldsOk : ∀ a o, H a = some o → ∀ f ∈ o.fields, f.Ok pv po

/-- The addresses that have not been written yet. -/
def unwritten (dom : List Nat) (w : GWr) : List Nat := dom.filter fun a => (w.cache.lookup a).isNone

/-- Writing succeeds, and only adds to the cache. -/
def Writes (w : GWr) (res : Except Fail (List Call × GWr)) : Prop :=
  ∃ cs w', res = .ok (cs, w') ∧ ∀ a, (w.cache.lookup a).isSome → (w'.cache.lookup a).isSome

theorem unwritten_mono (dom : List Nat) (w w' : GWr) (h : ∀ a, (w.cache.lookup a).isSome → (w'.cache.lookup a).isSome) :
    (unwritten dom w').length ≤ (unwritten dom w).length := by
  unfold unwritten
  rw [← List.countP_eq_length_filter, ← List.countP_eq_length_filter]
  refine List.countP_mono_left ?_
  intro a _ ha
  simp only [Option.isNone_iff_eq_none] at ha ⊢
  cases hc : w.cache.lookup a with
  | none => rfl
  | some i =>
    have := h a (by rw [hc]; rfl)
    rw [ha] at this
    cases this

theorem writeFields_total (dom : List Nat) (H : GHeap) (fuel : Nat)
    (ih : ∀ n p w, (∀ a, p = some a → (H a).isSome) → (unwritten dom w).length < fuel → Writes w (writePtr H fuel n p w)) :
    ∀ fs w, (∀ n a, Field.ptr n (some a) ∈ fs → (H a).isSome) → (unwritten dom w).length < fuel →
      Writes w (writeFields (writePtr H fuel) fs w) := by
  intro fs
  induction fs with
  | nil => intro w _ _; exact ⟨[], w, rfl, fun _ h => h⟩
  | cons f fs ihf =>
    intro w hin hlt
    cases f with
    | val n v =>
      obtain ⟨cs, w', e, hm⟩ := ihf w (fun n a h => hin n a (List.mem_cons_of_mem _ h)) hlt
      exact ⟨.val n v :: cs, w', by simp only [writeFields, e]; rfl, hm⟩
    | ptr n p =>
      obtain ⟨c1, w1, e1, hm1⟩ := ih n p w (fun a ha => hin n a (by rw [ha]; exact List.mem_cons_self)) hlt
      obtain ⟨c2, w2, e2, hm2⟩ := ihf w1 (fun n a h => hin n a (List.mem_cons_of_mem _ h))
        (Nat.lt_of_le_of_lt (unwritten_mono dom w w1 hm1) hlt)
      refine ⟨c1 ++ c2, w2, ?_, fun a h => hm2 a (hm1 a h)⟩
      simp only [writeFields, e1]
      show (writeFields (writePtr H fuel) fs w1 >>= fun _ => _) = _
      rw [e2]
      rfl

theorem writePtr_total {H : GHeap} {roots dom S pv po} (hg : GraphOk H roots dom S pv po) (fuel : Nat) :
    ∀ n p w, (∀ a, p = some a → (H a).isSome) → (unwritten dom w).length < fuel → Writes w (writePtr H fuel n p w) := by
  induction fuel with
  | zero => intro n p w _ h; omega
  | succ fuel ih =>
    intro n p w hp hlt
    cases p with
    | none => exact ⟨_, w, rfl, fun _ h => h⟩
    | some a =>
      unfold writePtr
      cases hc : w.cache.lookup a with
      | some i => exact ⟨_, w, rfl, fun _ h => h⟩
      | none =>
        dsimp only
        obtain ⟨o, ho⟩ := Option.isSome_iff_exists.1 (hp a rfl)
        rw [ho]
        dsimp only
        obtain ⟨cls, hcls⟩ := Option.isSome_iff_exists.1 ((Props.c18_total o.type).2 (hg.types a o ho))
        rw [hcls]
        dsimp only
        generalize hw1 : (⟨w.index + 1, w.cache ++ [(a, w.index)]⟩ : GWr) = w1
        have hm0 : ∀ b, (w.cache.lookup b).isSome → (w1.cache.lookup b).isSome := by
          intro b hb
          rw [← hw1]
          simp only [lookup_append']
          rw [Option.isSome_or, hb]
          rfl
        have ha1 : (w1.cache.lookup a).isSome := by
          rw [← hw1]
          simp only [lookup_append', hc, List.lookup_cons]
          simp
        have hlt1 : (unwritten dom w1).length < fuel := by
          have hsub : ∀ b ∈ unwritten dom w1, b ∈ (unwritten dom w) ∧ b ≠ a := by
            intro b hb
            simp only [unwritten, List.mem_filter] at hb ⊢
            refine ⟨⟨hb.1, ?_⟩, ?_⟩
            · cases hb2 : w.cache.lookup b with
              | none => rfl
              | some i =>
                have := hm0 b (by rw [hb2]; rfl)
                rw [Option.isSome_iff_ne_none] at this
                simp only [Option.isNone_iff_eq_none] at hb
                exact absurd hb.2 this
            · intro e
              subst e
              rw [Option.isSome_iff_ne_none] at ha1
              simp only [Option.isNone_iff_eq_none] at hb
              exact ha1 hb.2
          have h1 : unwritten dom w1 = (unwritten dom w).filter fun b => (w1.cache.lookup b).isNone := by
            unfold unwritten
            rw [List.filter_filter]
            apply List.filter_congr
            intro b hb
            cases hb1 : (w1.cache.lookup b) with
            | some i => rfl
            | none =>
              have := (hsub b (by simp [unwritten, hb, hb1])).1
              simp only [unwritten, List.mem_filter] at this
              simp [this.2]
          have h2 : (unwritten dom w1).length < (unwritten dom w).length := by
            rw [h1]
            refine List.length_filter_lt_length_iff_exists.2 ⟨a, ?_, ?_⟩
            · simp [unwritten, hg.finite a o ho, hc]
            · rw [Option.isSome_iff_ne_none] at ha1
              simpa using ha1
          omega
        obtain ⟨cs, w2, e2, hm2⟩ := writeFields_total dom H fuel ih o.fields w1 (hg.closed a o ho) hlt1
        rw [e2]
        exact ⟨_, w2, rfl, fun b hb => hm2 b (hm0 b hb)⟩

/-- The common part of C19 for all formats: what is written is a document, and any reader that simulates documents makes a copy. -/
theorem graph_round_trip {σ} {r : Reader σ} (M : SimSkip r) {H : GHeap} {roots dom S pv po} (hg : GraphOk H roots dom S pv po)
    (base : BitVec 32) (fuel : Nat) (cs : List Call) (w' : GWr)
    (hw : writeFields (writePtr H fuel) roots ⟨base, []⟩ = .ok (cs, w')) :
    ∃ d, cs = d.calls ∧ d.Numbered base ∧ d.next base = w'.index ∧ d.All pv po ∧
      (∃ n ≤ dom.length, w'.index = base + BitVec.ofNat 32 n) ∧
      ∀ (top : List Seen → Option Want) s, Follows top roots → M.R [d] s →
        ∃ N s' heap cache φ, (∀ f1 ≥ N, ∀ f2 ≥ N, readFields r (readPtr r S f1) top f2 [] s ⟨[], []⟩ =
            .ok (roots.map (Field.got φ), s', ⟨heap, cache⟩)) ∧
          M.R [.nil] s' ∧ IsCopy H roots heap φ ∧ cache = rcache base heap.length := by
  have hw0 : writeFields (writePtr H fuel) roots ⟨base + BitVec.ofNat 32 ([] : List Nat).length, wcache base []⟩ = .ok (cs, w') := by
    have : base + BitVec.ofNat 32 ([] : List Nat).length = base := by simp
    rw [this]; exact hw
  obtain ⟨d, new, st⟩ := writeFields_step (M := M) (S := S) fuel (writePtr_step hg.loads hg.fieldsOk fuel) roots [] cs w' hg.rootsOk .nil hw0
  have hb : base + BitVec.ofNat 32 ([] : List Nat).length = base := by simp
  have hnext : d.next base = w'.index := by
    have := st.next
    rw [hb] at this
    rw [this, st.wr]
  have hH : ∀ a, Reach H roots a → (H a).isSome := by
    intro a ha
    cases ha with
    | root hm => exact hg.rootsIn _ _ hm
    | step _ h1 h2 => exact hg.closed _ _ h1 _ _ h2
  have hnew : ∀ a ∈ new, a ∈ dom := by
    intro a ha
    obtain ⟨o, ho⟩ := Option.isSome_iff_exists.1 (hH a (st.reach a ha))
    exact hg.finite a o ho
  have hnd : new.Nodup := by simpa using st.nodup
  have hlen := nodup_length_le new dom hnd hnew
  have hsmall := hg.small
  refine ⟨d, st.calls, by have := st.numbered; rwa [hb] at this, hnext, st.all, ⟨new.length, hlen, by rw [st.wr]; simp⟩, ?_⟩
  intro top s htop hR
  obtain ⟨s', hs, hrun, hR', hc⟩ := st.read (by simp; omega) .nil [] s [] rfl (by rw [Doc.app_nil]; exact hR)
  obtain ⟨N, hN⟩ := hrun top [] (by intro k hk; simpa using htop k hk)
  simp only [List.nil_append] at hc
  have hall : ∀ a, Reach H roots a → a ∈ new := by
    intro a ha
    induction ha with
    | root hm => simpa using st.inOrder _ hm _ _ rfl
    | @step a o n b _ h1 h2 ih =>
      obtain ⟨k, hk, hka⟩ := List.mem_iff_getElem.1 ih
      obtain ⟨o', ho', hin, _⟩ := hc.2 k a (by rw [List.getElem?_eq_getElem hk, hka])
      rw [h1] at ho'
      cases ho'
      exact hin _ h2 _ _ rfl
  refine ⟨N, s', hs, rcache base new.length, new.idxOf, ?_, hR', ⟨?_, ?_, ?_⟩, by rw [hc.1]⟩
  · intro f1 h1 f2 h2
    show readFields r (readPtr r S f1) top f2 [] s ⟨[], rcache base 0⟩ = _
    simpa using hN f1 h1 f2 h2
  · intro a ha
    have hm := hall a ha
    have hk := List.idxOf_lt_length_of_mem hm
    obtain ⟨o, h1, _, h3⟩ := hc.2 (new.idxOf a) a (by rw [List.getElem?_eq_getElem hk]; simp)
    exact ⟨o, h1, h3⟩
  · intro a b ha hb e
    have h1 := List.idxOf_lt_length_of_mem (hall a ha)
    have h2 := List.idxOf_lt_length_of_mem (hall b hb)
    have e1 : new[new.idxOf a] = a := by simp
    have e2 : new[new.idxOf b] = b := by simp
    rw [← e1, ← e2]
    congr 1
  · intro n hn
    rw [hc.1] at hn
    refine ⟨new[n], st.reach _ (List.getElem_mem hn), ?_⟩
    exact hnd.idxOf_getElem n hn

/-! ## The formats -/

/-- BINARY. -/
def Bin.simSkip (data post : Bytes) (tail : List Nat) : SimSkip Bin.reader where
  toSim := Bin.sim data post tail
  skip := by
    rintro rest L ⟨⟨d, pos⟩, ends⟩ ⟨rfl, hok, hp, hd, he⟩
    simp only [Bin.endsOf, Bin.enc, List.length_nil, Nat.add_zero, List.cons_append] at he hd hp
    refine ⟨⟨⟨d, pos⟩, Bin.endsOf pos (rest :: L) ++ tail⟩, ?_, rfl, ?_, hp, ?_, rfl⟩
    · show Bin.skipCurrent _ = _
      simp only [Bin.skipCurrent, he, Bin.lift]
      have : Rd.seek (pos : Int) .beg ⟨d, pos⟩ = .ok ((), ⟨d, pos⟩) := by
        simp [Rd.seek, Rd.seekTarget, hp]
      rw [this]
    · intro x hx
      exact hok x (by simp at hx ⊢; right; exact hx)
    · show d.drop pos = _
      rw [hd]; simp [Bin.encs, Bin.enc]

/-- BINSAFE. -/
def Bs.simSkip (data post : Bytes) : SimSkip Bs.reader where
  toSim := Bs.sim data post
  skip := by
    rintro rest L ⟨d, pos⟩ ⟨rfl, hok, hp, bs, hd, ks, b, rfl, hb⟩
    simp only [List.append_assoc] at hd hp
    have h := Bs.skip_rest .nil trivial ks d pos _ hp hd
    refine ⟨_, h, rfl, fun x hx => hok x (List.mem_cons_of_mem _ hx), ?_, b, ?_, hb⟩
    · have := congrArg List.length hd
      simp [Bs.enc] at this ⊢
      omega
    · show d.drop (pos + _) = _
      rw [← List.drop_drop, hd, ← List.append_assoc, List.drop_left]

/-- ASCII. -/
def Asc.simSkip (junk data post : Bytes) (hpost : Solid post) : SimSkip Asc.reader where
  toSim := Asc.sim junk data post hpost
  skip rest L s h := Asc.skip_rest junk data post hpost .nil rest L ⟨trivial, trivial⟩ s h

open Verif.Props

/-- Object graphs in BINARY archives. -/
theorem bin_graph (H : GHeap) (roots : List Field) (dom : List Nat) (S : Schema) (top : List Seen → Option Want)
    (hg : GraphOk H roots dom S (fun _ v => Bin.OkVal v) (fun n c _ _ => NoEol n ∧ NoEol c)) (htop : Follows top roots)
    (w : Bin.Wr) (hw : w.ws.pos ≤ w.ws.data.length) (post : Bytes) (tail : List Nat) :
    ∃ cs g w', writeFields (writePtr H (dom.length + 1)) roots ⟨w.index, []⟩ = .ok (cs, g) ∧ Bin.calls w cs = some w' ∧
      (w'.ws.pos - w.ws.pos < 2 ^ 32 →
        ∃ N s' heap cache φ, (∀ f1 ≥ N, ∀ f2 ≥ N,
            readFields Bin.reader (readPtr Bin.reader S f1) top f2 [] ⟨⟨w'.ws.data ++ post, w.ws.pos⟩, tail⟩ ⟨[], []⟩ =
              .ok (roots.map (Field.got φ), s', ⟨heap, cache⟩)) ∧ IsCopy H roots heap φ ∧ cache = rcache w.index heap.length) := by
  obtain ⟨cs, g, hwr, _⟩ := writeFields_total dom H (dom.length + 1) (writePtr_total hg _) roots ⟨w.index, []⟩ hg.rootsIn
    (by simp [unwritten]; exact Nat.lt_succ_of_le (List.length_filter_le _ _))
  obtain ⟨d0, h1, h2, _⟩ := graph_round_trip (Bin.simSkip [] [] []) hg w.index _ cs g hwr
  have hwd := Bin.write_doc d0 w hw h2 []
  rw [List.append_nil, ← h1] at hwd
  refine ⟨cs, g, _, hwr, by rw [hwd]; rfl, ?_⟩
  intro hsz
  simp only [Ws.write] at hsz
  generalize hdata : (w.ws.write (Bin.enc d0)).data ++ post = data
  generalize hpost : (w.ws.data.drop (w.ws.pos + (Bin.enc d0).length) ++ post) = post'
  obtain ⟨d, h1', h2', _, hall, _, hread⟩ := graph_round_trip (Bin.simSkip data post' tail) hg w.index _ cs g hwr
  have hdd := Bin.write_doc d w hw h2' []
  rw [List.append_nil, ← h1'] at hdd
  have henc : w.ws.write (Bin.enc d) = w.ws.write (Bin.enc d0) ∧ Bin.enc d = Bin.enc d0 := by
    have e := hdd.symm.trans hwd
    have e2 := congrArg (fun o => o.map (fun x : Bin.Wr => x.ws)) e
    have e3 : w.ws.write (Bin.enc d) = w.ws.write (Bin.enc d0) := by simpa [Bin.calls] using e2
    refine ⟨e3, ?_⟩
    have hp := congrArg Ws.pos e3
    have hd := congrArg Ws.data e3
    simp only [Ws.write, splice_le _ _ _ hw] at hp hd
    have hl : (Bin.enc d).length = (Bin.enc d0).length := by omega
    rw [List.append_assoc, List.append_assoc, hl] at hd
    exact List.append_inj_left (List.append_cancel_left hd) hl
  obtain ⟨N, s', heap, cache, φ, hN, _, hcopy, hcache⟩ := hread top ⟨⟨data, w.ws.pos⟩, tail⟩ htop (by
    have hdrop := Ws.write_drop w.ws (Bin.enc d0) post hw
    rw [hdata, hpost] at hdrop
    have hle := Ws.write_le w.ws (Bin.enc d0) hw
    refine ⟨rfl, ?_, ?_, ?_, by simp [Bin.endsOf]⟩
    · intro x hx
      simp only [List.mem_singleton] at hx
      subst hx
      exact ⟨hall, by rw [henc.2]; omega⟩
    · rw [← hdata]
      simp only [Ws.write, List.length_append] at hle ⊢
      omega
    · show data.drop w.ws.pos = _
      rw [hdrop, ← henc.2]; simp [Bin.encs])
  exact ⟨N, s', heap, cache, φ, hN, hcopy, hcache⟩

/-- Object graphs in BINSAFE archives. -/
theorem bs_graph (H : GHeap) (roots : List Field) (dom : List Nat) (S : Schema) (top : List Seen → Option Want)
    (hg : GraphOk H roots dom S (fun _ v => Bs.OkVal v) (fun n c _ _ => Bs.OkName n ∧ Bs.OkName c)) (htop : Follows top roots)
    (w : Bs.Wr) (hw : w.ws.pos ≤ w.ws.data.length) (post : Bytes) :
    ∃ cs g, writeFields (writePtr H (dom.length + 1)) roots ⟨w.index, []⟩ = .ok (cs, g) ∧
      ∃ N s' heap cache φ, (∀ f1 ≥ N, ∀ f2 ≥ N,
          readFields Bs.reader (readPtr Bs.reader S f1) top f2 [] ⟨(Bs.calls w cs).ws.data ++ post, w.ws.pos⟩ ⟨[], []⟩ =
            .ok (roots.map (Field.got φ), s', ⟨heap, cache⟩)) ∧ IsCopy H roots heap φ ∧ cache = rcache w.index heap.length := by
  obtain ⟨cs, g, hwr, _⟩ := writeFields_total dom H (dom.length + 1) (writePtr_total hg _) roots ⟨w.index, []⟩ hg.rootsIn
    (by simp [unwritten]; exact Nat.lt_succ_of_le (List.length_filter_le _ _))
  refine ⟨cs, g, hwr, ?_⟩
  obtain ⟨d0, h1, h2, _⟩ := graph_round_trip (Bs.simSkip [] []) hg w.index _ cs g hwr
  generalize hdata : (Bs.calls w cs).ws.data ++ post = data
  generalize hpost : (w.ws.data.drop (w.ws.pos + (Bs.enc w.keys d0).length) ++ post) = post'
  obtain ⟨d, h1', h2', _, hall, _, hread⟩ := graph_round_trip (Bs.simSkip data post') hg w.index _ cs g hwr
  have hw0 := Bs.write_doc d0 w hw h2 []
  have hwd := Bs.write_doc d w hw h2' []
  rw [List.append_nil, ← h1] at hw0
  rw [List.append_nil, ← h1'] at hwd
  have hw0' : (Bs.calls w cs).ws = w.ws.write (Bs.enc w.keys d0) := by
    rw [hw0]; rfl
  have hwd' : (Bs.calls w cs).ws = w.ws.write (Bs.enc w.keys d) := by
    rw [hwd]; rfl
  have hl : (Bs.enc w.keys d).length = (Bs.enc w.keys d0).length := by
    have hp := congrArg Ws.pos (hwd'.symm.trans hw0')
    simp only [Ws.write] at hp
    omega
  obtain ⟨N, s', heap, cache, φ, hN, _, hcopy, hcache⟩ := hread top ⟨data, w.ws.pos⟩ htop (by
    have hdrop := Ws.write_drop w.ws (Bs.enc w.keys d) post hw
    rw [← hwd', hdata, hl, hpost] at hdrop
    have hle := Ws.write_le w.ws (Bs.enc w.keys d) hw
    rw [← hwd'] at hle
    refine ⟨rfl, fun x hx => by rw [List.mem_singleton.mp hx]; exact hall, ?_, _, hdrop, w.keys, rfl⟩
    rw [← hdata]
    have hp : (Bs.calls w cs).ws.pos = w.ws.pos + (Bs.enc w.keys d).length := by rw [hwd']; rfl
    simp only [List.length_append]
    omega)
  exact ⟨N, s', heap, cache, φ, hN, hcopy, hcache⟩

/-- Object graphs in ASCII archives. -/
theorem asc_graph (H : GHeap) (roots : List Field) (dom : List Nat) (S : Schema) (top : List Seen → Option Want)
    (hg : GraphOk H roots dom S (fun n v => Asc.OkKey n ∧ Asc.OkVal v) (fun n c _ _ => Asc.OkName n ∧ Asc.OkName c))
    (htop : Follows top roots) (w : Asc.Wr) (hw : w.ws.pos = w.ws.data.length) (hi : w.indent = 0) (post : Bytes)
    (hpost : Solid post) :
    ∃ cs g, writeFields (writePtr H (dom.length + 1)) roots ⟨w.index, []⟩ = .ok (cs, g) ∧
      ∃ N s' heap cache φ, (∀ f1 ≥ N, ∀ f2 ≥ N,
          readFields Asc.reader (readPtr Asc.reader S f1) top f2 [] ⟨(Asc.calls w cs).ws.data ++ post, w.ws.pos⟩ ⟨[], []⟩ =
            .ok (roots.map (Field.got φ), s', ⟨heap, cache⟩)) ∧ IsCopy H roots heap φ ∧ cache = rcache w.index heap.length := by
  obtain ⟨cs, g, hwr, _⟩ := writeFields_total dom H (dom.length + 1) (writePtr_total hg _) roots ⟨w.index, []⟩ hg.rootsIn
    (by simp [unwritten]; exact Nat.lt_succ_of_le (List.length_filter_le _ _))
  refine ⟨cs, g, hwr, ?_⟩
  obtain ⟨d, h1, h2, _, hall, _, hread⟩ := graph_round_trip (Asc.simSkip w.junk ((Asc.calls w cs).ws.data ++ post) post hpost) hg
    w.index _ cs g hwr
  obtain ⟨_, _, _, hR⟩ := asc_start d w hw hi h2 hall post hpost
  rw [← h1] at hR
  obtain ⟨N, s', heap, cache, φ, hN, _, hcopy, hcache⟩ := hread top _ htop hR
  exact ⟨N, s', heap, cache, φ, hN, hcopy, hcache⟩

end Verif.Ar
