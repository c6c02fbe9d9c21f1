import Verif.Spec.ArchiveGraph
import Verif.Lemmas.Archive
import Verif.Props.ArchiveClasses

/-! # Writing and reading object graphs -/

namespace Verif.Ar

/-- A simulation that also covers `skip_object(true)` at the end of an object. -/
structure SimSkip {σ} (r : Reader σ) extends Sim r where
  skip : ∀ rest L s, R (.nil :: rest :: L) s → ∃ s', r.skipObj true s = .ok ((), s') ∧ R (rest :: L) s'

namespace Doc

theorem calls_app (d e : Doc) : (d.app e).calls = d.calls ++ e.calls := by
  induction d with
  | nil => rfl
  | val n v rest ih => simp only [app, calls, ih, List.cons_append]
  | obj n c ver ix ch rest _ ih => simp only [app, calls, ih, List.cons_append, List.append_assoc]
  | ref n ix rest ih => simp only [app, calls, ih, List.cons_append]

theorem next_app (d e : Doc) (i : BitVec 32) : (d.app e).next i = e.next (d.next i) := by
  induction d generalizing i with
  | nil => rfl
  | val n v rest ih => exact ih i
  | obj n c ver ix ch rest _ ih => exact ih _
  | ref n ix rest ih => exact ih i

theorem numbered_app (d e : Doc) (i : BitVec 32) (hd : d.Numbered i) (he : e.Numbered (d.next i)) : (d.app e).Numbered i := by
  induction d generalizing i with
  | nil => exact he
  | val n v rest ih => exact ih i hd he
  | obj n c ver ix ch rest _ ih => exact ⟨hd.1, hd.2.1, ih _ hd.2.2 he⟩
  | ref n ix rest ih => exact ih i hd he

theorem all_app {pv po} (d e : Doc) (hd : d.All pv po) (he : e.All pv po) : (d.app e).All pv po := by
  induction d with
  | nil => exact he
  | val n v rest ih => exact ⟨hd.1, ih hd.2⟩
  | obj n c ver ix ch rest _ ih => exact ⟨hd.1, hd.2.1, ih hd.2.2⟩
  | ref n ix rest ih => exact ⟨hd.1, ih hd.2⟩

theorem app_nil (d : Doc) : d.app .nil = d := by induction d <;> simp_all [app]

theorem app_assoc (d e f : Doc) : (d.app e).app f = d.app (e.app f) := by
  induction d with
  | nil => rfl
  | val n v rest ih => simp only [app, ih]
  | obj n c ver ix ch rest _ ih => simp only [app, ih]
  | ref n ix rest ih => simp only [app, ih]

end Doc

/-- The cache of the writer after the objects at the addresses `order` were begun. -/
def wcache (base : BitVec 32) (order : List Nat) : List (Nat × BitVec 32) :=
  order.zipIdx.map fun p => (p.1, base + BitVec.ofNat 32 p.2)

/-- The cache of the reader after it has made `n` objects. -/
def rcache (base : BitVec 32) (n : Nat) : List (BitVec 32 × Nat) := (List.range n).map fun k => (base + BitVec.ofNat 32 k, k)

theorem lookup_zip (base : BitVec 32) (a : Nat) (l : List Nat) (k : Nat) :
    ((l.zipIdx k).map fun p => (p.1, base + BitVec.ofNat 32 p.2)).lookup a =
      if a ∈ l then some (base + BitVec.ofNat 32 (k + l.idxOf a)) else none := by
  induction l generalizing k with
  | nil => simp
  | cons b l ih =>
    rw [List.zipIdx_cons, List.map_cons, List.lookup_cons, ih]
    by_cases h : a = b
    · subst h; simp
    · have h' : ¬ b = a := fun e => h e.symm
      simp only [beq_eq_false_iff_ne.2 h, List.mem_cons, h, false_or]
      rw [List.idxOf_cons, beq_eq_false_iff_ne.2 h']
      simp [Nat.add_assoc, Nat.add_comm 1]

theorem lookup_wcache (base : BitVec 32) (a : Nat) (order : List Nat) :
    (wcache base order).lookup a = if a ∈ order then some (base + BitVec.ofNat 32 (order.idxOf a)) else none := by
  have := lookup_zip base a order 0
  simpa [wcache] using this

theorem wcache_snoc (base : BitVec 32) (order : List Nat) (a : Nat) :
    wcache base order ++ [(a, base + BitVec.ofNat 32 order.length)] = wcache base (order ++ [a]) := by
  simp [wcache, List.zipIdx_append]

theorem add_ofNat_inj (base : BitVec 32) (i j : Nat) (hi : i < 2 ^ 32) (hj : j < 2 ^ 32)
    (h : base + BitVec.ofNat 32 i = base + BitVec.ofNat 32 j) : i = j := by
  have h2 : BitVec.ofNat 32 i = BitVec.ofNat 32 j := by
    have := congrArg (fun x => x - base) h
    simpa [BitVec.add_comm base] using this
  have := congrArg BitVec.toNat h2
  simpa [Nat.mod_eq_of_lt hi, Nat.mod_eq_of_lt hj] using this

theorem rcache_succ (base : BitVec 32) (n : Nat) : rcache base (n + 1) = rcache base n ++ [(base + BitVec.ofNat 32 n, n)] := by
  simp [rcache, List.range_succ]

theorem lookup_append' {α β} [BEq α] (l m : List (α × β)) (k : α) : (l ++ m).lookup k = (l.lookup k).or (m.lookup k) := by
  induction l with
  | nil => rfl
  | cons p l ih =>
    obtain ⟨a, b⟩ := p
    simp only [List.cons_append, List.lookup_cons, ih]
    split <;> simp

theorem lookup_rcache (base : BitVec 32) (n i : Nat) (hi : i < 2 ^ 32) (hn : n ≤ 2 ^ 32) :
    (rcache base n).lookup (base + BitVec.ofNat 32 i) = if i < n then some i else none := by
  induction n with
  | zero => simp [rcache]
  | succ n ih =>
    rw [rcache_succ, lookup_append', ih (by omega)]
    by_cases h : i < n
    · rw [if_pos h, if_pos (by omega)]; rfl
    · rw [if_neg h, List.lookup_cons]
      by_cases h2 : i = n
      · subst h2; simp
      · have : (base + BitVec.ofNat 32 i == base + BitVec.ofNat 32 n) = false := by
          rw [beq_eq_false_iff_ne]
          intro e
          exact h2 (add_ofNat_inj base i n hi (by omega) e)
        rw [this, if_neg (by omega)]
        rfl

theorem insert_rcache (base : BitVec 32) (n : Nat) (hn : n < 2 ^ 32) :
    insertOrAssign (rcache base n) (base + BitVec.ofNat 32 n) n = rcache base (n + 1) := by
  rw [rcache_succ]
  unfold insertOrAssign
  congr 1
  rw [List.filter_eq_self]
  intro p hp
  obtain ⟨k, hk, rfl⟩ := List.mem_map.1 hp
  have hk := List.mem_range.1 hk
  simp only [ne_eq, decide_not, Bool.not_eq_eq_eq_not, Bool.not_true, decide_eq_false_iff_not]
  intro e
  have := add_ofNat_inj base k n (by omega) hn e
  omega

theorem idxOf_stable {order : List Nat} (new : List Nat) {a : Nat} (h : a ∈ order) : (order ++ new).idxOf a = order.idxOf a := by
  rw [List.idxOf_append, if_pos h]

/-- The addresses a field points to are among those given. -/
def Field.In (order : List Nat) (f : Field) : Prop := ∀ n a, f = .ptr n (some a) → a ∈ order

theorem Field.got_congr {order : List Nat} (new : List Nat) {f : Field} (h : f.In order) :
    f.got (order ++ new).idxOf = f.got order.idxOf := by
  cases f with
  | val n v => rfl
  | ptr n p =>
    cases p with
    | none => rfl
    | some a => simp only [Field.got, Option.map_some, idxOf_stable new (h n a rfl)]

theorem Field.In.mono {order : List Nat} {new : List Nat} {f : Field} (h : f.In order) : f.In (order ++ new) :=
  fun n a e => List.mem_append_left _ (h n a e)

theorem map_got_congr {order : List Nat} (new : List Nat) {fs : List Field} (h : ∀ f ∈ fs, f.In order) :
    fs.map (Field.got (order ++ new).idxOf) = fs.map (Field.got order.idxOf) :=
  List.map_congr_left fun f hf => Field.got_congr new (h f hf)

/-- The objects `hs` are what became of the objects at the addresses `new`. -/
def Copied (H : GHeap) (order new : List Nat) (hs : List (ObjectType × List Got)) : Prop :=
  hs.length = new.length ∧ ∀ (k : Nat) a, new[k]? = some a →
    ∃ o, H a = some o ∧ (∀ f ∈ o.fields, f.In order) ∧ hs[k]? = some (o.type, o.fields.map (Field.got order.idxOf))

theorem Copied.mono {H : GHeap} {order new : List Nat} {hs} (h : Copied H order new hs) (more : List Nat) :
    Copied H (order ++ more) new hs := by
  refine ⟨h.1, fun k a hk => ?_⟩
  obtain ⟨o, h1, h2, h3⟩ := h.2 k a hk
  exact ⟨o, h1, fun f hf => (h2 f hf).mono, by rw [h3, map_got_congr more h2]⟩

theorem Copied.append {H : GHeap} {order a b : List Nat} {hs ks} (h1 : Copied H order a hs) (h2 : Copied H order b ks) :
    Copied H order (a ++ b) (hs ++ ks) := by
  refine ⟨by simp [h1.1, h2.1], fun k x hk => ?_⟩
  rcases Nat.lt_or_ge k a.length with h | h
  · rw [List.getElem?_append_left h] at hk
    rw [List.getElem?_append_left (by rw [h1.1]; exact h)]
    exact h1.2 k x hk
  · rw [List.getElem?_append_right h] at hk
    rw [List.getElem?_append_right (by rw [h1.1]; exact h), h1.1]
    exact h2.2 _ x hk

/-- Reading a pointer, with enough fuel. -/
def RunPtr {σ} (r : Reader σ) (S : Schema) (s : σ) (g : GRd) (out : List Got × σ × GRd) : Prop :=
  ∃ N p, out.1 = [.ptr p] ∧ ∀ fuel ≥ N, readPtr r S fuel s g = .ok (p, out.2)

/-- Reading fields, behind others, with enough fuel. -/
def RunFields {σ} (r : Reader σ) (S : Schema) (fs : List Field) (s : σ) (g : GRd) (out : List Got × σ × GRd) : Prop :=
  ∀ (Sx : List Seen → Option Want) (acc : List Got),
    (∀ k ≤ fs.length, Sx (acc.map Got.seen ++ (fs.take k).map Field.seen) = fs[k]?.map Field.want) →
    ∃ N, ∀ f1 ≥ N, ∀ f2 ≥ N, readFields r (readPtr r S f1) Sx f2 acc s g = .ok (acc ++ out.1, out.2)

/-- What is to be shown about the fields `fs` (a single pointer, or all of an object) which were written as `cs`. -/
structure Step {σ} (H : GHeap) {r : Reader σ} (M : SimSkip r) (pv : Bytes → Val → Prop)
    (po : Bytes → Bytes → BitVec 16 → BitVec 32 → Prop) (base : BitVec 32) (order : List Nat) (fs : List Field) (cs : List Call)
    (w' : GWr) (run : σ → GRd → List Got × σ × GRd → Prop) (d : Doc) (new : List Nat) : Prop where
  calls : cs = d.calls
  numbered : d.Numbered (base + BitVec.ofNat 32 order.length)
  next : d.next (base + BitVec.ofNat 32 order.length) = base + BitVec.ofNat 32 (order ++ new).length
  wr : w' = ⟨base + BitVec.ofNat 32 (order ++ new).length, wcache base (order ++ new)⟩
  nodup : (order ++ new).Nodup
  reach : ∀ a ∈ new, Reach H fs a
  inOrder : ∀ f ∈ fs, f.In (order ++ new)
  all : d.All pv po
  read : (order ++ new).length ≤ 2 ^ 32 → ∀ e L s heap, heap.length = order.length → M.R (d.app e :: L) s →
    ∃ s' hs, run s ⟨heap, rcache base order.length⟩
        (fs.map (Field.got (order ++ new).idxOf), s', ⟨heap ++ hs, rcache base (order ++ new).length⟩) ∧
      M.R (e :: L) s' ∧ Copied H (order ++ new) new hs

theorem Reach.mono {H : GHeap} {fs gs : List Field} (h : ∀ f ∈ fs, f ∈ gs) {a : Nat} (ha : Reach H fs a) : Reach H gs a := by
  induction ha with
  | root hm => exact .root (h _ hm)
  | step _ h1 h2 ih => exact .step ih h1 h2

theorem Reach.under {H : GHeap} {n : Bytes} {a : Nat} {o : GObj} (ho : H a = some o) {b : Nat} (hb : Reach H o.fields b) :
    Reach H [.ptr n (some a)] b := by
  induction hb with
  | root hm => exact .step (.root List.mem_cons_self) ho hm
  | step _ h1 h2 ih => exact .step ih h1 h2

variable {σ : Type} {H : GHeap} {r : Reader σ} {M : SimSkip r} {S : Schema} {pv : Bytes → Val → Prop}
  {po : Bytes → Bytes → BitVec 16 → BitVec 32 → Prop} {base : BitVec 32}

theorem endOrSkip_true {s s' : σ} (h : r.objEnd s = .ok (true, s')) : endOrSkip r s = .ok ((), s') := by
  unfold endOrSkip
  rw [h]
  rfl

theorem writeFields_step (fuel : Nat)
    (ih : ∀ n p order cs w', (Field.ptr n p).Ok pv po → order.Nodup →
      writePtr H fuel n p ⟨base + BitVec.ofNat 32 order.length, wcache base order⟩ = .ok (cs, w') →
      ∃ d new, Step H M pv po base order [.ptr n p] cs w' (RunPtr r S) d new) :
    ∀ fs order cs w', (∀ f ∈ fs, f.Ok pv po) → order.Nodup →
      writeFields (writePtr H fuel) fs ⟨base + BitVec.ofNat 32 order.length, wcache base order⟩ = .ok (cs, w') →
      ∃ d new, Step H M pv po base order fs cs w' (RunFields r S fs) d new := by
  intro fs
  induction fs with
  | nil =>
    intro order cs w' _ hnd h
    cases h
    refine ⟨.nil, [], rfl, trivial, by simp [Doc.next], by simp, by simpa using hnd, by simp, by simp, trivial, ?_⟩
    intro _ e L s heap hh hR
    refine ⟨s, [], ?_, hR, ⟨rfl, by simp⟩⟩
    intro Sx acc hS
    refine ⟨1, fun f1 _ f2 h2 => ?_⟩
    obtain ⟨f2, rfl⟩ : ∃ k, f2 = k + 1 := ⟨f2 - 1, by omega⟩
    have := hS 0 (by simp)
    simp only [List.take_nil, List.map_nil, List.append_nil] at this
    unfold readFields
    rw [this]
    simp
  | cons f fs ihf =>
    intro order cs w' hok hnd h
    have hokr : ∀ f ∈ fs, f.Ok pv po := fun g hg => hok g (List.mem_cons_of_mem _ hg)
    cases f with
    | val n v =>
      simp only [writeFields] at h
      generalize hw : writeFields (writePtr H fuel) fs ⟨base + BitVec.ofNat 32 order.length, wcache base order⟩ = res at h
      cases res with
      | error e => cases h
      | ok out =>
        obtain ⟨cs1, w1⟩ := out
        cases h
        obtain ⟨d, new, st⟩ := ihf order cs1 _ hokr hnd hw
        refine ⟨.val n v d, new, ?_, st.numbered, st.next, st.wr, st.nodup,
          fun a ha => (st.reach a ha).mono fun _ hf => List.mem_cons_of_mem _ hf, ?_, ⟨hok _ List.mem_cons_self, st.all⟩, ?_⟩
        · rw [st.calls]; rfl
        · intro g hg
          rcases List.mem_cons.1 hg with rfl | hg
          · intro n a e; cases e
          · exact st.inOrder g hg
        · intro hlen e L s heap hh hR
          obtain ⟨s1, e1, h1⟩ := M.val _ _ _ _ _ hR
          obtain ⟨s', hs, hrun, hR', hc⟩ := st.read hlen e L s1 heap hh h1
          refine ⟨s', hs, ?_, hR', hc⟩
          intro Sx acc hS
          obtain ⟨N, hN⟩ := hrun Sx (acc ++ [.val v]) (by
            intro k hk
            have := hS (k + 1) (by simpa using hk)
            simpa [List.take_succ_cons, Got.seen, Field.seen] using this)
          refine ⟨N + 1, fun f1 hf1 f2 hf2 => ?_⟩
          obtain ⟨f2, rfl⟩ : ∃ k, f2 = k + 1 := ⟨f2 - 1, by omega⟩
          have h0 := hS 0 (by simp)
          simp only [List.take_zero, List.map_nil, List.append_nil, List.getElem?_cons_zero, Option.map_some, Field.want] at h0
          unfold readFields
          rw [h0]
          show (r.val v.kind s >>= fun _ => _) = _
          rw [e1]
          show readFields r _ Sx f2 (acc ++ [.val v]) s1 _ = _
          rw [hN f1 (by omega) f2 (by omega)]
          simp [Field.got]
    | ptr n p =>
      simp only [writeFields] at h
      generalize hw1 : writePtr H fuel n p ⟨base + BitVec.ofNat 32 order.length, wcache base order⟩ = res at h
      cases res with
      | error e => cases h
      | ok out =>
        obtain ⟨cs1, w1⟩ := out
        obtain ⟨d1, new1, st1⟩ := ih n p order cs1 w1 (hok _ List.mem_cons_self) hnd hw1
        change (writeFields (writePtr H fuel) fs w1 >>= fun _ => _) = _ at h
        rw [st1.wr] at h
        generalize hw2 : writeFields (writePtr H fuel) fs
          ⟨base + BitVec.ofNat 32 (order ++ new1).length, wcache base (order ++ new1)⟩ = res2 at h
        cases res2 with
        | error e => cases h
        | ok out2 =>
          obtain ⟨cs2, w2⟩ := out2
          cases h
          obtain ⟨d2, new2, st2⟩ := ihf (order ++ new1) cs2 _ hokr st1.nodup hw2
          have hassoc : order ++ new1 ++ new2 = order ++ (new1 ++ new2) := List.append_assoc _ _ _
          refine ⟨d1.app d2, new1 ++ new2, ?_, ?_, ?_, ?_, ?_, ?_, ?_, Doc.all_app _ _ st1.all st2.all, ?_⟩
          · rw [Doc.calls_app, st1.calls, st2.calls]
          · exact Doc.numbered_app _ _ _ st1.numbered (by rw [st1.next]; exact st2.numbered)
          · rw [Doc.next_app, st1.next, st2.next, hassoc]
          · rw [st2.wr, hassoc]
          · rw [← hassoc]; exact st2.nodup
          · intro a ha
            rcases List.mem_append.1 ha with ha | ha
            · exact (st1.reach a ha).mono (by intro f hf; simp only [List.mem_singleton] at hf; subst hf; exact List.mem_cons_self)
            · exact (st2.reach a ha).mono fun _ hf => List.mem_cons_of_mem _ hf
          · intro g hg
            rw [← hassoc]
            rcases List.mem_cons.1 hg with rfl | hg
            · exact (st1.inOrder _ List.mem_cons_self).mono
            · exact st2.inOrder g hg
          · rw [← hassoc]
            intro hlen e L s heap hh hR
            rw [Doc.app_assoc] at hR
            obtain ⟨s1, hs1, ⟨N1, q, hq, hrun1⟩, hR1, hc1⟩ := st1.read (by simp at hlen ⊢; omega) _ L s heap hh hR
            obtain ⟨s2, hs2, hrun2, hR2, hc2⟩ := st2.read hlen e L s1 (heap ++ hs1)
              (by simp [hh, hc1.1]) hR1
            refine ⟨s2, hs1 ++ hs2, ?_, hR2, ?_⟩
            · intro Sx acc hS
              have hq' : q = p.map (order ++ new1).idxOf := by
                simp only [List.map_cons, List.map_nil, Field.got, List.cons.injEq, Got.ptr.injEq, and_true] at hq
                exact hq.symm
              obtain ⟨N2, hN2⟩ := hrun2 Sx (acc ++ [.ptr q]) (by
                intro k hk
                have := hS (k + 1) (by simpa using hk)
                subst hq'
                cases p <;> simpa [List.take_succ_cons, Got.seen, Field.seen] using this)
              refine ⟨N1 + N2 + 1, fun f1 hf1 f2 hf2 => ?_⟩
              obtain ⟨f2, rfl⟩ : ∃ k, f2 = k + 1 := ⟨f2 - 1, by omega⟩
              have h0 := hS 0 (by simp)
              simp only [List.take_zero, List.map_nil, List.append_nil, List.getElem?_cons_zero, Option.map_some, Field.want] at h0
              unfold readFields
              rw [h0]
              show (readPtr r S f1 s _ >>= fun _ => _) = _
              rw [hrun1 f1 (by omega)]
              show readFields r _ Sx f2 (acc ++ [.ptr q]) s1 _ = _
              rw [hN2 f1 (by omega) f2 (by omega)]
              have hst : (Field.ptr n p).got (order ++ new1 ++ new2).idxOf = .ptr q := by
                rw [Field.got_congr new2 (st1.inOrder _ List.mem_cons_self), hq']; rfl
              rw [List.map_cons, hst]
              simp
            · exact (hc1.mono new2).append hc2

theorem writePtr_step (hS : ∀ a o, H a = some o → Follows (S o.type) o.fields)
    (hok : ∀ a o, H a = some o → ∀ f ∈ o.fields, f.Ok pv po) (fuel : Nat) :
    ∀ n p order cs w', (Field.ptr n p).Ok pv po → order.Nodup →
      writePtr H fuel n p ⟨base + BitVec.ofNat 32 order.length, wcache base order⟩ = .ok (cs, w') →
      ∃ d new, Step H M pv po base order [.ptr n p] cs w' (RunPtr r S) d new := by
  induction fuel with
  | zero => intro n p order cs w' _ _ h; cases h
  | succ fuel ih =>
    intro n p order cs w' hn hnd h
    cases p with
    | none =>
      cases h
      refine ⟨.obj n nullClass 0 0 .nil .nil, [], rfl, ⟨rfl, trivial, trivial⟩, by simp [Doc.next, emptyClass, nullClass], by simp,
        by simpa using hnd, by simp, ?_, ⟨hn _ _ _ (.inr (.inl rfl)), trivial, trivial⟩, ?_⟩
      · intro f hf n a e
        simp only [List.mem_singleton] at hf
        subst hf; cases e
      · intro _ e L s heap hh hR
        obtain ⟨s1, e1, h1⟩ := M.obj _ _ _ _ _ _ _ _ hR
        obtain ⟨s2, e2, h2⟩ := M.skip _ _ _ h1
        refine ⟨s2, [], ⟨1, none, rfl, fun f hf => ?_⟩, h2, ⟨rfl, by simp⟩⟩
        obtain ⟨f, rfl⟩ : ∃ k, f = k + 1 := ⟨f - 1, by omega⟩
        unfold readPtr
        rw [e1]
        simp only [bind, Except.bind]
        rw [if_neg (by decide), if_pos trivial]
        rw [e2]
        simp [pure, Except.pure]
    | some a =>
      simp only [writePtr, lookup_wcache] at h
      by_cases ha : a ∈ order
      · rw [if_pos ha] at h
        cases h
        refine ⟨.ref n (base + BitVec.ofNat 32 (order.idxOf a)) .nil, [], rfl, trivial, by simp [Doc.next], by simp,
          by simpa using hnd, by simp, ?_, ⟨hn _ _ _ (.inl rfl), trivial⟩, ?_⟩
        · intro f hf n' b e
          simp only [List.mem_singleton] at hf
          subst hf; cases e
          simpa using ha
        · intro hlen e L s heap hh hR
          obtain ⟨s1, e1, h1⟩ := M.ref _ _ _ _ _ hR
          obtain ⟨s2, e2, h2⟩ := M.fin _ _ _ h1
          refine ⟨s2, [], ⟨1, some (order.idxOf a), by simp [Field.got], fun f hf => ?_⟩, h2, ⟨rfl, by simp⟩⟩
          obtain ⟨f, rfl⟩ : ∃ k, f = k + 1 := ⟨f - 1, by omega⟩
          unfold readPtr
          rw [e1]
          simp only [bind, Except.bind]
          rw [if_pos trivial, endOrSkip_true e2]
          have hi := List.idxOf_lt_length_of_mem ha
          simp only [List.append_nil] at hlen
          simp only [pure, Except.pure, List.append_nil]
          rw [lookup_rcache _ _ _ (by omega) hlen, if_pos hi]
      · rw [if_neg ha] at h
        cases ho : H a with
        | none => rw [ho] at h; cases h
        | some o =>
          rw [ho] at h
          dsimp only at h
          cases hc : tableFind classNamesTable o.type with
          | none => rw [hc] at h; cases h
          | some cls =>
            rw [hc] at h
            dsimp only at h
            have hnd1 : (order ++ [a]).Nodup := by
              rw [List.nodup_append]
              refine ⟨hnd, by simp, ?_⟩
              intro x hx y hy
              simp only [List.mem_singleton] at hy
              subst hy
              intro e; subst e; exact ha hx
            have hidx : base + BitVec.ofNat 32 order.length + 1 = base + BitVec.ofNat 32 (order ++ [a]).length := by
              rw [BitVec.add_assoc]
              congr 1
              apply BitVec.eq_of_toNat_eq
              simp
            rw [hidx, wcache_snoc] at h
            generalize hw : writeFields (writePtr H fuel) o.fields
              ⟨base + BitVec.ofNat 32 (order ++ [a]).length, wcache base (order ++ [a])⟩ = res at h
            cases res with
            | error e => cases h
            | ok out =>
              obtain ⟨cs1, w1⟩ := out
              cases h
              obtain ⟨d, new, st⟩ := writeFields_step fuel ih o.fields (order ++ [a]) cs1 _ (hok a o ho) hnd1 hw
              have hassoc : order ++ [a] ++ new = order ++ (a :: new) := by simp
              obtain ⟨hn1, hn2, hn3⟩ := Props.c18_names o.type cls hc
              have hne : emptyClass cls = false := by
                simp only [emptyClass, Bool.or_eq_false_iff, List.isEmpty_eq_false_iff, beq_eq_false_iff_ne]
                exact ⟨hn3, hn2⟩
              obtain ⟨c, hcf, hct⟩ := Props.c18_round_trip o.type cls hc
              refine ⟨.obj n cls o.version (base + BitVec.ofNat 32 order.length) d .nil, a :: new, ?_, ?_, ?_, ?_, ?_, ?_, ?_,
                ⟨hn _ _ _ (.inr (.inr ⟨_, hc⟩)), st.all, trivial⟩, ?_⟩
              · rw [st.calls]; rfl
              · simp only [Doc.Numbered, hne, Bool.false_eq_true, if_false, true_and, and_true]
                rw [hidx]; exact st.numbered
              · simp only [Doc.next, hne, Bool.false_eq_true, if_false]
                rw [hidx, st.next, hassoc]
              · rw [st.wr, hassoc]
              · rw [← hassoc]; exact st.nodup
              · intro b hb
                rcases List.mem_cons.1 hb with rfl | hb
                · exact .root List.mem_cons_self
                · exact (st.reach b hb).under ho
              · intro f hf n' b e
                simp only [List.mem_singleton] at hf
                subst hf; cases e
                simp
              · rw [← hassoc]
                intro hlen e L s heap hh hR
                obtain ⟨s1, e1, h1⟩ := M.obj _ _ _ _ _ _ _ _ hR
                obtain ⟨s2, hs, hrun, h2, hcp⟩ := st.read hlen .nil (e :: L) s1 (heap ++ [(o.type, [])]) (by simp [hh])
                  (by
                    rw [Doc.app_nil]; exact h1)
                obtain ⟨s3, e3, h3⟩ := M.fin _ _ _ h2
                obtain ⟨N, hN⟩ := hrun (S o.type) [] (by
                  intro k hk
                  simpa using hS a o ho k hk)
                refine ⟨s3, (o.type, o.fields.map (Field.got (order ++ [a] ++ new).idxOf)) :: hs,
                  ⟨N + 1, some order.length, ?_, fun f hf => ?_⟩, h3, ?_⟩
                · have : (order ++ [a] ++ new).idxOf a = order.length := by
                    rw [List.append_assoc, List.idxOf_append, if_neg ha]
                    simp
                  simp only [List.map_cons, List.map_nil, Field.got, Option.map_some, this]
                · obtain ⟨f, rfl⟩ : ∃ k, f = k + 1 := ⟨f - 1, by omega⟩
                  unfold readPtr
                  rw [e1]
                  simp only [bind, Except.bind]
                  rw [if_neg (show ¬ cls = refClass from hn1), if_neg (show ¬ cls = nullClass from hn2), hcf]
                  dsimp only
                  rw [hct, hh, insert_rcache _ _ (by simp at hlen; omega)]
                  have := hN f (by omega) f (by omega)
                  rw [show (order ++ [a]).length = order.length + 1 by simp] at this
                  rw [this]
                  dsimp only
                  rw [endOrSkip_true e3]
                  dsimp only [pure, Except.pure]
                  rw [← hh]
                  simp
                · refine ⟨by simp [hcp.1], ?_⟩
                  intro k b hk
                  cases k with
                  | zero =>
                    simp only [List.getElem?_cons_zero, Option.some.injEq] at hk
                    subst hk
                    exact ⟨o, ho, st.inOrder, rfl⟩
                  | succ k =>
                    simp only [List.getElem?_cons_succ] at hk ⊢
                    exact hcp.2 k b hk

end Verif.Ar
