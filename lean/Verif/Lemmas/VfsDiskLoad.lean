import Verif.Lemmas.VfsDisk

/-!
# Lemmas about disk archives: mounting
-/

namespace Verif.Vfs

open Spec
open Zip (Unz)

/-- `bs` is found at position `p`. -/
def Seg (I : Bytes) (p : Nat) (bs : Bytes) : Prop := ∃ pre post, I = pre ++ bs ++ post ∧ pre.length = p

theorem Seg.le {I : Bytes} {p : Nat} {bs : Bytes} (h : Seg I p bs) : p + bs.length ≤ I.length := by
  obtain ⟨pre, post, rfl, rfl⟩ := h; simp

theorem Seg.left {I : Bytes} {p : Nat} {a b : Bytes} (h : Seg I p (a ++ b)) : Seg I p a := by
  obtain ⟨pre, post, rfl, rfl⟩ := h; exact ⟨pre, b ++ post, by simp, rfl⟩

theorem Seg.right {I : Bytes} {p : Nat} {a b : Bytes} (h : Seg I p (a ++ b)) : Seg I (p + a.length) b := by
  obtain ⟨pre, post, rfl, rfl⟩ := h; exact ⟨pre ++ a, post, by simp, by simp⟩

theorem Seg.slice {I : Bytes} {p : Nat} {bs : Bytes} (h : Seg I p bs) : (I.drop p).take bs.length = bs := by
  obtain ⟨pre, post, rfl, rfl⟩ := h
  simp

theorem Seg.reads {α} {I : Bytes} {p : Nat} {bs : Bytes} (h : Seg I p bs) {r : Rd α} {a : α} (hr : Reads r bs a) :
    r ⟨I, p⟩ = .ok (a, ⟨I, p + bs.length⟩) := by
  obtain ⟨pre, post, rfl, rfl⟩ := h
  have := hr pre post
  simpa using this

theorem rtrim_pad (n : Bytes) (k : Nat) : rtrim (n ++ List.replicate k 32) = rtrim n := by
  induction k with
  | zero => simp
  | succ k ih =>
    rw [List.replicate_succ', ← List.append_assoc, rtrim_append_space _ _ (by decide), ih]

theorem entryName_pad {n : Bytes} (h : NameFits n) : entryName (padName n) = n := by
  obtain ⟨hne, hc, hl⟩ := h
  have : trim (padName n) = n := by
    rw [trim_eq]
    unfold padName
    rw [List.take_of_length_le hl, rtrim_pad]
    exact hc
  unfold entryName
  rw [this]
  cases n with
  | nil => exact absurd rfl hne
  | cons => rfl

theorem reads_entry {n : Bytes} (h : NameFits n) (off size type : BitVec 32) :
    Reads readEntry (ent n off size type) ⟨n, off, size, type⟩ := by
  unfold readEntry ent
  have hs : Reads (Rd.string 64) (padName n) (padName n) := by
    have := Reads.string (padName n)
    rwa [padName_len] at this
  refine Reads.congr (hs.bind ((Reads.u32 off).bind ((Reads.u32 size).bind ((Reads.u32 type).bind
    ((Reads.u32 0).bind (Reads.pure _)))))) ?_ ?_
  · simp
  · rw [entryName_pad h]

/-! ## Adding entries in order -/

theorem below_all {n : Bytes} {cs : List Node} (h : ∀ x ∈ cs, icompare x.name n = true) : below n cs = cs := by
  induction cs with
  | nil => rfl
  | cons x cs ih => rw [below_cons, if_pos (h x (by simp)), ih (fun y hy => h y (by simp [hy]))]

theorem above_all {n : Bytes} {cs : List Node} (h : ∀ x ∈ cs, icompare x.name n = true) : above n cs = [] := by
  induction cs with
  | nil => rfl
  | cons x cs ih => rw [above_cons, if_pos (h x (by simp)), ih (fun y hy => h y (by simp [hy]))]

theorem setFind_all {n : Bytes} {cs : List Node} (h : ∀ x ∈ cs, icompare x.name n = true) : setFind n cs = none := by
  unfold setFind; rw [above_all h]

theorem childIn_all {n : Bytes} {cs : List Node} (hn : Clean n) (h : ∀ x ∈ cs, icompare x.name n = true) :
    childIn n cs = none := by
  unfold childIn
  rw [trim_eq, show rtrim n = n from hn, setFind_all h]

theorem createIn_all {x : Node} {cs : List Node} (hn : Clean x.name) (h : ∀ y ∈ cs, icompare y.name x.name = true) :
    createIn x cs = (cs ++ [x], x) := by
  unfold createIn removeIn
  rw [trim_eq, show rtrim x.name = x.name from hn, setFind_all h]
  unfold setInsert
  rw [setFind_all h, below_all h, above_all h]

theorem setReplace_last {x y : Node} {cs : List Node} (hn : x.name = y.name)
    (h : ∀ z ∈ cs, icompare z.name x.name = true) : setReplace x (cs ++ [y]) = cs ++ [x] := by
  have hb : below x.name (cs ++ [y]) = cs := by
    unfold below
    rw [List.takeWhile_append_of_pos h]
    simp [hn, icompare_irrefl]
  have ha : above x.name (cs ++ [y]) = [y] := by
    unfold above
    rw [List.dropWhile_append_of_pos h]
    simp [hn, icompare_irrefl]
  unfold setReplace
  rw [hb, ha]; simp

/-! ## Trees in order -/

/-- Names in strictly ascending order. -/
abbrev Asc (ns : List Bytes) : Prop := ns.Pairwise (fun a b => icompare a b = true)

mutual
def OrdT : FTree → Prop
  | .file _ _ => True
  | .dir _ ts => Asc (ts.map FTree.name) ∧ OrdAll ts
def OrdAll : List FTree → Prop
  | [] => True
  | t :: ts => OrdT t ∧ OrdAll ts
end

theorem view_name {unz : Unz} {x : Node} {t : FTree} (h : view unz x = some t) : t.name = x.name := by
  cases x with
  | file n tm d => obtain ⟨c, rfl, -⟩ := view_file h; rfl
  | dir n tm cs => obtain ⟨ts, rfl, -⟩ := view_dir h; rfl

theorem viewAll_names {unz : Unz} {cs : List Node} {ts : List FTree} (h : viewAll unz cs = some ts) :
    ts.map FTree.name = cs.map Node.name := by
  induction cs generalizing ts with
  | nil => simp [viewAll] at h; subst h; rfl
  | cons c cs ih =>
    obtain ⟨t, ts', rfl, h1, h2⟩ := viewAll_cons h
    simp [view_name h1, ih h2]

theorem asc_of_ordered {cs : List Node} (h : Ordered cs) : Asc (cs.map Node.name) := by
  unfold Asc; rw [List.pairwise_map]; exact h

mutual
theorem ordT_of_wf {unz : Unz} (x : Node) (t : FTree) (h : view unz x = some t) (hw : Wf x) : OrdT t := by
  match x, h with
  | .file n tm d, h => obtain ⟨c, rfl, -⟩ := view_file h; trivial
  | .dir n tm cs, h =>
    obtain ⟨ts, rfl, hc⟩ := view_dir h
    exact ⟨by rw [viewAll_names hc]; exact asc_of_ordered hw.ordered, ordAll_of_wf cs ts hc (fun c hm => hw.kids hm)⟩
theorem ordAll_of_wf {unz : Unz} (cs : List Node) (ts : List FTree) (h : viewAll unz cs = some ts)
    (hw : ∀ c ∈ cs, Wf c) : OrdAll ts := by
  match cs, h with
  | [], h => simp only [viewAll, Option.some.injEq] at h; subst h; trivial
  | c :: cs, h =>
    obtain ⟨t, ts', rfl, h1, h2⟩ := viewAll_cons h
    exact ⟨ordT_of_wf c t h1 (hw c (by simp)), ordAll_of_wf cs ts' h2 (fun x hx => hw x (by simp [hx]))⟩
end

/-! ## Loading -/

variable (st : Stored)

/-- Contents that satisfy `P` can be read where they are stored. -/
def Readback (unz : Unz) (k : Disk) (P : Bytes → Bytes → Prop) : Prop :=
  ∀ n c off, P n c → Seg k.buf off (st n c) →
    (if k.zipped then off < k.buf.length else off + c.length ≤ k.buf.length) ∧ c.length < 2 ^ 32 ∧
    readFile unz (Desc.make k.buf off (if k.zipped then k.buf.length - off else c.length) k.zipped c.length) =
      .ok (c.length, c)

theorem enterFile_ok {unz : Unz} {k : Disk} {P : Bytes → Bytes → Prop} (hr : Readback st unz k P) {n c : Bytes} {d : Nat}
    (hI : k.buf.length < 2 ^ 32) (hP : P n c) (hs : Seg k.buf d (st n c)) (hn : Clean n) {cs : List Node}
    (hcs : ∀ y ∈ cs, icompare y.name n = true) (type : BitVec 32) :
    ∃ x, enterFile k ⟨n, BitVec.ofNat 32 d, BitVec.ofNat 32 c.length, type⟩ cs = cs ++ [x] ∧
      view unz x = some (.file n c) := by
  obtain ⟨h1, h2, h3⟩ := hr n c d hP hs
  have hd : d < 2 ^ 32 := by have := hs.le; omega
  have e1 : (BitVec.ofNat 32 d).toNat = d := by rw [BitVec.toNat_ofNat]; omega
  have e2 : (BitVec.ofNat 32 c.length).toNat = c.length := by rw [BitVec.toNat_ofNat]; omega
  refine ⟨.file n k.time (Desc.make k.buf d (if k.zipped then k.buf.length - d else c.length) k.zipped c.length), ?_, ?_⟩
  · have hbad : outside k ⟨n, BitVec.ofNat 32 d, BitVec.ofNat 32 c.length, type⟩ = false := by
      unfold outside
      cases hz : k.zipped <;> simp only [hz, if_true, if_false, Bool.false_eq_true, e1] at h1 ⊢
      · rw [decide_eq_false_iff_not, BitVec.toNat_add, e1, e2]; omega
      · rw [decide_eq_false_iff_not]; omega
    unfold enterFile
    rw [hbad]
    simp only [Bool.false_eq_true, if_false]
    rw [childIn_all hn hcs]
    simp only [fileNode, e1, e2]
    rw [createIn_all (x := .file n k.time _) hn hcs]
  · simp only [view, h3, if_true]

theorem loadLoop_last {k : Disk} {fuel : Nat} {cs cs' : List Node} {s s' : Rs}
    (h : loadEntry k fuel cs s = (cs', .ok (true, s'))) : loadLoop k (fuel + 1) cs s = (cs', .ok s') := by
  simp only [loadLoop, h]

theorem loadLoop_more {k : Disk} {fuel : Nat} {cs cs' : List Node} {s s' : Rs}
    (h : loadEntry k fuel cs s = (cs', .ok (false, s'))) : loadLoop k (fuel + 1) cs s = loadLoop k fuel cs' s' := by
  simp only [loadLoop, h]

theorem loadEntry_file {k : Disk} {fuel : Nat} {cs : List Node} {s s' : Rs} {e : Entry}
    (h : readEntry s = .ok (e, s')) (ht : e.type &&& 0x80000000 = 0) :
    loadEntry k (fuel + 1) cs s = (enterFile k e cs, .ok (e.type &&& 0x40000000 != 0, s')) := by
  simp only [loadEntry, h, ht]
  simp

theorem loadEntry_dir {k : Disk} {fuel : Nat} {cs cs1 : List Node} {s s' s1 s2 s3 : Rs} {e : Entry} {n t kids kids'}
    (h : readEntry s = .ok (e, s')) (ht : (e.type &&& 0x80000000 != 0) = true)
    (hd : enterDir k e.name cs = (cs1, some (.dir n t kids)))
    (hs : Rd.seek ((k.catalog + e.offset * 80).toNat : Nat) .beg s' = .ok ((), s1))
    (hl : loadLoop k fuel kids s1 = (kids', .ok s2)) (hb : Rd.seek (s'.pos : Nat) .beg s2 = .ok ((), s3)) :
    loadEntry k (fuel + 1) cs s = (setReplace (.dir n t kids') cs1, .ok (e.type &&& 0x40000000 != 0, s3)) := by
  simp only [loadEntry, h, ht, if_true, hd, hs, hl, hb]

theorem load_level {unz : Unz} {k : Disk} {P : Bytes → Bytes → Prop} (hr : Readback st unz k P)
    (hcat : k.catalog = 296) (hI : k.buf.length < 2 ^ 32) (ts : List FTree) (hne : ts ≠ []) (hfit : FTree.FitsAll P ts)
    (hord : OrdAll ts) (cs : List Node) (hcs : Asc (cs.map Node.name ++ ts.map FTree.name)) (p d j dd : Nat)
    (h1 : Seg k.buf p (encLevel st ts d j)) (h2 : Seg k.buf d (fileData st ts))
    (h3 : Seg k.buf (296 + 80 * j) (encDirs st ts j dd)) (h4 : Seg k.buf dd (dirsData st ts)) :
    ∃ f0 new, viewAll unz new = some ts ∧ ∀ fuel, fuel ≥ f0 →
      loadLoop k fuel cs ⟨k.buf, p⟩ = (cs ++ new, .ok ⟨k.buf, p + 80 * ts.length⟩) := by
  match ts with
  | [] => exact absurd rfl hne
  | t :: ts =>
    have hlt : ∀ y ∈ cs, icompare y.name t.name = true := by
      intro y hy
      have := (List.pairwise_append.1 hcs).2.2 y.name (List.mem_map_of_mem hy) t.name (by simp)
      exact this
    -- one entry
    have hone : ∃ f0 x, view unz x = some t ∧ ∀ fuel, fuel ≥ f0 →
        loadEntry k fuel cs ⟨k.buf, p⟩ = (cs ++ [x], .ok (ts.isEmpty, ⟨k.buf, p + 80⟩)) := by
      match t with
      | .file n c =>
        simp only [encLevel] at h1
        simp only [fileData] at h2
        obtain ⟨hnf, hP⟩ := hfit.1
        have hrd := h1.left.reads (reads_entry hnf _ _ _)
        rw [ent_length] at hrd
        obtain ⟨x, hx1, hx2⟩ := enterFile_ok st hr hI hP h2.left hnf.2.1 hlt (if ts.isEmpty then 0x40000000 else 0)
        refine ⟨1, x, hx2, ?_⟩
        intro fuel hf
        obtain ⟨f, rfl⟩ := Nat.exists_eq_add_of_le' hf
        rw [loadEntry_file hrd (by simp only; cases ts.isEmpty <;> rfl), hx1]
        congr 3
        simp only; cases ts.isEmpty <;> rfl
      | .dir n kids =>
        simp only [encLevel] at h1
        simp only [encDirs] at h3
        simp only [dirsData] at h4
        obtain ⟨hnf, hkne, hkf⟩ := hfit.1
        obtain ⟨hko, hkoa⟩ := hord.1
        have hrd := h1.left.reads (reads_entry hnf _ _ _)
        rw [ent_length] at hrd
        have hj : (BitVec.ofNat 32 j).toNat = j := by
          have := h3.le
          rw [BitVec.toNat_ofNat]; omega
        have hseek : (k.catalog + BitVec.ofNat 32 j * 80).toNat = 296 + 80 * j := by
          have := h3.le
          rw [hcat, BitVec.toNat_add, BitVec.toNat_mul, hj, show (80 : BitVec 32).toNat = 80 from rfl,
            show (296 : BitVec 32).toNat = 296 from rfl]
          omega
        have e3 := h3.left
        have e4 := h4.left
        simp only [encTree] at e3
        simp only [treeData] at e4
        have e3' := e3.right
        rw [encLevel_length] at e3'
        obtain ⟨f0, new, hv, hload⟩ := load_level hr hcat hI kids hkne hkf hkoa [] (by simpa using hko) (296 + 80 * j)
          dd (j + kids.length) (dd + (fileData st kids).length) e3.left e4.left
          (by rw [Nat.mul_add, ← Nat.add_assoc]; exact e3') e4.right
        refine ⟨f0 + 1, .dir n k.time new, by simp only [view, hv], ?_⟩
        intro fuel hf
        obtain ⟨f, rfl⟩ := Nat.exists_eq_add_of_le' (Nat.le_of_add_left_le hf)
        have hd : enterDir k n cs = (cs ++ [.dir n k.time []], some (.dir n k.time [])) := by
          unfold enterDir
          rw [childIn_all hnf.2.1 hlt]
          simp only
          rw [createIn_all (x := .dir n k.time []) hnf.2.1 hlt]
        have hpl : p + 80 ≤ k.buf.length := by have := h1.left.le; rwa [ent_length] at this
        have hle : 296 + 80 * j ≤ k.buf.length := by have := h3.le; omega
        rw [loadEntry_dir (fuel := f) hrd (by simp only; cases ts.isEmpty <;> rfl) hd
          (by simp only; rw [hseek]; exact Rd.seek_beg hle) (hload f (by omega)) (Rd.seek_beg hpl)]
        simp only [List.nil_append]
        rw [setReplace_last (x := .dir n k.time new) (y := .dir n k.time []) rfl hlt]
        congr 3
        cases ts.isEmpty <;> rfl
    obtain ⟨f1, x, hx, hx1⟩ := hone
    by_cases hts : ts = []
    · subst hts
      refine ⟨f1 + 1, [x], by simp [viewAll, hx], ?_⟩
      intro fuel hf
      obtain ⟨f, rfl⟩ := Nat.exists_eq_add_of_le' (Nat.le_of_add_left_le hf)
      exact loadLoop_last (hx1 f (by omega))
    · have hnext : ∃ f0 new, viewAll unz new = some ts ∧ ∀ fuel, fuel ≥ f0 →
          loadLoop k fuel (cs ++ [x]) ⟨k.buf, p + 80⟩ = (cs ++ [x] ++ new, .ok ⟨k.buf, p + 80 + 80 * ts.length⟩) := by
        have hcs' : Asc ((cs ++ [x]).map Node.name ++ ts.map FTree.name) := by
          simpa [view_name hx] using hcs
        match t with
        | .file n c =>
          simp only [encLevel] at h1
          simp only [fileData] at h2
          simp only [encDirs, encTree, below_, treeData, List.nil_append, Nat.add_zero, List.length_nil] at h3
          simp only [dirsData, treeData, List.nil_append] at h4
          have e1 := h1.right
          rw [ent_length] at e1
          exact load_level hr hcat hI ts hts hfit.2 hord.2 (cs ++ [x]) hcs' (p + 80) _ j dd e1 h2.right h3 h4
        | .dir n kids =>
          simp only [encLevel] at h1
          simp only [fileData] at h2
          simp only [encDirs] at h3
          simp only [dirsData] at h4
          have e1 := h1.right
          rw [ent_length] at e1
          have e3 := h3.right
          rw [encTree_length] at e3
          exact load_level hr hcat hI ts hts hfit.2 hord.2 (cs ++ [x]) hcs' (p + 80) d (j + below_ (.dir n kids))
            (dd + (treeData st (.dir n kids)).length) e1 h2 (by rw [Nat.mul_add, ← Nat.add_assoc]; exact e3) h4.right
      obtain ⟨f2, new, hv, hload⟩ := hnext
      refine ⟨max f1 f2 + 1, x :: new, by simp [viewAll, hx, hv], ?_⟩
      intro fuel hf
      obtain ⟨f, rfl⟩ := Nat.exists_eq_add_of_le' (Nat.le_of_add_left_le hf)
      have he : ts.isEmpty = false := by cases ts <;> simp_all
      rw [loadLoop_more (by have := hx1 f (by omega); rw [he] at this; exact this), hload f (by omega)]
      simp only [List.append_assoc, List.singleton_append, List.length_cons, Nat.mul_add, Nat.add_assoc, Nat.mul_one,
        Nat.add_comm 80]

end Verif.Vfs
