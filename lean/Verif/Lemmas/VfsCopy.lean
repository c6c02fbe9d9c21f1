import Verif.Spec.VfsCopy
import Verif.Lemmas.VfsDiskInv
import Verif.Lemmas.VfsDiskLoad
import Verif.Lemmas.MeshSave

/-!
# Lemmas about trees that were put together from disks
-/

namespace Verif.Vfs

open Spec

/-- What an entry of a catalog can be called. -/
def Label (n : Bytes) : Prop := n.length ≤ 64 ∧ (Visible n → Clean n)

theorem label_entry {s : Bytes} (h : s.length = 64) : Label (entryName s) := by
  have hl : ∀ s : Bytes, (rtrim s).length ≤ s.length := by
    intro s
    induction s with
    | nil => exact Nat.le_refl _
    | cons c cs ih =>
      unfold rtrim
      split
      · split
        · simp
        · simp
      · rw [List.length_cons, List.length_cons]
        omega
  unfold entryName
  rw [trim_eq]
  by_cases hr : rtrim s = []
  · rw [hr]
    simp only [List.isEmpty_nil, if_true]
    exact ⟨by omega, fun hv => absurd hr hv⟩
  · have hne : (rtrim s).isEmpty = false := by cases hs : rtrim s with
      | nil => exact absurd hs hr
      | cons => rfl
    rw [hne]
    simp only [Bool.false_eq_true, if_false]
    exact ⟨by have := hl s; omega, fun _ => rtrim_rtrim s⟩

theorem padded_length {k : Nat} {s s' : Rs} {bs : Bytes} (h : Rd.readPadded k s = .ok (bs, s')) : bs.length = k := by
  unfold Rd.readPadded Rd.read at h
  dsimp only at h
  split at h
  · cases h
    simp
    omega
  · cases h
    rw [List.length_append, List.length_replicate, List.length_take]
    omega

theorem label_read {s s' : Rs} {e : Entry} (h : readEntry s = .ok (e, s')) : Label e.name := by
  unfold readEntry at h
  obtain ⟨n, s1, e1, h⟩ := Rd.bind_inv h
  obtain ⟨_, s2, -, h⟩ := Rd.bind_inv h
  obtain ⟨_, s3, -, h⟩ := Rd.bind_inv h
  obtain ⟨_, s4, -, h⟩ := Rd.bind_inv h
  obtain ⟨_, s5, -, h⟩ := Rd.bind_inv h
  cases h
  exact label_entry (padded_length e1)

/-- All names of a tree. -/
def Labels (x : Node) : Prop := ∀ y, Inside x y → Label y.name

theorem labels_dir {n t cs} : Labels (.dir n t cs) ↔ Label n ∧ ∀ c ∈ cs, Labels c := by
  constructor
  · intro h
    exact ⟨h _ (.self _), fun c hc y hy => h y (.kid hc hy)⟩
  · intro h y hy
    cases hy with
    | self => exact h.1
    | kid hc hi => exact h.2 _ hc _ hi

theorem labels_file {n t d} (h : Label n) : Labels (.file n t d) := by
  intro y hy
  cases hy
  exact h

/-- The invariant of a directory while a disk is mounted. -/
structure Named (cs : List Node) : Prop where
  ordered : Ordered cs
  names : ∀ c ∈ cs, Labels c

theorem Named.nil : Named [] := ⟨List.Pairwise.nil, by simp⟩

theorem Named.create {cs : List Node} {n : Node} (h : Named cs) (hn : Labels n) : Named (createIn n cs).1 :=
  ⟨ordered_create h.ordered, fun c hc => (mem_create hc).elim (fun e => e ▸ hn) (h.names c)⟩

theorem Named.remove {cs : List Node} {name : Bytes} (h : Named cs) : Named (removeIn name cs).1 :=
  ⟨ordered_remove h.ordered, fun c hc => h.names c (mem_remove hc)⟩

theorem Named.replace {cs : List Node} {n : Node} (h : Named cs) (hn : Labels n) : Named (setReplace n cs) :=
  ⟨ordered_replace h.ordered, fun c hc => (mem_replace hc).elim (fun e => e ▸ hn) (h.names c)⟩

theorem enterDir_named {k : Disk} {name : Bytes} (hl : Label name) {cs : List Node} (h : Named cs) :
    Named (enterDir k name cs).1 ∧ ∀ x, (enterDir k name cs).2 = some x → Labels x := by
  have hnew : Labels (.dir name k.time []) := labels_dir.2 ⟨hl, by simp⟩
  have key : ∀ cs, Named cs → Named (createIn (.dir name k.time []) cs).1 ∧ Labels (createIn (.dir name k.time []) cs).2 := by
    intro cs h
    refine ⟨h.create hnew, ?_⟩
    rcases create_snd_mem (n := .dir name k.time []) h.ordered with e | e
    · rw [e]; exact hnew
    · exact h.names _ e
  unfold enterDir
  cases hc : childIn name cs with
  | none =>
    obtain ⟨a, b⟩ := key cs h
    refine ⟨a, ?_⟩
    intro x hx
    simp only [Option.some.injEq] at hx
    subst hx; exact b
  | some ex =>
    have hm := childIn_mem h.ordered hc
    dsimp only
    split
    · split
      · obtain ⟨a, b⟩ := key _ (h.remove (name := name))
        refine ⟨a, ?_⟩
        intro x hx
        simp only [Option.some.injEq] at hx
        subst hx; exact b
      · exact ⟨h, by simp⟩
    · refine ⟨h, ?_⟩
      intro x hx
      simp only [Option.some.injEq] at hx
      subst hx; exact h.names _ hm

theorem enterFile_named {k : Disk} {e : Entry} (hl : Label e.name) {cs : List Node} (h : Named cs) : Named (enterFile k e cs) := by
  have hnew : Labels (fileNode k e) := labels_file hl
  unfold enterFile
  split
  · exact h
  · split
    · exact h.create hnew
    · split
      · exact h.remove.create hnew
      · exact h

theorem load_named {k : Disk} (fuel : Nat) :
    (∀ cs s, Named cs → (∀ c ∈ cs, Wf c) → Named (loadEntry k fuel cs s).1) ∧
    (∀ cs s, Named cs → (∀ c ∈ cs, Wf c) → Named (loadLoop k fuel cs s).1) := by
  induction fuel with
  | zero => exact ⟨fun cs s h _ => by simpa [loadEntry] using h, fun cs s h _ => by simpa [loadLoop] using h⟩
  | succ fuel ih =>
    have good := load_good (Q := fun _ => True) (k := k) (fun _ _ => trivial) fuel
    have gd : ∀ cs, Ordered cs → (∀ c ∈ cs, Wf c) → Good (fun _ => True) cs := fun cs h1 h2 => ⟨h1, h2, fun _ _ _ _ _ _ => trivial⟩
    constructor
    · intro cs s h hw
      unfold loadEntry
      cases hr : readEntry s with
      | error e => exact h
      | ok r =>
        obtain ⟨e, s1⟩ := r
        have hl := label_read hr
        dsimp only
        split
        · have hd := enterDir_named (k := k) hl h
          have hg := enterDir_good (k := k) (name := e.name) (gd cs h.ordered hw)
          cases hen : enterDir k e.name cs with
          | mk cs1 o =>
            rw [hen] at hd hg
            cases o with
            | none => exact hd.1
            | some x =>
              cases x with
              | file n t d => exact hd.1
              | dir n t kids =>
                dsimp only
                have hx := labels_dir.1 (hd.2 _ rfl)
                obtain ⟨hw', -⟩ := hg.2 _ rfl
                split
                · exact hd.1
                · have hk := ih.2 kids (by assumption) ⟨hw'.ordered, hx.2⟩ (fun _ => hw'.kids)
                  generalize hl : loadLoop k fuel kids _ = res at hk ⊢
                  obtain ⟨kids', r⟩ := res
                  have := hd.1.replace (n := .dir n t kids') (labels_dir.2 ⟨hx.1, hk.names⟩)
                  cases r with
                  | error x => exact this
                  | ok s' =>
                    dsimp only
                    split <;> exact this
        · exact enterFile_named hl h
    · intro cs s h hw
      unfold loadLoop
      have := ih.1 cs s h hw
      have hg := good.1 cs s (gd cs h.ordered hw)
      generalize hl : loadEntry k fuel cs s = res at this hg
      obtain ⟨cs', r⟩ := res
      cases r with
      | error e => exact this
      | ok q =>
        obtain ⟨b, s'⟩ := q
        cases b
        · exact ih.2 cs' s' this hg.wf
        · exact this

theorem mountDisk_labels (unixTime : BitVec 32 → Int) (fuel : Nat) (image : Bytes) (o : Overwrite) (root : Node) (hw : Wf root)
    (hl : Labels root) : Labels (mountDisk unixTime fuel image o root).1 := by
  unfold mountDisk
  cases readDiskHeader ⟨image, 0⟩ with
  | error e => exact hl
  | ok q =>
    obtain ⟨⟨catalog, dos, zipped⟩, s⟩ := q
    cases root with
    | file n t d => exact hl
    | dir n t cs =>
      dsimp only
      cases Rd.seek (catalog.toNat : Nat) .beg s with
      | error e => exact hl
      | ok q =>
        obtain ⟨u, s'⟩ := q
        have h := labels_dir.1 hl
        exact labels_dir.2 ⟨h.1, ((load_named fuel).2 cs s' ⟨hw.ordered, h.2⟩ (fun _ => hw.kids)).names⟩

theorem _root_.Verif.Spec.Merged.tidy {unixTime : BitVec 32 → Int} {root : Node} (h : Merged unixTime root) : Wf root ∧ Labels root := by
  induction h with
  | empty =>
    refine ⟨.dir _ _ _ List.Pairwise.nil (by simp), labels_dir.2 ⟨⟨by decide, fun _ => by decide⟩, by simp⟩⟩
  | mount fuel image o _ ih =>
    exact ⟨(mountDisk_good (Q := fun _ => True) (fun _ _ _ _ => trivial) unixTime fuel o _ ih.1 (fun _ _ _ _ => trivial)).1,
      mountDisk_labels unixTime fuel image o _ ih.1 ih.2⟩

theorem nameFits_of {n : Bytes} (h : Label n) (hv : Visible n) : NameFits n :=
  ⟨fun e => hv (by rw [e]; rfl), h.2 hv, h.1⟩

mutual
theorem fits_of (unz : Zip.Unz) (P : Bytes → Bytes → Prop) : (x : Node) → (t : FTree) → view unz x = some t → Labels x → t.Storable P → t.Fits P
  | .file n tm d, t, hv, hl, hs => by
    obtain ⟨c, rfl, -⟩ := view_file hv
    exact ⟨nameFits_of (hl _ (.self _)) hs.1, hs.2⟩
  | .dir n tm cs, t, hv, hl, hs => by
    obtain ⟨ts, rfl, h1⟩ := view_dir hv
    have := labels_dir.1 hl
    exact ⟨nameFits_of this.1 hs.1, hs.2.1, fitsAll_of unz P cs ts h1 this.2 hs.2.2⟩
theorem fitsAll_of (unz : Zip.Unz) (P : Bytes → Bytes → Prop) : (cs : List Node) → (ts : List FTree) → viewAll unz cs = some ts →
    (∀ c ∈ cs, Labels c) → FTree.StorableAll P ts → FTree.FitsAll P ts
  | [], ts, hv, _, _ => by
    cases hv
    exact trivial
  | c :: cs, ts, hv, hl, hs => by
    obtain ⟨t, ts', rfl, h1, h2⟩ := viewAll_cons hv
    exact ⟨fits_of unz P c t h1 (hl c (by simp)) hs.1, fitsAll_of unz P cs ts' h2 (fun c hc => hl c (by simp [hc])) hs.2⟩
end

end Verif.Vfs
