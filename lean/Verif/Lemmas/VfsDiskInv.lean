import Verif.Lemmas.VfsDisk
import Verif.Lemmas.VfsPath

/-!
# Lemmas about disk archives: what mounting can not break
-/

namespace Verif.Vfs

open Spec

/-- All files of a tree satisfy `Q`. -/
def FilesIn (Q : Desc → Prop) (x : Node) : Prop := ∀ n t d, Inside x (.file n t d) → Q d

/-- The invariant of a directory while a disk is mounted. -/
structure Good (Q : Desc → Prop) (cs : List Node) : Prop where
  ordered : Ordered cs
  wf : ∀ c ∈ cs, Wf c
  files : ∀ c ∈ cs, FilesIn Q c

theorem Good.nil {Q} : Good Q [] := ⟨List.Pairwise.nil, by simp, by simp⟩

theorem Good.create {Q : Desc → Prop} {cs : List Node} {n : Node} (h : Good Q cs) (hw : Wf n) (hf : FilesIn Q n) :
    Good Q (createIn n cs).1 :=
  ⟨ordered_create h.ordered, fun c hc => (mem_create hc).elim (fun e => e ▸ hw) (h.wf c),
    fun c hc => (mem_create hc).elim (fun e => e ▸ hf) (h.files c)⟩

theorem Good.remove {Q : Desc → Prop} {cs : List Node} {name : Bytes} (h : Good Q cs) : Good Q (removeIn name cs).1 :=
  ⟨ordered_remove h.ordered, fun c hc => h.wf c (mem_remove hc), fun c hc => h.files c (mem_remove hc)⟩

theorem Good.replace {Q : Desc → Prop} {cs : List Node} {n : Node} (h : Good Q cs) (hw : Wf n) (hf : FilesIn Q n) :
    Good Q (setReplace n cs) :=
  ⟨ordered_replace h.ordered, fun c hc => (mem_replace hc).elim (fun e => e ▸ hw) (h.wf c),
    fun c hc => (mem_replace hc).elim (fun e => e ▸ hf) (h.files c)⟩

theorem filesIn_dir {Q : Desc → Prop} {n t cs} : FilesIn Q (.dir n t cs) ↔ ∀ c ∈ cs, FilesIn Q c := by
  constructor
  · intro h c hc n' t' d hi; exact h n' t' d (.kid hc hi)
  · intro h n' t' d hi
    cases hi with
    | kid hc hi => exact h _ hc _ _ _ hi

theorem filesIn_file {Q : Desc → Prop} {n t d} (h : Q d) : FilesIn Q (.file n t d) := by
  intro n' t' d' hi
  cases hi
  exact h

theorem Good.dir {Q : Desc → Prop} {n t cs} (h : Good Q cs) : Wf (.dir n t cs) ∧ FilesIn Q (.dir n t cs) :=
  ⟨Wf.dir _ _ _ h.ordered h.wf, filesIn_dir.2 h.files⟩

theorem Good.of {Q : Desc → Prop} {n t cs} (hw : Wf (.dir n t cs)) (hf : FilesIn Q (.dir n t cs)) : Good Q cs :=
  ⟨hw.ordered, fun _ => hw.kids, filesIn_dir.1 hf⟩

/-- The node `enterDir` leads to is part of the directory. -/
theorem enterDir_good {Q : Desc → Prop} {k : Disk} {name : Bytes} {cs : List Node} (h : Good Q cs) :
    Good Q (enterDir k name cs).1 ∧ ∀ x, (enterDir k name cs).2 = some x → Wf x ∧ FilesIn Q x := by
  have hnew : Wf (.dir name k.time []) ∧ FilesIn Q (.dir name k.time []) := Good.nil.dir
  have key : ∀ cs, Good Q cs → Good Q (createIn (.dir name k.time []) cs).1 ∧
      (Wf (createIn (.dir name k.time []) cs).2 ∧ FilesIn Q (createIn (.dir name k.time []) cs).2) := by
    intro cs h
    refine ⟨h.create hnew.1 hnew.2, ?_⟩
    rcases create_snd_mem (n := .dir name k.time []) h.ordered with e | e
    · rw [e]; exact hnew
    · exact ⟨h.wf _ e, h.files _ e⟩
  unfold enterDir
  cases hc : childIn name cs with
  | none =>
    obtain ⟨a, b⟩ := key cs h
    refine ⟨a, ?_⟩
    intro x hx
    simp only [Option.some.injEq] at hx
    subst hx; exact b
  | some ex =>
    have hm := childIn_mem h.ordered hc
    dsimp only
    split
    · split
      · obtain ⟨a, b⟩ := key _ (h.remove (name := name))
        refine ⟨a, ?_⟩
        intro x hx
        simp only [Option.some.injEq] at hx
        subst hx; exact b
      · exact ⟨h, by simp⟩
    · refine ⟨h, ?_⟩
      intro x hx
      simp only [Option.some.injEq] at hx
      subst hx; exact ⟨h.wf _ hm, h.files _ hm⟩

/-- What is known of the files of a disk. -/
def DiskFile (k : Disk) (d : Desc) : Prop :=
  d.mem = k.buf ∧ d.zipped = k.zipped ∧
    if k.zipped then d.off + d.size = k.buf.length
    else d.off < 2 ^ 32 ∧ d.size < 2 ^ 32 ∧ (d.off + d.size) % 2 ^ 32 ≤ k.buf.length

theorem enterFile_good {Q : Desc → Prop} {k : Disk} (hQ : ∀ d, DiskFile k d → Q d) {e : Entry} {cs : List Node}
    (h : Good Q cs) : Good Q (enterFile k e cs) := by
  by_cases hbad : outside k e = true
  · unfold enterFile; rw [hbad]; exact h
  · have hb := eq_false_of_ne_true hbad
    have hnew : ∀ cs, Good Q cs → Good Q (createIn (fileNode k e) cs).1 := by
      intro cs h
      refine h.create (Wf.file _ _ _) (filesIn_file (hQ _ ⟨rfl, rfl, ?_⟩))
      unfold outside at hb
      cases hz : k.zipped
      · simp only [hz, Bool.false_eq_true, if_false, decide_eq_false_iff_not, Desc.make] at hb ⊢
        refine ⟨e.offset.isLt, e.size.isLt, ?_⟩
        rw [BitVec.toNat_add] at hb
        omega
      · simp only [hz, if_true, decide_eq_false_iff_not, Desc.make] at hb ⊢
        omega
    unfold enterFile
    rw [hb]
    simp only [Bool.false_eq_true, if_false]
    split
    · exact hnew _ h
    · split
      · exact hnew _ h.remove
      · exact h

theorem load_good {Q : Desc → Prop} {k : Disk} (hQ : ∀ d, DiskFile k d → Q d) (fuel : Nat) :
    (∀ cs s, Good Q cs → Good Q (loadEntry k fuel cs s).1) ∧ (∀ cs s, Good Q cs → Good Q (loadLoop k fuel cs s).1) := by
  induction fuel with
  | zero => exact ⟨fun cs s h => by simpa [loadEntry] using h, fun cs s h => by simpa [loadLoop] using h⟩
  | succ fuel ih =>
    constructor
    · intro cs s h
      unfold loadEntry
      cases readEntry s with
      | error e => exact h
      | ok r =>
        obtain ⟨e, s⟩ := r
        dsimp only
        split
        · have hd := enterDir_good (k := k) (name := e.name) h
          cases hen : enterDir k e.name cs with
          | mk cs1 o =>
            rw [hen] at hd
            cases o with
            | none => exact hd.1
            | some x =>
              cases x with
              | file n t d => exact hd.1
              | dir n t kids =>
                dsimp only
                obtain ⟨hw, hf⟩ := hd.2 _ rfl
                split
                · exact hd.1
                · have hk := ih.2 kids (by assumption) (Good.of hw hf)
                  generalize hl : loadLoop k fuel kids _ = res at hk ⊢
                  obtain ⟨kids', r⟩ := res
                  have := hd.1.replace (n := .dir n t kids') (hk.dir).1 (hk.dir).2
                  cases r with
                  | error x => exact this
                  | ok s' =>
                    dsimp only
                    split <;> exact this
        · exact enterFile_good hQ h
    · intro cs s h
      unfold loadLoop
      have := ih.1 cs s h
      generalize hl : loadEntry k fuel cs s = res at this
      obtain ⟨cs', r⟩ := res
      cases r with
      | error e => exact this
      | ok q =>
        obtain ⟨b, s'⟩ := q
        cases b
        · exact ih.2 cs' s' this
        · exact this

theorem mountDisk_good {Q : Desc → Prop} {buf : Bytes} (hQ : ∀ k d, k.buf = buf → DiskFile k d → Q d)
    (unixTime : BitVec 32 → Int) (fuel : Nat) (o : Overwrite) (root : Node) (hw : Wf root) (hf : FilesIn Q root) :
    Wf (mountDisk unixTime fuel buf o root).1 ∧ FilesIn Q (mountDisk unixTime fuel buf o root).1 := by
  unfold mountDisk
  cases readDiskHeader ⟨buf, 0⟩ with
  | error e => exact ⟨hw, hf⟩
  | ok q =>
    obtain ⟨⟨catalog, dos, zipped⟩, s⟩ := q
    cases root with
    | file n t d => exact ⟨hw, hf⟩
    | dir n t cs =>
      dsimp only
      cases Rd.seek (catalog.toNat : Nat) .beg s with
      | error e => exact ⟨hw, hf⟩
      | ok q =>
        obtain ⟨u, s'⟩ := q
        exact ((load_good (Q := Q) (k := ⟨buf, catalog, unixTime dos, zipped, o⟩) (fun d => hQ _ d rfl) fuel).2 cs s'
          (Good.of hw hf)).dir

end Verif.Vfs
