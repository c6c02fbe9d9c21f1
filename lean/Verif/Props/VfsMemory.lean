import Verif.Lemmas.VfsMemory
import Verif.Lemmas.Mmap
import Verif.Lemmas.VfsDisk

/-! # C110: mapped files and the memory behind a file system -/

namespace Verif.Props

open Verif.Spec

section mapped

open Verif.Mmap

/-- **C110**, mapped files: in every history of correct uses, everything that is read is what the files hold; no file descriptor stays open;
and the mappings at the end are exactly the files that a variable still holds. -/
theorem c110_mapped (os : List Op) (bs : List Bytes) (a : Holders) (h : Holders.Run {} os bs a) :
    ∃ w : World, World.run {} os = (w, .ok bs) ∧ w.fds = 0 ∧ w.maps.length = a.files.length ∧
      ∀ (f : Nat) (b : Bytes), a.files[f]? = some b → (a.Held f → w.maps[f]? = some (some b)) ∧ (¬ a.Held f → w.maps[f]? = some none) := by
  obtain ⟨w, hr, m⟩ := run_match h match_empty
  exact ⟨w, hr, m.closed, m.length, fun f b hf => ⟨m.held f b hf, m.free f b hf⟩⟩

/-- **C110**: when all variables are gone, so are all mappings. -/
theorem c110_gone (os : List Op) (bs : List Bytes) (a : Holders) (h : Holders.Run {} os bs a) (hg : ∀ v ∈ a.vars, v = none) :
    ∃ w : World, World.run {} os = (w, .ok bs) ∧ w.fds = 0 ∧ ∀ m ∈ w.maps, m = none := by
  obtain ⟨w, hr, hc, hl, hm⟩ := c110_mapped os bs a h
  refine ⟨w, hr, hc, ?_⟩
  intro m hmem
  obtain ⟨f, hf⟩ := List.mem_iff_getElem?.1 hmem
  have hlt : f < a.files.length := hl ▸ (List.getElem?_eq_some_iff.1 hf).1
  have := (hm f _ (List.getElem?_eq_getElem hlt)).2 (fun hh => by cases hg _ hh)
  rw [hf] at this
  exact Option.some.inj this

theorem append_run {a a' a'' : Holders} {os os' : List Op} {bs bs' : List Bytes} (h1 : Holders.Run a os bs a') (h2 : Holders.Run a' os' bs' a'') :
    Holders.Run a (os ++ os') (bs ++ bs') a'' := by
  induction h1 with
  | nil => exact h2
  | cons hs _ ih => exact .cons hs (ih h2)

/-- **C110**, readers of files: whatever happened before, a reader that is made from the path of a file reads the file's bytes. -/
theorem c110_reader (os : List Op) (bs : List Bytes) (a : Holders) (h : Holders.Run {} os bs a) (b : Bytes) :
    ∃ w : World, World.run {} (os ++ (readerOps a.vars.length (regular b) ++ [.read a.ptrs.length])) = (w, .ok (bs ++ [[], [], [], [], b])) := by
  have key : ∃ a', Holders.Run a (readerOps a.vars.length (regular b) ++ [.read a.ptrs.length]) [[], [], [], [], b] a' := by
    by_cases hb : b = []
    · subst hb
      refine ⟨_, .cons .empty (.cons (.take _ none (by simp)) (.cons (.move _ none (by simp)) (.cons (.destroy _ none ?_) (.cons
        (.read _ none _ (by simp) .none) (.nil _)))))⟩
      exact get_snoc.2 (.inl ((get_set (by simp)).2 (.inr ⟨rfl, rfl⟩)))
    · refine ⟨_, .cons (.new b hb) (.cons (.take _ (some a.files.length) (by simp)) (.cons (.move _ (some a.files.length) (by simp))
        (.cons (.destroy _ none ?_) (.cons (.read _ (some a.files.length) _ (by simp) (.some ?_ (by simp))) (.nil _)))))⟩
      · exact get_snoc.2 (.inl ((get_set (by simp)).2 (.inr ⟨rfl, rfl⟩)))
      · refine held_iff.2 ⟨a.vars.length + 1, ?_⟩
        dsimp only
        rw [get_set (by simp)]
        exact .inl ⟨by omega, get_snoc.2 (.inr ⟨by simp, rfl⟩)⟩
  obtain ⟨a', hk⟩ := key
  obtain ⟨w, hw, -⟩ := c110_mapped _ _ _ (append_run h hk)
  exact ⟨w, hw⟩

/-- Variables are moved into new ones: nothing of what could be read is lost, and they hold nothing afterwards. -/
theorem moves_run (vs : List Nat) (hn : vs.Nodup) : ∀ a : Holders, (∀ v ∈ vs, ∃ h, a.vars[v]? = some (some h)) →
    ∃ a', Holders.Run a (vs.map Op.move) (vs.map fun _ => []) a' ∧ (∀ v ∈ vs, a'.vars[v]? = some (some none)) ∧
      (∀ v, v ∉ vs → ∀ x, a.vars[v]? = some x → a'.vars[v]? = some x) ∧ (∀ h c, a.Shows h c → a'.Shows h c) ∧ a'.ptrs = a.ptrs := by
  induction vs with
  | nil => exact fun a _ => ⟨a, .nil a, by simp, fun v _ x hx => hx, fun h c hs => hs, rfl⟩
  | cons v vs ih =>
    intro a ha
    obtain ⟨h, hv⟩ := ha v (by simp)
    have hvl : v < a.vars.length := (List.getElem?_eq_some_iff.1 hv).1
    have hnv := (List.nodup_cons.1 hn)
    have hkeep : ∀ u, u ≠ v → ∀ x, a.vars[u]? = some x → (a.vars.set v (some none) ++ [some h])[u]? = some x :=
      fun u hu x hx => get_snoc.2 (.inl ((get_set hvl).2 (.inl ⟨fun e => hu e.symm, hx⟩)))
    obtain ⟨a', hr, h1, h2, h3, h4⟩ := ih hnv.2 { a with vars := a.vars.set v (some none) ++ [some h] } (by
      intro u hu
      obtain ⟨g, hg⟩ := ha u (by simp [hu])
      exact ⟨g, hkeep u (fun e => hnv.1 (e ▸ hu)) _ hg⟩)
    refine ⟨a', .cons (.move v h hv) hr, ?_, ?_, ?_, h4⟩
    · intro u hu
      rcases List.mem_cons.1 hu with rfl | hu
      · exact h2 u hnv.1 _ (get_snoc.2 (.inl ((get_set hvl).2 (.inr ⟨rfl, rfl⟩))))
      · exact h1 u hu
    · intro u hu x hx
      simp only [List.mem_cons, not_or] at hu
      exact h2 u hu.2 x (hkeep u hu.1 x hx)
    · intro g c hs
      refine h3 g c ?_
      cases hs with
      | none => exact .none
      | some hh hf =>
        refine .some ?_ hf
        obtain ⟨i, hi⟩ := held_iff.1 hh
        by_cases hiv : i = v
        · subst hiv
          rw [hv] at hi
          cases hi
          exact held_iff.2 ⟨_, get_snoc.2 (.inr ⟨rfl, rfl⟩)⟩
        · exact held_iff.2 ⟨i, hkeep i hiv _ hi⟩

/-- Variables that hold nothing are destroyed. -/
theorem destroys_run (vs : List Nat) (hn : vs.Nodup) : ∀ a : Holders, (∀ v ∈ vs, a.vars[v]? = some (some none)) →
    ∃ a', Holders.Run a (vs.map Op.destroy) (vs.map fun _ => []) a' ∧ (∀ h c, a.Shows h c → a'.Shows h c) ∧ a'.ptrs = a.ptrs := by
  induction vs with
  | nil => exact fun a _ => ⟨a, .nil a, fun h c hs => hs, rfl⟩
  | cons v vs ih =>
    intro a ha
    have hv := ha v (by simp)
    have hvl : v < a.vars.length := (List.getElem?_eq_some_iff.1 hv).1
    have hnv := (List.nodup_cons.1 hn)
    obtain ⟨a', hr, h3, h4⟩ := ih hnv.2 { a with vars := a.vars.set v none } (by
      intro u hu
      exact (get_set hvl).2 (.inl ⟨fun e => hnv.1 (e ▸ hu), ha u (by simp [hu])⟩))
    refine ⟨a', .cons (.destroy v none hv) hr, ?_, h4⟩
    intro g c hs
    refine h3 g c ?_
    cases hs with
    | none => exact .none
    | some hh hf =>
      refine .some ?_ hf
      obtain ⟨i, hi⟩ := held_iff.1 hh
      refine held_iff.2 ⟨i, (get_set hvl).2 (.inl ⟨?_, hi⟩)⟩
      rintro rfl
      rw [hv] at hi
      cases hi

/-- **C110**, the files of a file system: when another file is mapped and the vector of the mapped files has to grow, every address that was
taken before still shows the bytes of its file. -/
theorem c110_grow (os : List Op) (bs : List Bytes) (a : Holders) (h : Holders.Run {} os bs a) (vs : List Nat) (hn : vs.Nodup)
    (hv : ∀ v ∈ vs, ∃ f, a.vars[v]? = some (some f)) (b : Bytes) (k : Nat) (f : Option Nat) (c : Bytes) (hk : a.ptrs[k]? = some f)
    (hc : a.Shows f c) : ∃ (w : World) (cs : List Bytes), World.run {} (os ++ (growOps (regular b) vs ++ [.read k])) = (w, .ok (cs ++ [c])) := by
  have hnew : ∃ a1, a.Step (.new (regular b)) [] a1 ∧ (∀ v ∈ vs, ∃ f, a1.vars[v]? = some (some f)) ∧ a1.Shows f c ∧ a1.ptrs = a.ptrs := by
    have hold : ∀ x, ∀ v ∈ vs, ∃ f, (a.vars ++ [x])[v]? = some (some f) := by
      intro x v hm
      obtain ⟨f, hf⟩ := hv v hm
      exact ⟨f, get_snoc.2 (.inl hf)⟩
    by_cases hb : b = []
    · subst hb
      refine ⟨_, .empty, hold _, ?_, rfl⟩
      cases hc with
      | none => exact .none
      | some hh hf => exact .some (List.mem_append_left _ hh) hf
    · refine ⟨_, .new b hb, hold _, ?_, rfl⟩
      cases hc with
      | none => exact .none
      | some hh hf => exact .some (List.mem_append_left _ hh) (get_snoc.2 (.inl hf))
  obtain ⟨a1, s1, v1, c1, p1⟩ := hnew
  obtain ⟨a2, r2, h2, -, k2, p2⟩ := moves_run vs hn a1 v1
  obtain ⟨a3, r3, k3, p3⟩ := destroys_run vs hn a2 h2
  have hr : Holders.Run a (growOps (regular b) vs ++ [.read k]) (([] :: ((vs.map fun _ => []) ++ (vs.map fun _ => []))) ++ [c]) a3 :=
    append_run (.cons s1 (append_run r2 r3)) (.cons (.read k f c (by rw [p3, p2, p1]; exact hk) (k3 _ _ (k2 _ _ c1))) (.nil _))
  obtain ⟨w, hw, -⟩ := c110_mapped _ _ _ (append_run h hr)
  exact ⟨w, bs ++ ([] :: ((vs.map fun _ => []) ++ (vs.map fun _ => []))), by rw [hw, List.append_assoc]⟩

/-- Two files are mapped, moved about, read and unmapped; the hypotheses of `c110_gone` hold. -/
example : ∃ a, Holders.Run {} [.new (regular b!"ab"), .take 0, .new (regular []), .move 0, .destroy 0, .read 0, .destroy 2, .destroy 1]
    [[], [], [], [], [], b!"ab", [], []] a ∧ ∀ v ∈ a.vars, v = none := by
  refine ⟨⟨[b!"ab"], [none, none, none], [some 0]⟩, ?_, by simp⟩
  refine .cons (.new _ (by decide)) (.cons (.take 0 (some 0) rfl) (.cons .empty (.cons (.move 0 (some 0) rfl) (.cons (.destroy 0 none rfl)
    (.cons (.read 0 (some 0) b!"ab" rfl (.some ?_ rfl)) (.cons (.destroy 2 (some 0) rfl) (.cons (.destroy 1 none rfl) (.nil _))))))))
  unfold Holders.Held
  decide

example : (World.run {} [.new (regular b!"ab"), .take 0, .new (regular []), .move 0, .destroy 0, .read 0, .destroy 2, .destroy 1]).2 =
    .ok [[], [], [], [], [], b!"ab", [], []] := by decide

/-- Reading behind the end of the object that held the file is undefined. -/
example : (World.run {} [.new (regular b!"ab"), .take 0, .destroy 0, .read 0]).2 = .error .ub := by decide

/-- **C110** is false of paths that can be opened but not mapped, like directories: no exception is thrown, and reading goes through the
address that stands for the failure. -/
theorem c110_directory_violation (n : Nat) (hn : n ≠ 0) : World.run {} [.new ⟨true, some n, none⟩, .take 0] =
      (⟨[], 0, [some ⟨.failed, n⟩], [⟨.failed, n⟩]⟩, .ok [[], []]) ∧
    (World.run {} [.new ⟨true, some n, none⟩, .take 0, .read 0]).2 = .error .ub := by
  refine ⟨rfl, ?_⟩
  simp [World.run, World.step, World.new, World.get, World.bytes, hn]

/-- **C110** is false of files whose size cannot be asked for: an exception is thrown, but the file descriptor stays open. -/
theorem c110_stat_violation (b : Option Bytes) : World.run {} [.new ⟨true, none, b⟩] = (⟨[], 1, [], []⟩, .error (.throw .filesystem)) := rfl

end mapped

section mounted

open Verif.Vfs

/-- **C110**, mounted files: whatever was done to a file system, every file in it lies in memory that the file system keeps, that the
caller promised to keep, or in that of an image whose mount from a reader ended with an exception. -/
theorem c110_files (unixTime : BitVec 32 → Int) (lent : Bytes → Prop) (fs : Fs) (failed : List Bytes)
    (h : FsHistory unixTime lent fs failed) (n : Bytes) (t : Int) (d : Desc) (hi : Inside fs.root (.file n t d)) :
    d.mem ∈ fs.owned ∨ lent d.mem ∨ d.mem ∈ failed := by
  have key : Sure (fun d => d.mem ∈ fs.owned ∨ lent d.mem ∨ d.mem ∈ failed) fs.root := by
    clear hi
    induction h with
    | new => exact sure_leaf _ _
    | @step fs failed op _ hl hno ih =>
      exact op_sure unixTime lent (· ∈ failed) fs op hl (fun fuel image o e he hx => absurd hx (hno fuel image o e he)) ih
    | @half fs failed fuel image o e _ he ih =>
      refine op_sure unixTime lent (· ∈ failed ++ [image]) fs (.mountRead fuel image o) trivial ?_ (sure_mono ih ?_)
      · intro fuel' image' o' e' hx _
        cases hx
        simp
      · rintro d (h | h | h)
        · exact .inl h
        · exact .inr (.inl h)
        · exact .inr (.inr (List.mem_append_left _ h))
  exact key.2 n t d hi

/-- **C110** as long as no mount from a reader ends with an exception. -/
theorem c110_files_partial (unixTime : BitVec 32 → Int) (lent : Bytes → Prop) (fs : Fs) (h : FsHistory unixTime lent fs [])
    (n : Bytes) (t : Int) (d : Desc) (hi : Inside fs.root (.file n t d)) : d.mem ∈ fs.owned ∨ lent d.mem := by
  rcases c110_files unixTime lent fs [] h n t d hi with h | h | h
  · exact .inl h
  · exact .inr h
  · simp at h

/-- **C110**: no call gives memory back, so that what is kept at some time is kept later on. -/
theorem c110_kept (unixTime : BitVec 32 → Int) (fs : Fs) (ops : List FsOp) (b : Bytes) (hb : b ∈ fs.owned) :
    b ∈ (ops.foldl (fun fs op => (op.run unixTime fs).1) fs).owned := by
  induction ops generalizing fs with
  | nil => exact hb
  | cons op ops ih => exact ih _ (op_owned unixTime fs op b hb)

/-- A catalog entry. -/
def diskEntry (n : Bytes) (offset size type : BitVec 32) : Bytes :=
  padName n ++ encW 4 offset ++ encW 4 size ++ encW 4 type ++ encW 4 (0 : BitVec 32)

/-- A disk with the files `A` and one without a name, and a directory without a name. -/
def namelessDisk : Bytes := diskHeader false false 3 2 0 0 ++ diskEntry b!"A" 256 4 0 ++ diskEntry [] 256 4 0 ++ diskEntry [] 0 0 0xC0000000

/-- **C110** is false when mounting from a reader fails half way: the file `A` stays in the file system although its memory is gone. Had the
same disk been mounted from its path, the memory would have been kept. -/
theorem c110_half_violation :
    (∃ fs d, (FsOp.mountRead 20 namelessDisk .all).run (fun _ => 0) {} = (fs, .error (.throw .badVariantAccess)) ∧
      Inside fs.root (.file b!"A" 0 d) ∧ d.mem = namelessDisk ∧ d.size = 4 ∧ fs.owned = []) ∧
    (∃ fs, (FsOp.mountPath 20 (some namelessDisk) .all).run (fun _ => 0) {} = (fs, .error (.throw .badVariantAccess)) ∧
      fs.owned = [namelessDisk]) := by
  have h : mountDisk (fun _ => 0) 20 namelessDisk .all empty = (.dir b!"/" (-1) [.file (List.replicate 64 32) 0 (Desc.make namelessDisk 256 4 false 4),
      .file b!"A" 0 (Desc.make namelessDisk 256 4 false 4)], .error (.throw .badVariantAccess)) := by decide +kernel
  refine ⟨⟨⟨.dir b!"/" (-1) [.file (List.replicate 64 32) 0 (Desc.make namelessDisk 256 4 false 4),
      .file b!"A" 0 (Desc.make namelessDisk 256 4 false 4)], []⟩, Desc.make namelessDisk 256 4 false 4, ?_, ?_, rfl, rfl, rfl⟩,
    ⟨⟨.dir b!"/" (-1) [.file (List.replicate 64 32) 0 (Desc.make namelessDisk 256 4 false 4),
      .file b!"A" 0 (Desc.make namelessDisk 256 4 false 4)], [namelessDisk]⟩, ?_, rfl⟩⟩
  · simp only [FsOp.run, Fs.mountRead, h]
  · exact .kid (List.mem_cons_of_mem _ (List.mem_cons_self)) (.self _)
  · simp only [FsOp.run, Fs.mountPath, h]
    rfl

/-- A history for `c110_files_partial`: a disk from a path, a directory of the host, and a file of the caller. -/
example : ∃ fs, FsHistory (fun _ => 0) (· = b!"xy") fs [] ∧ (∃ d, Inside fs.root (.file b!"mine" 1 d) ∧ d.mem = b!"xy") := by
  have h1 : FsHistory (fun _ => 0) (· = b!"xy") _ [] := .step (.mountHost 0 [.file b!"F" 5 b!"hello"] b!"/" .all) .new trivial
    (fun _ _ _ _ h => by cases h)
  refine ⟨_, .step (.create [] (.file b!"mine" 1 (Desc.make b!"xy" 0 2 false 0))) h1 ⟨.file _ _ _, ?_⟩ (fun _ _ _ _ h => by cases h), ?_⟩
  · intro n t d hi
    cases hi
    rfl
  · refine ⟨Desc.make b!"xy" 0 2 false 0, ?_, rfl⟩
    have : ((FsOp.create [] (.file b!"mine" 1 (Desc.make b!"xy" 0 2 false 0))).run (fun _ => 0)
        ((FsOp.mountHost 0 [.file b!"F" 5 b!"hello"] b!"/" .all).run (fun _ => 0) {}).1).1.root =
        .dir b!"/" (-1) [.file b!"F" 5 (Desc.make b!"hello" 0 5 false 0), .file b!"mine" 1 (Desc.make b!"xy" 0 2 false 0)] := by decide +kernel
    rw [this]
    exact .kid (List.mem_cons_of_mem _ (List.mem_cons_self)) (.self _)

end mounted

end Verif.Props
