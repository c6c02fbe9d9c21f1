import Verif.Lemmas.VfsDiskRound
import Verif.Lemmas.VfsDiskInv
import Verif.Lemmas.VfsHost
import Verif.Props.Vfs

/-!
# C21, C26 to C29, C63: histories of a Vfs, disk archives
-/

namespace Verif.Props

open Verif.Vfs Verif.Spec
open Zip (Unz)

/-! ## C21 -/

/-- A call that changes a Vfs. -/
inductive VfsOp where
  | mkdir (now : Int) (path : Bytes)
  | remove (path : Bytes)
  | mount (node : Node) (parent : Bytes) (o : Overwrite)
  | mountDisk (unixTime : BitVec 32 → Int) (fuel : Nat) (buf : Bytes) (o : Overwrite)
  | mountHost (clock : Int) (hs : List Host) (parent : Bytes) (o : Overwrite)
  /-- `resolve(path)->create(node)` -/
  | create (path : Bytes) (node : Node)
  /-- `resolve(path)->remove(name)` -/
  | removeAt (path name : Bytes)

/-- The tree after a call. Where an exception leaves the call the tree is what it was at that moment. -/
def VfsOp.run (root : Node) : VfsOp → Node
  | .mkdir now path => match Vfs.mkdir now path root with | .ok (r, _) => r | .error _ => root
  | .remove path => match Vfs.remove path root with | .ok (r, _) => r | .error _ => root
  | .mount node parent o => match Vfs.mount node parent o root with | .ok r => r | .error _ => root
  | .mountDisk unixTime fuel buf o => (Vfs.mountDisk unixTime fuel buf o root).1
  | .mountHost clock hs parent o => (Vfs.mountHost clock hs parent o root).1
  | .create path node =>
    match resolveWith (Node.create node) (path.length + 1) root path with
    | .ok (some (r, _)) => r
    | _ => root
  | .removeAt path name =>
    match resolveWith (Node.remove name) (path.length + 1) root path with
    | .ok (some (r, _)) => r
    | _ => root

/-- The trees passed to a call were built by `file`, `directory`, `create` and `remove`. -/
def VfsOp.Ok : VfsOp → Prop
  | .mount node _ _ => Built node
  | .create _ node => Built node
  | _ => True

theorem built_wf {n : Node} (h : Built n) : Wf n := by
  induction h with
  | file n t d => exact .file _ _ _
  | dir n t => exact .dir _ _ _ List.Pairwise.nil (by simp)
  | create h1 h2 ih1 ih2 => exact wf_create ih2 ih1.ordered (fun _ => ih1.kids) _ _
  | remove name h ih => exact wf_remove ih.ordered (fun _ => ih.kids) _ _

theorem wf_op (root : Node) (h : Wf root) (op : VfsOp) (hop : op.Ok) : Wf (op.run root) := by
  cases op with
  | mkdir now path =>
    simp only [VfsOp.run, Vfs.mkdir]
    rw [mkdirLoop_eq _ _ _ _ (by omega)]
    cases hr : mkdirC now root (comps path) with
    | error e => exact h
    | ok q => exact wf_mkdirC now root _ h hr
  | remove path =>
    simp only [VfsOp.run, Vfs.remove]
    rw [resolveWith_eq _ _ _ _ (by omega)]
    cases hr : resolveC (Node.remove (nameOf path)) root (comps (parentOf path)) with
    | error e => exact h
    | ok q =>
      cases q with
      | none => exact h
      | some q =>
        refine wf_resolveC (f := Node.remove (nameOf path)) ?_ root _ h hr
        intro n n' a hw hf
        cases n with
        | file => simp [Node.remove, Node.children, bind, Except.bind] at hf
        | dir n t cs =>
          simp only [Node.remove, Node.children, bind, Except.bind, pure, Except.pure, Except.ok.injEq, Prod.mk.injEq,
            Node.withChildren] at hf
          rw [← hf.1]; exact wf_remove hw.ordered (fun _ => hw.kids) _ _
  | mount node parent o =>
    simp only [VfsOp.run, Vfs.mount]
    rw [resolveWith_eq _ _ _ _ (by omega)]
    cases hr : resolveC (fun p => match p with
      | .file .. => .error (.throw .vfsFileExists)
      | .dir n t cs => .ok (.dir n t (mountInto o node cs), ())) root (comps parent) with
    | error e => exact h
    | ok q =>
      cases q with
      | none => exact h
      | some q =>
        refine wf_resolveC ?_ root _ h hr
        intro n n' a hw hf
        cases n with
        | file => simp at hf
        | dir n t cs =>
          simp only [Except.ok.injEq, Prod.mk.injEq] at hf
          have := wf_mountInto o node cs (built_wf hop) hw.ordered (fun _ => hw.kids)
          rw [← hf.1]; exact .dir _ _ _ this.1 this.2
  | mountDisk unixTime fuel buf o =>
    exact (mountDisk_good (Q := fun _ => True) (fun _ _ _ _ => trivial) unixTime fuel o root h (fun _ _ _ _ => trivial)).1
  | mountHost clock hs parent o => exact mountHost_wf clock hs parent o root h
  | create path node =>
    simp only [VfsOp.run]
    rw [resolveWith_eq _ _ _ _ (by omega)]
    cases hr : resolveC (Node.create node) root (comps path) with
    | error e => exact h
    | ok q =>
      cases q with
      | none => exact h
      | some q =>
        refine wf_resolveC (f := Node.create node) ?_ root _ h hr
        intro n n' a hw hf
        cases n with
        | file => simp [Node.create, Node.children, bind, Except.bind] at hf
        | dir n t cs =>
          simp only [Node.create, Node.children, bind, Except.bind, pure, Except.pure, Except.ok.injEq, Prod.mk.injEq,
            Node.withChildren] at hf
          rw [← hf.1]; exact wf_create (built_wf hop) hw.ordered (fun _ => hw.kids) _ _
  | removeAt path name =>
    simp only [VfsOp.run]
    rw [resolveWith_eq _ _ _ _ (by omega)]
    cases hr : resolveC (Node.remove name) root (comps path) with
    | error e => exact h
    | ok q =>
      cases q with
      | none => exact h
      | some q =>
        refine wf_resolveC (f := Node.remove name) ?_ root _ h hr
        intro n n' a hw hf
        cases n with
        | file => simp [Node.remove, Node.children, bind, Except.bind] at hf
        | dir n t cs =>
          simp only [Node.remove, Node.children, bind, Except.bind, pure, Except.pure, Except.ok.injEq, Prod.mk.injEq,
            Node.withChildren] at hf
          rw [← hf.1]; exact wf_remove hw.ordered (fun _ => hw.kids) _ _

theorem wf_inside {x y : Node} (h : Inside x y) (hw : Wf x) : Wf y := by
  induction h with
  | self => exact hw
  | kid hc _ ih => exact ih (hw.kids hc)

/-- C21: whatever is done to a Vfs, in every one of its directories the entries are in strictly ascending order of
their names, and no two of them have names that are equal ignoring case. -/
theorem c21_reachable (ops : List VfsOp) (hops : ∀ op ∈ ops, op.Ok) (n : Bytes) (t : Int) (cs : List Node)
    (h : Inside (ops.foldl VfsOp.run empty) (.dir n t cs)) :
    Ordered cs ∧ ∀ i j (hi : i < cs.length) (hj : j < cs.length), i ≠ j → fold (cs[i]).name ≠ fold (cs[j]).name := by
  have hroot : Wf (ops.foldl VfsOp.run empty) := by
    have h0 : Wf empty := .dir _ _ _ List.Pairwise.nil (by simp)
    generalize empty = r at h0
    clear h
    induction ops generalizing r with
    | nil => exact h0
    | cons op ops ih =>
      exact ih (fun o ho => hops o (by simp [ho])) _ (wf_op r h0 op (hops op (by simp)))
  have ho : Ordered cs := (wf_inside h hroot).ordered
  refine ⟨ho, ?_⟩
  have key : ∀ i j (hi : i < cs.length) (hj : j < cs.length), i < j → fold (cs[i]).name ≠ fold (cs[j]).name := by
    intro i j hi hj hlt he
    have := List.pairwise_iff_getElem.1 ho i j hi hj hlt
    rw [((incomparable_iff _ _).2 he).1] at this
    cases this
  intro i j hi hj hne
  rcases Nat.lt_or_gt_of_ne hne with hlt | hlt
  · exact key i j hi hj hlt
  · exact fun e => key j i hj hi hlt e.symm

/-- The hypotheses of `c21_reachable` for a history with a name in two spellings. -/
example : Inside ([VfsOp.mkdir 0 b!"A/b", .mkdir 1 b!"a/B", .mkdir 2 b!"C", .create b!"/" (mkFile b!"c" 3 b!"x")].foldl
    VfsOp.run empty) (.dir b!"/" (-1) [.dir b!"A" 0 [.dir b!"b" 0 []], mkFile b!"c" 3 b!"x"]) := by
  have : [VfsOp.mkdir 0 b!"A/b", .mkdir 1 b!"a/B", .mkdir 2 b!"C", .create b!"/" (mkFile b!"c" 3 b!"x")].foldl
    VfsOp.run empty = .dir b!"/" (-1) [.dir b!"A" 0 [.dir b!"b" 0 []], mkFile b!"c" 3 b!"x"] := by decide
  rw [this]
  exact .self _

/-! ## C26: ordinary archives -/

/-- C26: a Vfs whose directories are not empty and whose names fit the catalog, with a total size below 4 GiB, is saved
without failure, and mounting the saved file into an empty Vfs gives the same names and the same contents everywhere. -/
theorem c26_disk_roundtrip (unz : Unz) (zip : Bytes → Bytes) (g1 : Bool) (dos : BitVec 32) (unixTime : BitVec 32 → Int)
    (o : Overwrite) (root : Node) (n : Bytes) (ts : List FTree) (hw : Wf root) (hv : view unz root = some (.dir n ts))
    (hne : ts ≠ []) (hfit : FTree.FitsAll (fun _ _ => True) ts) (hsize : 296 + FTree.bytesAll storedPlain ts < 2 ^ 32) :
    ∃ image f0 cs, save unz zip false g1 dos root = .ok image ∧ image.length = 296 + FTree.bytesAll storedPlain ts ∧
      viewAll unz cs = some ts ∧ ∀ fuel, fuel ≥ f0 →
      mountDisk unixTime fuel image o empty = (.dir b!"/" (-1) cs, .ok ()) :=
  disk_roundtrip storedPlain unz zip false g1 dos unixTime o _ (stores_plain zip _)
    (fun k hz hI => readback_plain unz k hz hI _) root n ts hw hv hne hfit hsize

/-- A tree with two levels meets the hypotheses. -/
example (unz : Unz) : ∃ root : Node, Wf root ∧
    view unz root = some (.dir b!"/" [.dir b!"A" [.file b!"x" b!"1", .file b!"Y" []], .file b!"b" b!"22"]) ∧
    FTree.FitsAll (fun _ _ => True) [.dir b!"A" [.file b!"x" b!"1", .file b!"Y" []], .file b!"b" b!"22"] ∧
    296 + FTree.bytesAll storedPlain [.dir b!"A" [.file b!"x" b!"1", .file b!"Y" []], .file b!"b" b!"22"] < 2 ^ 32 := by
  refine ⟨.dir b!"/" (-1) [.dir b!"A" 0 [mkFile b!"x" 3 b!"1", mkFile b!"Y" 4 []], mkFile b!"b" 3 b!"22"], ?_, rfl, ?_, by decide⟩
  · refine .dir _ _ _ (by unfold Ordered; decide) ?_
    intro c hc
    simp only [List.mem_cons, List.not_mem_nil, or_false] at hc
    rcases hc with rfl | rfl
    · refine .dir _ _ _ (by unfold Ordered; decide) ?_
      intro c hc
      simp only [List.mem_cons, List.not_mem_nil, or_false] at hc
      rcases hc with rfl | rfl <;> exact .file _ _ _
    · exact .file _ _ _
  · simp only [FTree.FitsAll, FTree.Fits, NameFits]
    refine ⟨⟨⟨by decide, by decide, by decide⟩, by decide, ⟨⟨by decide, by decide, by decide⟩, trivial⟩,
      ⟨⟨by decide, by decide, by decide⟩, trivial⟩, trivial⟩, ⟨⟨by decide, by decide, by decide⟩, trivial⟩, trivial⟩

/-! ## C27: empty directories -/

/-- C27, violated: `A` is empty and `B` holds `F`; after saving and mounting, `A` holds `F`, too. -/
theorem c27_empty_dir_violation :
    ∃ image d e, save (fun _ _ => ([], false)) id false false 0
        (.dir b!"/" (-1) [.dir b!"A" 0 [], .dir b!"B" 0 [mkFile b!"F" 0 b!"x"]]) = .ok image ∧
      mountDisk (fun _ => 0) 20 image .all empty =
        (.dir b!"/" (-1) [.dir b!"A" 0 [.file b!"F" 0 d], .dir b!"B" 0 [.file b!"F" 0 e]], .ok ()) := by
  have h : (save (fun _ _ => ([], false)) id false false 0
      (.dir b!"/" (-1) [.dir b!"A" 0 [], .dir b!"B" 0 [mkFile b!"F" 0 b!"x"]])).toOption.map (fun image =>
        decide (mountDisk (fun _ => 0) 20 image .all empty =
        (.dir b!"/" (-1) [.dir b!"A" 0 [.file b!"F" 0 (Desc.make image 536 1 false 1)],
          .dir b!"B" 0 [.file b!"F" 0 (Desc.make image 536 1 false 1)]], .ok ()))) = some true := by
    decide +kernel
  cases hs : save (fun _ _ => ([], false)) id false false 0
      (.dir b!"/" (-1) [.dir b!"A" 0 [], .dir b!"B" 0 [mkFile b!"F" 0 b!"x"]]) with
  | error e => rw [hs] at h; cases h
  | ok image =>
    rw [hs] at h
    simp only [Except.toOption, Option.map_some, Option.some.injEq, decide_eq_true_eq] at h
    exact ⟨image, _, _, rfl, h⟩

/-- C27, violated: mounting the saved form of an empty Vfs never ends. -/
theorem c27_empty_hang_violation (unz : Unz) (zip : Bytes → Bytes) (compressed g1 : Bool) (dos : BitVec 32)
    (unixTime : BitVec 32 → Int) (o : Overwrite) :
    ∃ image, save unz zip compressed g1 dos empty = .ok image ∧
      ∀ fuel, (mountDisk unixTime fuel image o empty).2 = .error .hang := by
  obtain ⟨index, files, size, hs⟩ := save_eq (fun _ _ => []) unz zip compressed g1 dos (fun _ _ => False)
    (fun _ _ h => h.elim) empty b!"/" [] rfl trivial (by decide)
  have hr := readHeader_eq compressed g1 index files dos size []
  have hhl := diskHeader_length compressed g1 index files dos size
  have he : encTree (fun _ _ => []) (.dir b!"/" []) 0 (296 + 80 * below_ (.dir b!"/" [])) = [] := rfl
  have ht : treeData (fun _ _ => []) (.dir b!"/" []) = [] := rfl
  rw [he, ht, List.append_nil, List.append_nil] at hs
  rw [List.append_nil] at hr
  generalize diskHeader compressed g1 index files dos size = hd at *
  refine ⟨hd, hs, ?_⟩
  intro fuel
  unfold mountDisk
  simp only [hr, empty]
  have h296 : (296 : BitVec 32).toNat = 296 := rfl
  rw [h296, show Rd.seek ((296 : Nat) : Int) .beg ⟨hd, 296⟩ = .ok ((), ⟨hd, 296⟩) from Rd.seek_beg (by omega)]
  simp only
  have := loadLoop_end ⟨hd, 296, unixTime dos, compressed, o⟩ hd fuel []
  rw [hhl] at this
  rw [this]; rfl

/-- C27 where it holds: without empty directories nothing is lost or added. -/
theorem c27_no_empty_dirs_partial (unz : Unz) (zip : Bytes → Bytes) (g1 : Bool) (dos : BitVec 32)
    (unixTime : BitVec 32 → Int) (o : Overwrite) (root : Node) (n : Bytes) (ts : List FTree) (hw : Wf root)
    (hv : view unz root = some (.dir n ts)) (hne : ts ≠ []) (hfit : FTree.FitsAll (fun _ _ => True) ts)
    (hsize : 296 + FTree.bytesAll storedPlain ts < 2 ^ 32) :
    ∃ image f0 cs, save unz zip false g1 dos root = .ok image ∧ viewAll unz cs = some ts ∧ ∀ fuel, fuel ≥ f0 →
      mountDisk unixTime fuel image o empty = (.dir b!"/" (-1) cs, .ok ()) := by
  obtain ⟨image, f0, cs, h1, _, h2, h3⟩ := c26_disk_roundtrip unz zip g1 dos unixTime o root n ts hw hv hne hfit hsize
  exact ⟨image, f0, cs, h1, h2, h3⟩

/-! ## C28: ranges of files -/

/-- C28, as far as it goes: after mounting, every file that does not come from before lies in the image, except when
offset and size together exceed 32 bits. -/
theorem c28_ranges_partial (unixTime : BitVec 32 → Int) (fuel : Nat) (o : Overwrite) (buf : Bytes) (root : Node)
    (hw : Wf root) (n : Bytes) (t : Int) (d : Desc)
    (h : Inside (mountDisk unixTime fuel buf o root).1 (.file n t d)) :
    (∃ n' t', Inside root (.file n' t' d)) ∨
      d.mem = buf ∧ (d.off + d.size ≤ buf.length ∨ 2 ^ 32 ≤ d.off + d.size ∧ d.zipped = false) := by
  refine (mountDisk_good (Q := fun d => (∃ n' t', Inside root (.file n' t' d)) ∨
      d.mem = buf ∧ (d.off + d.size ≤ buf.length ∨ 2 ^ 32 ≤ d.off + d.size ∧ d.zipped = false)) ?_ unixTime fuel o root hw
      (fun n t d hi => Or.inl ⟨n, t, hi⟩)).2 n t d h
  intro k d hk hd
  obtain ⟨h1, h2, h3⟩ := hd
  right
  refine ⟨h1.trans hk, ?_⟩
  rw [← hk]
  cases hz : k.zipped with
  | true => rw [hz] at h3; left; simp only [if_true] at h3; omega
  | false =>
    rw [hz] at h3 h2
    simp only [Bool.false_eq_true, if_false] at h3
    by_cases hlt : d.off + d.size < 2 ^ 32
    · left; rw [Nat.mod_eq_of_lt hlt] at h3; exact h3.2.2
    · right; exact ⟨by omega, h2⟩

/-- C28 for images of compressed archives and for those whose entries do not wrap. -/
theorem c28_no_wrap_partial (unixTime : BitVec 32 → Int) (fuel : Nat) (o : Overwrite) (buf : Bytes) (n : Bytes) (t : Int)
    (d : Desc) (h : Inside (mountDisk unixTime fuel buf o empty).1 (.file n t d)) (hno : d.off + d.size < 2 ^ 32) :
    d.mem = buf ∧ d.off + d.size ≤ buf.length := by
  have h0 : Wf empty := .dir _ _ _ List.Pairwise.nil (by simp)
  rcases c28_ranges_partial unixTime fuel o buf empty h0 n t d h with ⟨n', t', hi⟩ | ⟨h1, h2⟩
  · cases hi with
    | kid hc _ => simp at hc
  · exact ⟨h1, by omega⟩

/-- C28, violated: offset and size of an entry wrap around, so that the check lets them pass; the file that is created
ends far behind the image. -/
theorem c28_wrap_violation : ∃ buf d, mountDisk (fun _ => 0) 20 buf .all empty = (.dir b!"/" (-1) [.file b!"X" 0 d], .ok ()) ∧
    d.mem = buf ∧ d.off + d.size > buf.length ∧ readFile (fun _ _ => ([], false)) d = .error .ub := by
  refine ⟨diskHeader false false 1 1 0 0 ++ padName b!"X" ++ encW 4 (0xFFFFFFF0 : BitVec 32) ++ encW 4 (0x20 : BitVec 32) ++
    encW 4 (0x40000000 : BitVec 32) ++ encW 4 (0 : BitVec 32), Desc.make (diskHeader false false 1 1 0 0 ++ padName b!"X" ++
    encW 4 (0xFFFFFFF0 : BitVec 32) ++ encW 4 (0x20 : BitVec 32) ++ encW 4 (0x40000000 : BitVec 32) ++
    encW 4 (0 : BitVec 32)) 0xFFFFFFF0 0x20 false 0x20, ?_, rfl, ?_, ?_⟩ <;> decide +kernel

/-- C28, violated: in a compressed archive the size of a file is not checked at all; if its contents are not
compressed, opening it goes behind the image. -/
theorem c28_zipped_violation : ∃ buf d, mountDisk (fun _ => 0) 20 buf .all empty = (.dir b!"/" (-1) [.file b!"X" 0 d], .ok ()) ∧
    d.mem = buf ∧ d.off + d.raw > buf.length ∧ readFile (fun _ _ => ([], false)) d = .error .ub := by
  refine ⟨diskHeader true false 1 1 0 0 ++ padName b!"X" ++ encW 4 (0 : BitVec 32) ++ encW 4 (0x7FFFFFFF : BitVec 32) ++
    encW 4 (0x40000000 : BitVec 32) ++ encW 4 (0 : BitVec 32), Desc.make (diskHeader true false 1 1 0 0 ++ padName b!"X" ++
    encW 4 (0 : BitVec 32) ++ encW 4 (0x7FFFFFFF : BitVec 32) ++ encW 4 (0x40000000 : BitVec 32) ++
    encW 4 (0 : BitVec 32)) 0 376 true 0x7FFFFFFF, ?_, rfl, ?_, ?_⟩ <;> decide +kernel

/-- The hypotheses of `c28_no_wrap_partial` for an image with one file. -/
example : ∃ buf d, Inside (mountDisk (fun _ => 0) 20 buf .all empty).1 (.file b!"X" 0 d) ∧ d.off = 4 ∧ d.size = 5 ∧
    d.off + d.size < 2 ^ 32 := by
  have h : (mountDisk (fun _ => 0) 20 (diskHeader false false 1 1 0 0 ++ padName b!"X" ++ encW 4 (4 : BitVec 32) ++
      encW 4 (5 : BitVec 32) ++ encW 4 (0x40000000 : BitVec 32) ++ encW 4 (0 : BitVec 32)) .all empty).1 =
      .dir b!"/" (-1) [.file b!"X" 0 (Desc.make (diskHeader false false 1 1 0 0 ++ padName b!"X" ++ encW 4 (4 : BitVec 32) ++
      encW 4 (5 : BitVec 32) ++ encW 4 (0x40000000 : BitVec 32) ++ encW 4 (0 : BitVec 32)) 4 5 false 5)] := by decide +kernel
  refine ⟨_, _, by rw [h]; exact .kid (List.mem_cons_self) (.self _), rfl, rfl, ?_⟩
  show 4 + 5 < 2 ^ 32
  decide

/-! ## C29 -/

/-- C29: data whose bytes 256 to 271 are not one of the three signatures is rejected with `VfsBrokenDiskError`, and
the tree stays as it was. -/
theorem c29_bad_signature (unixTime : BitVec 32 → Int) (fuel : Nat) (o : Overwrite) (buf : Bytes) (root : Node)
    (h : (buf.drop 256).take 16 ∉ [b!"PSVDSC_V2.00\r\n\r\n", b!"PSVDSC_V2.00\n\r\n\r", b!"PSVDSC_V2.00\x1A\x1A\x1A\x1A"]) :
    mountDisk unixTime fuel buf o root = (root, .error (.throw .vfsBrokenDisk)) := by
  simp only [List.mem_cons, List.not_mem_nil, or_false, not_or] at h
  unfold mountDisk
  rw [readHeader_bad buf ⟨h.2.2, h.1, h.2.1⟩]

/-- Data that is too short, and data with a wrong version. -/
example : ∀ buf ∈ [b!"PSVDSC_V2.00", List.replicate 256 0 ++ b!"PSVDSC_V3.00\r\n\r\n"],
    (buf.drop 256).take 16 ∉ [b!"PSVDSC_V2.00\r\n\r\n", b!"PSVDSC_V2.00\n\r\n\r", b!"PSVDSC_V2.00\x1A\x1A\x1A\x1A"] := by
  decide +kernel

/-! ## C63: compressed archives -/

/-- C63: as C26 for compressed archives, when no file is empty, the decompressor restores the blocks, and audio files
(which are stored as they are) do not start like a compressed file. -/
theorem c63_compressed_roundtrip_partial (unz : Unz) (zip : Bytes → Bytes) (g1 : Bool) (dos : BitVec 32)
    (unixTime : BitVec 32 → Int) (o : Overwrite) (root : Node) (n : Bytes) (ts : List FTree) (hw : Wf root)
    (hv : view unz root = some (.dir n ts)) (hne : ts ≠ []) (hfit : FTree.FitsAll (ZipFits unz zip) ts)
    (hsize : 296 + FTree.bytesAll (storedZip zip) ts < 2 ^ 32) :
    ∃ image f0 cs, save unz zip true g1 dos root = .ok image ∧ image.length = 296 + FTree.bytesAll (storedZip zip) ts ∧
      viewAll unz cs = some ts ∧ ∀ fuel, fuel ≥ f0 →
      mountDisk unixTime fuel image o empty = (.dir b!"/" (-1) cs, .ok ()) :=
  disk_roundtrip (storedZip zip) unz zip true g1 dos unixTime o _ (stores_zip unz zip)
    (fun k hz hI => readback_zip unz zip k hz hI) root n ts hw hv hne hfit hsize

/-- An audio file and another file meet the hypotheses, with a "compressor" that changes nothing. -/
example : FTree.FitsAll (ZipFits (fun src n => (src.take n, true)) id) [.file b!"a.wav" b!"RIFF4567WAVE", .file b!"b" b!"1"] ∧
    296 + FTree.bytesAll (storedZip id) [.file b!"a.wav" b!"RIFF4567WAVE", .file b!"b" b!"1"] < 2 ^ 32 := by
  refine ⟨?_, by decide +kernel⟩
  simp only [FTree.FitsAll, FTree.Fits, NameFits]
  refine ⟨⟨⟨by decide, by decide, by decide⟩, ⟨by decide, by decide, ?_⟩⟩, ⟨⟨by decide, by decide, by decide⟩,
    ⟨by decide, by decide, ?_⟩⟩, trivial⟩
  · rw [if_pos (by decide +kernel)]
    exact ⟨by decide, by unfold LooksZipped; decide +kernel⟩
  · rw [if_neg (by decide +kernel)]
    intro i hi
    have hc : zipCount b!"1" 8192 = 1 := by decide +kernel
    have : i = 0 := by omega
    subst this
    decide +kernel

/-- C63, violated: an empty file of a compressed archive has contents after mounting: everything from there to the end
of the archive. -/
theorem c63_empty_file_violation : ∃ image cs c, save (fun src n => (src.take n, true)) id true false 0
      (.dir b!"/" (-1) [mkFile b!"a" 0 [], mkFile b!"b" 0 b!"x"]) = .ok image ∧
    mountDisk (fun _ => 0) 20 image .all empty = (.dir b!"/" (-1) cs, .ok ()) ∧
    viewAll (fun src n => (src.take n, true)) cs = some [.file b!"a" c, .file b!"b" b!"x"] ∧ c.length = 37 := by
  have h : (save (fun src n => (src.take n, true)) id true false 0
      (.dir b!"/" (-1) [mkFile b!"a" 0 [], mkFile b!"b" 0 b!"x"])).toOption.map (fun image =>
        decide (mountDisk (fun _ => 0) 20 image .all empty = (.dir b!"/" (-1) [.file b!"a" 0 (Desc.make image 456 37 true 0),
          .file b!"b" 0 (Desc.make image 468 25 true 1)], .ok ()) ∧
          (readFile (fun src n => (src.take n, true)) (Desc.make image 456 37 true 0)).toOption = some (37, image.drop 456) ∧
          (readFile (fun src n => (src.take n, true)) (Desc.make image 468 25 true 1)).toOption = some (1, b!"x") ∧
          (image.drop 456).length = 37)) = some true := by
    decide +kernel
  cases hs : save (fun src n => (src.take n, true)) id true false 0
      (.dir b!"/" (-1) [mkFile b!"a" 0 [], mkFile b!"b" 0 b!"x"]) with
  | error e => rw [hs] at h; cases h
  | ok image =>
    rw [hs] at h
    have h := of_decide_eq_true (Option.some.inj h)
    obtain ⟨h1, h2, h3, h4⟩ := h
    refine ⟨image, _, image.drop 456, rfl, h1, ?_, h4⟩
    simp only [viewAll, view]
    generalize readFile (fun src n => (src.take n, true)) (Desc.make image 456 37 true 0) = r at h2
    generalize readFile (fun src n => (src.take n, true)) (Desc.make image 468 25 true 1) = q at h3
    cases r with
    | error e => cases h2
    | ok r =>
      cases q with
      | error e => cases h3
      | ok q =>
        have h2 := Option.some.inj h2; have h3 := Option.some.inj h3
        subst h2; subst h3
        simp only [h4, List.length_cons, List.length_nil, if_true]

/-- C63, violated: an empty audio file at the end of a compressed archive is gone after mounting. -/
theorem c63_empty_audio_violation : ∃ image, save (fun src n => (src.take n, true)) id true false 0
      (.dir b!"/" (-1) [mkFile b!"a.wav" 0 []]) = .ok image ∧
    mountDisk (fun _ => 0) 20 image .all empty = (.dir b!"/" (-1) [], .ok ()) := by
  have h : (save (fun src n => (src.take n, true)) id true false 0
      (.dir b!"/" (-1) [mkFile b!"a.wav" 0 []])).toOption.map (fun image =>
        decide (mountDisk (fun _ => 0) 20 image .all empty = (.dir b!"/" (-1) [], .ok ()))) = some true := by
    decide +kernel
  cases hs : save (fun src n => (src.take n, true)) id true false 0 (.dir b!"/" (-1) [mkFile b!"a.wav" 0 []]) with
  | error e => rw [hs] at h; cases h
  | ok image =>
    rw [hs] at h
    simp only [Except.toOption, Option.map_some, Option.some.injEq, decide_eq_true_eq] at h
    exact ⟨image, rfl, h⟩

end Verif.Props
