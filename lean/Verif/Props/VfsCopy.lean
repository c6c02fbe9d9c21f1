import Verif.Lemmas.VfsCopy
import Verif.Props.VfsDisk

/-! # C105: disks that were mounted over each other can be stored as one -/

namespace Verif.Props

open Verif.Vfs Verif.Spec
open Zip (Unz)

/-- **C105**: whatever disks were mounted, in whatever order and with whatever policies, what came of it is stored in one disk that gives
the same names and contents, provided that every file can be read, no directory is empty, every name can be seen, and the whole is
smaller than 4 GiB. All names that are mounted fit. -/
theorem c105_merge_partial (unz : Unz) (zip : Bytes → Bytes) (g1 : Bool) (dos : BitVec 32) (unixTime : BitVec 32 → Int) (o : Overwrite)
    (root : Node) (hm : Merged unixTime root) (n : Bytes) (ts : List FTree) (hv : view unz root = some (.dir n ts)) (hne : ts ≠ [])
    (hs : FTree.StorableAll (fun _ _ => True) ts) (hsize : 296 + FTree.bytesAll storedPlain ts < 2 ^ 32) :
    ∃ image f0 cs, save unz zip false g1 dos root = .ok image ∧ image.length = 296 + FTree.bytesAll storedPlain ts ∧
      viewAll unz cs = some ts ∧ ∀ fuel, fuel ≥ f0 → mountDisk unixTime fuel image o empty = (.dir b!"/" (-1) cs, .ok ()) := by
  obtain ⟨hw, hl⟩ := hm.tidy
  cases root with
  | file => obtain ⟨_, h, -⟩ := view_file hv; cases h
  | dir m t cs =>
    obtain ⟨ts', h1, h2⟩ := view_dir hv
    cases h1
    exact c26_disk_roundtrip unz zip g1 dos unixTime o _ n ts hw hv hne (fitsAll_of unz _ cs ts h2 (labels_dir.1 hl).2 hs) hsize

/-- **C105** for compressed disks. -/
theorem c105_compress_partial (unz : Unz) (zip : Bytes → Bytes) (g1 : Bool) (dos : BitVec 32) (unixTime : BitVec 32 → Int) (o : Overwrite)
    (root : Node) (hm : Merged unixTime root) (n : Bytes) (ts : List FTree) (hv : view unz root = some (.dir n ts)) (hne : ts ≠ [])
    (hs : FTree.StorableAll (ZipFits unz zip) ts) (hsize : 296 + FTree.bytesAll (storedZip zip) ts < 2 ^ 32) :
    ∃ image f0 cs, save unz zip true g1 dos root = .ok image ∧ image.length = 296 + FTree.bytesAll (storedZip zip) ts ∧
      viewAll unz cs = some ts ∧ ∀ fuel, fuel ≥ f0 → mountDisk unixTime fuel image o empty = (.dir b!"/" (-1) cs, .ok ()) := by
  obtain ⟨hw, hl⟩ := hm.tidy
  cases root with
  | file => obtain ⟨_, h, -⟩ := view_file hv; cases h
  | dir m t cs =>
    obtain ⟨ts', h1, h2⟩ := view_dir hv
    cases h1
    exact c63_compressed_roundtrip_partial unz zip g1 dos unixTime o _ n ts hw hv hne
      (fitsAll_of unz _ cs ts h2 (labels_dir.1 hl).2 hs) hsize

/-- A catalog entry. -/
def copyEntry (n : Bytes) (offset size type : BitVec 32) : Bytes :=
  padName n ++ encW 4 offset ++ encW 4 size ++ encW 4 type ++ encW 4 (0 : BitVec 32)

/-- Two disks: the first holds `A`, the second `a` (which replaces it) and `D/B`. -/
def firstDisk : Bytes := diskHeader false false 1 1 0 0 ++ copyEntry b!"A" 376 2 0x40000000 ++ b!"12"
def secondDisk : Bytes := diskHeader false false 3 2 0 0 ++ copyEntry b!"D" 2 0 0x80000000 ++ copyEntry b!"a" 536 3 0x40000000 ++
  copyEntry b!"B" 536 1 0x40000000 ++ b!"345"

example : (mountDisk (fun _ => 0) 20 secondDisk .all (mountDisk (fun _ => 0) 20 firstDisk .all empty).1).1 =
    .dir b!"/" (-1) [.file b!"a" 0 (Desc.make secondDisk 536 3 false 3), .dir b!"D" 0 [.file b!"B" 0 (Desc.make secondDisk 536 1 false 1)]] := by
  decide +kernel

example (unz : Unz) : view unz (.dir b!"/" (-1) [.file b!"a" 0 (Desc.make secondDisk 536 3 false 3),
    .dir b!"D" 0 [.file b!"B" 0 (Desc.make secondDisk 536 1 false 1)]]) = some (.dir b!"/" [.file b!"a" b!"345", .dir b!"D" [.file b!"B" b!"3"]]) ∧
    FTree.StorableAll (fun _ _ => True) [.file b!"a" b!"345", .dir b!"D" [.file b!"B" b!"3"]] := by
  refine ⟨?_, ⟨by unfold Visible; decide, trivial⟩, ⟨by unfold Visible; decide, by simp, ⟨by unfold Visible; decide, trivial⟩, trivial⟩, trivial⟩
  have h1 : readFile unz (Desc.make secondDisk 536 3 false 3) = .ok (3, b!"345") := by
    unfold readFile
    rw [if_neg (by decide +kernel), if_neg (by decide)]
    exact congrArg Except.ok (by decide +kernel)
  have h2 : readFile unz (Desc.make secondDisk 536 1 false 1) = .ok (1, b!"3") := by
    unfold readFile
    rw [if_neg (by decide +kernel), if_neg (by decide)]
    exact congrArg Except.ok (by decide +kernel)
  simp [view, viewAll, h1, h2]

/-- A disk with the directory `A`, whose only file lies outside of the disk, and the directory `B` with the file `F`. -/
def lackingDisk : Bytes := diskHeader false false 4 2 0 0 ++ copyEntry b!"A" 2 0 0x80000000 ++ copyEntry b!"B" 3 0 0xC0000000 ++
  copyEntry b!"X" 9999 1 0x40000000 ++ copyEntry b!"F" 0 1 0x40000000

/-- **C105** is false when a directory is left empty: a disk is mounted whose directory `A` has no file inside of the disk; in the copy `A`
has the file `F` of the directory `B`. -/
theorem c105_empty_violation : ∃ d image e f, mountDisk (fun _ => 0) 20 lackingDisk .all empty =
      (.dir b!"/" (-1) [.dir b!"A" 0 [], .dir b!"B" 0 [.file b!"F" 0 d]], .ok ()) ∧
    save (fun _ _ => ([], false)) id false false 0 (.dir b!"/" (-1) [.dir b!"A" 0 [], .dir b!"B" 0 [.file b!"F" 0 d]]) = .ok image ∧
    mountDisk (fun _ => 0) 20 image .all empty =
      (.dir b!"/" (-1) [.dir b!"A" 0 [.file b!"F" 0 e], .dir b!"B" 0 [.file b!"F" 0 f]], .ok ()) := by
  have h : (save (fun _ _ => ([], false)) id false false 0
      (.dir b!"/" (-1) [.dir b!"A" 0 [], .dir b!"B" 0 [.file b!"F" 0 (Desc.make lackingDisk 0 1 false 1)]])).toOption.map (fun image =>
        decide (mountDisk (fun _ => 0) 20 image .all empty =
        (.dir b!"/" (-1) [.dir b!"A" 0 [.file b!"F" 0 (Desc.make image 536 1 false 1)],
          .dir b!"B" 0 [.file b!"F" 0 (Desc.make image 536 1 false 1)]], .ok ()))) = some true := by
    decide +kernel
  refine ⟨Desc.make lackingDisk 0 1 false 1, ?_⟩
  cases hs : save (fun _ _ => ([], false)) id false false 0
      (.dir b!"/" (-1) [.dir b!"A" 0 [], .dir b!"B" 0 [.file b!"F" 0 (Desc.make lackingDisk 0 1 false 1)]]) with
  | error e => rw [hs] at h; cases h
  | ok image =>
    rw [hs] at h
    simp only [Except.toOption, Option.map_some, Option.some.injEq, decide_eq_true_eq] at h
    exact ⟨image, _, _, by decide +kernel, rfl, h⟩

end Verif.Props
