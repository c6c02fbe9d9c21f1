import Verif.Lemmas.VfsDiskEnds
import Verif.Props.VfsDisk

/-!
# C112: mounting a disk ends
-/

namespace Verif.Props

open Verif.Vfs Verif.Spec.Disk

/-- **C112** — what mounting a disk does is independent of the patience of the caller: once it has ended, waiting for longer
changes nothing. -/
theorem c112_once (unixTime : BitVec 32 → Int) (m n : Nat) (image : Bytes) (o : Overwrite) (root : Node)
    (hm : (mountDisk unixTime m image o root).2 ≠ .error .hang) (hn : (mountDisk unixTime n image o root).2 ≠ .error .hang) :
    mountDisk unixTime m image o root = mountDisk unixTime n image o root := by
  rcases Nat.le_total m n with hmn | hmn
  · exact (mountDisk_more unixTime hmn image o root hm).symm
  · exact mountDisk_more unixTime hmn image o root hn

/-- **C112** (partial): mounting a disk whose catalog lies within the image, in which directories come before their entries, ends,
with success or with an exception, after a number of steps proportional to the size of the image; whatever is in the Vfs, whatever
is to be done about names that are there already. Missing: images that are cut off, and images with directories in the wrong order,
for which the claim is false. -/
theorem c112_ends_partial (unixTime : BitVec 32 → Int) (image : Bytes) (P : Nat → Prop) (hi : 296 ≤ image.length)
    (hP : Ordered image P) (hc : P (catalogOf image).toNat) (o : Overwrite) (root : Node) (fuel : Nat)
    (hf : 2 * image.length + 1 ≤ fuel) : (mountDisk unixTime fuel image o root).2 ≠ .error .hang := by
  unfold mountDisk
  match hr : readDiskHeader ⟨image, 0⟩ with
  | .error e =>
    intro hx
    cases hx
    exact header_comes image hi hr
  | .ok ((catalog, dos, zipped), s) =>
    obtain ⟨rfl, hs⟩ := header_in image hi hr
    cases root with
    | file a b c => exact fun hx => by cases hx
    | dir a t cs =>
      obtain ⟨d, p⟩ := s
      obtain rfl : d = image := hs
      have hin := (hP _ hc).1
      dsimp only
      rw [Rd.seek_beg (pos := p) (t := (catalogOf d).toNat) (by omega)]
      dsimp only
      have h1 := ((load_ends ⟨d, catalogOf d, unixTime dos, zipped, o⟩ P hP rfl fuel).2 cs _ hc (by dsimp only; omega)).1
      intro hx
      apply h1
      match hl : (loadLoop ⟨d, catalogOf d, unixTime dos, zipped, o⟩ fuel cs ⟨d, (catalogOf d).toNat⟩).2 with
      | .ok _ => rw [hl] at hx; cases hx
      | .error e => rw [hl] at hx; cases hx; rfl

/-- A disk: the directory `D` with the file `A`. -/
def smallDisk : Bytes :=
  List.replicate 256 0 ++ sigG2 ++ encW 4 (2 : BitVec 32) ++ encW 4 (1 : BitVec 32) ++ encW 4 (0 : BitVec 32) ++
  encW 4 (456 : BitVec 32) ++ encW 4 (296 : BitVec 32) ++ encW 4 (0x50 : BitVec 32) ++
  b!"D" ++ List.replicate 63 32 ++ encW 4 (1 : BitVec 32) ++ encW 4 (0 : BitVec 32) ++ encW 4 (0xC0000000 : BitVec 32) ++
  encW 4 (0 : BitVec 32) ++
  b!"A" ++ List.replicate 63 32 ++ encW 4 (296 : BitVec 32) ++ encW 4 (7 : BitVec 32) ++ encW 4 (0x40000000 : BitVec 32) ++
  encW 4 (0 : BitVec 32)

example : Ordered smallDisk (fun p => p = 296 ∨ p = 376) ∧ (catalogOf smallDisk).toNat = 296 ∧ smallDisk.length = 456 := by
  refine ⟨?_, by decide +kernel, by decide +kernel⟩
  intro p hp
  rcases hp with rfl | rfl
  · refine ⟨by decide +kernel, fun _ => Or.inr rfl, fun _ => ?_⟩
    rw [show entriesOf smallDisk 296 = 376 by decide +kernel]
    exact ⟨by omega, Or.inr rfl⟩
  · refine ⟨by decide +kernel, fun h => absurd (show wordAt smallDisk (376 + 72) &&& 0x40000000 ≠ 0 by decide +kernel) h, fun h => absurd ?_ h⟩
    decide +kernel

example : (mountDisk (fun _ => 0) 913 smallDisk .all (.dir b!"/" 0 [])).2 = .ok () := by decide +kernel

/-- C112, violated: mounting a disk never ends if its catalog is cut off, whatever is in the Vfs: behind the end of the image there
are only entries without names that are not the last ones, which are added to the Vfs over and over again. -/
theorem c112_cut_violation (unixTime : BitVec 32 → Int) (image : Bytes) (n : Nat) (hi : 296 ≤ image.length)
    (hr : (readDiskHeader ⟨image, 0⟩).isOk) (hn : (catalogOf image).toNat + 80 * n = image.length)
    (hno : ∀ i, i < n → ¬ isDirectory image ((catalogOf image).toNat + 80 * i) ∧ ¬ isLast image ((catalogOf image).toNat + 80 * i))
    (o : Overwrite) (name : Bytes) (t : Int) (cs : List Node) (fuel : Nat) :
    (mountDisk unixTime fuel image o (.dir name t cs)).2 = .error .hang := by
  unfold mountDisk
  match hx : readDiskHeader ⟨image, 0⟩ with
  | .error e => rw [hx] at hr; cases hr
  | .ok ((catalog, dos, zipped), s) =>
    obtain ⟨rfl, hs⟩ := header_in image hi hx
    obtain ⟨d, p⟩ := s
    obtain rfl : d = image := hs
    dsimp only
    rw [Rd.seek_beg (pos := p) (t := (catalogOf d).toNat) (by omega)]
    dsimp only
    rw [loadLoop_cut ⟨d, catalogOf d, unixTime dos, zipped, o⟩ n _ hn hno]
    rfl

/-- A disk with the file `A`, cut off behind it. -/
def cutDisk : Bytes :=
  List.replicate 256 0 ++ sigG2 ++ encW 4 (2 : BitVec 32) ++ encW 4 (2 : BitVec 32) ++ encW 4 (0 : BitVec 32) ++
  encW 4 (456 : BitVec 32) ++ encW 4 (296 : BitVec 32) ++ encW 4 (0x50 : BitVec 32) ++
  b!"A" ++ List.replicate 63 32 ++ encW 4 (296 : BitVec 32) ++ encW 4 (7 : BitVec 32) ++ encW 4 (0 : BitVec 32) ++
  encW 4 (0 : BitVec 32)

example (fuel : Nat) : (mountDisk (fun _ => 0) fuel cutDisk .all (.dir b!"/" 0 [])).2 = .error .hang := by
  refine c112_cut_violation _ cutDisk 1 (by decide +kernel) (by decide +kernel) (by decide +kernel) (fun i hi => ?_) _ _ _ _ _
  obtain rfl : i = 0 := by omega
  constructor
  · exact fun h => absurd (show wordAt cutDisk ((catalogOf cutDisk).toNat + 80 * 0 + 72) &&& 0x80000000 = 0 by decide +kernel) h
  · exact fun h => absurd (show wordAt cutDisk ((catalogOf cutDisk).toNat + 80 * 0 + 72) &&& 0x40000000 = 0 by decide +kernel) h

/-- A disk with a directory `D` that contains itself. -/
def circularDisk : Bytes :=
  List.replicate 256 0 ++ sigG2 ++ encW 4 (1 : BitVec 32) ++ encW 4 (0 : BitVec 32) ++ encW 4 (0 : BitVec 32) ++
  encW 4 (376 : BitVec 32) ++ encW 4 (296 : BitVec 32) ++ encW 4 (0x50 : BitVec 32) ++
  b!"D" ++ List.replicate 63 32 ++ encW 4 (0 : BitVec 32) ++ encW 4 (0 : BitVec 32) ++ encW 4 (0xC0000000 : BitVec 32) ++
  encW 4 (0 : BitVec 32)

/-- C112, violated: mounting a disk with a directory that contains itself goes down into it without end. -/
theorem c112_circle_violation (unixTime : BitVec 32 → Int) (o : Overwrite) (fuel : Nat) :
    (mountDisk unixTime fuel circularDisk o empty).2 = .error .hang := by
  have hr : readDiskHeader ⟨circularDisk, 0⟩ = .ok ((296, 0, false), ⟨circularDisk, 296⟩) := by decide +kernel
  have he : readEntry ⟨circularDisk, 296⟩ = .ok (⟨b!"D", 0, 0, 0xC0000000⟩, ⟨circularDisk, 376⟩) := by decide +kernel
  have hlen : circularDisk.length = 376 := by decide +kernel
  have key : ∀ fuel, (loadLoop ⟨circularDisk, 296, unixTime 0, false, o⟩ fuel [] ⟨circularDisk, 296⟩).2 = .error .hang ∧
      (loadEntry ⟨circularDisk, 296, unixTime 0, false, o⟩ fuel [] ⟨circularDisk, 296⟩).2 = .error .hang := by
    intro fuel
    induction fuel with
    | zero => exact ⟨by rw [loadLoop], by rw [loadEntry]⟩
    | succ fuel ih =>
      refine ⟨?_, ?_⟩
      · rw [loadLoop]
        have := ih.2
        match hl : loadEntry ⟨circularDisk, 296, unixTime 0, false, o⟩ fuel [] ⟨circularDisk, 296⟩ with
        | (cs, .error e) => rw [hl] at this; cases this; rfl
        | (cs, .ok x) => rw [hl] at this; cases this
      · rw [loadEntry, he]
        dsimp only
        rw [if_pos (by decide)]
        rw [show enterDir ⟨circularDisk, 296, unixTime 0, false, o⟩ b!"D" [] =
          ([.dir b!"D" (unixTime 0) []], some (.dir b!"D" (unixTime 0) [])) from rfl]
        dsimp only
        rw [show ((296 : BitVec 32) + 0 * 80).toNat = 296 from rfl, Rd.seek_beg (pos := 376) (t := 296) (by omega)]
        dsimp only
        have := ih.1
        match hl : loadLoop ⟨circularDisk, 296, unixTime 0, false, o⟩ fuel [] ⟨circularDisk, 296⟩ with
        | (cs, .error e) => rw [hl] at this; cases this; rfl
        | (cs, .ok x) => rw [hl] at this; cases this
  unfold mountDisk
  rw [hr]
  dsimp only [empty]
  rw [show (296 : BitVec 32).toNat = 296 from rfl, Rd.seek_beg (pos := 296) (t := 296) (by omega)]
  dsimp only
  rw [(key fuel).1]
  rfl

end Verif.Props
