import Verif.Lemmas.Zipped
import Verif.Lemmas.ZippedDamage

/-!
# C09: compressed file streams
-/

namespace Verif.Props

open Verif.Zip

/-- C09: opening the compressed form of a non-empty content and performing any history of reads and seeks gives
exactly the bytes and positions of the same history on the content itself (seeks to outside go to the nearest
end). `unz` may be any decompressor that restores the blocks. -/
theorem c09_zipped_transparent (unz : Unz) (content : Bytes) (bs : Nat) (cmp : Nat → Bytes) (sz : Nat → BitVec 32)
    (hne : content ≠ []) (hbs : 0 < bs) (hsum : content.length + bs ≤ 2 ^ 32)
    (hcmp : ∀ i, i < Spec.zipCount content bs → (cmp i).length < 2 ^ 32 ∧
      unz (cmp i) (Spec.zipBlock content bs i).length = (Spec.zipBlock content bs i, true))
    (post : Bytes) (p0 : Nat) (ops : List Mem.ROp) :
    ∃ z z', fromZipped ⟨Spec.zipFile content bs cmp sz ++ post, p0⟩ = .ok (some z) ∧
      run unz z ops = .ok ((Spec.zipRun content 0 ops).1, z') ∧ z'.pos = (Spec.zipRun content 0 ops).2 := by
  have hopen : ∃ z, fromZipped ⟨Spec.zipFile content bs cmp sz ++ post, p0⟩ = .ok (some z) ∧ Inv unz content z ∧ z.pos = 0 := by
    obtain ⟨p, bl, hz, hp, hc, hall⟩ := open_blocks content bs cmp sz hne hbs hsum (fun i hi => (hcmp i hi).1) post p0
    refine ⟨_, hz, ⟨rfl, by show content.length < 2 ^ 32; omega, hbs, rfl, hp, ?_, (fun i hi => by cases hi), ?_⟩, rfl⟩
    · intro i hi
      obtain ⟨off, h1, h2, h3⟩ := hall i hi
      exact ⟨off, (cmp i).length, h1, h2, by rw [h3]; exact (hcmp i hi).2⟩
    · left
      simp only
      exact ⟨hc, by omega, by omega, by omega⟩
  obtain ⟨z, hz, hinv, hpos⟩ := hopen
  refine ⟨z, ?_⟩
  have hrun : ∀ (ops : List Mem.ROp) (z : Zip), Inv unz content z →
      ∃ z', run unz z ops = .ok ((Spec.zipRun content z.pos ops).1, z') ∧ z'.pos = (Spec.zipRun content z.pos ops).2 := by
    intro ops
    induction ops with
    | nil => intro z h; exact ⟨z, rfl, rfl⟩
    | cons op ops ih =>
      intro z h
      have hstep : ∃ z', step unz z op = .ok (Spec.zipReturned content z.pos op, z') ∧ Inv unz content z' ∧
          z'.pos = Spec.zipPosAfter content.length z.pos op := by
        cases op with
        | read n =>
          obtain ⟨z', h1, h2, h3⟩ := readLoop_spec unz content _ n [] z h (Nat.lt_succ_self _)
          exact ⟨z', by simpa [step, Zip.read, Spec.zipReturned] using h1, h2, h3⟩
        | seek off w =>
          obtain ⟨h1, h2⟩ := seek_spec unz content z h off w
          exact ⟨_, rfl, h1, h2⟩
      obtain ⟨z1, h1, h2, h3⟩ := hstep
      obtain ⟨z2, h4, h5⟩ := ih z1 h2
      refine ⟨z2, ?_, ?_⟩
      · simp only [run, h1, h4, Spec.zipRun, h3]
      · rw [h5, h3]; rfl
  obtain ⟨z', h1, h2⟩ := hrun ops z hinv
  rw [hpos] at h1 h2
  exact ⟨z', hz, h1, h2⟩

/-- A toy decompressor: the identity, failing on data that starts with 255 after having written a zero. -/
def toyUnz : Unz := fun cmp n => if cmp.head? = some 255 then ([0], false) else (cmp.take n, true)

/-- The hypotheses of `c09_zipped_transparent` are satisfiable: five bytes in blocks of two. -/
example : ∀ i, i < Spec.zipCount [1, 2, 3, 4, 5] 2 →
    (Spec.zipBlock [1, 2, 3, 4, 5] 2 i).length < 2 ^ 32 ∧
    toyUnz (Spec.zipBlock [1, 2, 3, 4, 5] 2 i) (Spec.zipBlock [1, 2, 3, 4, 5] 2 i).length =
      (Spec.zipBlock [1, 2, 3, 4, 5] 2 i, true) := by
  intro i hi
  have : i < 3 := hi
  match i, this with
  | 0, _ => decide
  | 1, _ => decide
  | 2, _ => decide

example : Spec.zipRun [1, 2, 3, 4, 5] 0 [.read 3, .seek (-1) .end_, .read 4, .seek (-9) .cur, .read 1]
    = ([[1, 2, 3], [], [5], [], [1]], 1) := by decide

/-- C58: a damaged block does affect reads of undamaged blocks: block 0 is `[1, 2]`, block 1 is damaged. Reading
block 0, then failing on block 1, then reading block 0 again gives other bytes than before. -/
theorem c58_damaged_block_violation :
    ((fromZipped ⟨encW 4 (4 : BitVec 32) ++ encW 4 (2 : BitVec 32) ++ encW 4 (2 : BitVec 32) ++
        (encW 4 (2 : BitVec 32) ++ encW 4 (2 : BitVec 32) ++ encW 4 (2 : BitVec 32) ++ [1, 2]) ++
        (encW 4 (2 : BitVec 32) ++ encW 4 (2 : BitVec 32) ++ encW 4 (2 : BitVec 32) ++ [255, 255]), 0⟩).bind fun
      | none => .error .ub
      | some z => run toyUnz z [.read 2, .read 2, .seek 0 .beg, .read 2]).map (·.1)
    = .ok [[1, 2], [], [], [0, 2]] := by decide +kernel

/-- **C58**, restricted — a file of which some blocks are damaged (the decompressor reports a failure, whatever it has written): every history of
reads and seeks gives exactly what lies in blocks that are not damaged, each read up to the first damaged block, unless a read begins, right
after one that ended at a damaged block, in the block that was read before. Missing: those reads, see the violations. -/
theorem c58_blocks_partial (unz : Unz) (content : Bytes) (bs : Nat) (cmp : Nat → Bytes) (sz : Nat → BitVec 32) (good : Nat → Bool)
    (hne : content ≠ []) (hbs : 0 < bs) (hsum : content.length + bs ≤ 2 ^ 32)
    (hcmp : ∀ i, i < Spec.zipCount content bs → (cmp i).length < 2 ^ 32)
    (hgood : ∀ i, i < Spec.zipCount content bs → good i = true →
      unz (cmp i) (Spec.zipBlock content bs i).length = (Spec.zipBlock content bs i, true))
    (hbad : ∀ i, i < Spec.zipCount content bs → good i = false → (unz (cmp i) (Spec.zipBlock content bs i).length).2 = false)
    (post : Bytes) (p0 : Nat) (ops : List Mem.ROp) (hops : Spec.Heedful good bs content.length {} ops) :
    ∃ z z', fromZipped ⟨Spec.zipFile content bs cmp sz ++ post, p0⟩ = .ok (some z) ∧
      run unz z ops = .ok ((Spec.damagedRun good bs content 0 ops).1, z') ∧ z'.pos = (Spec.damagedRun good bs content 0 ops).2 := by
  obtain ⟨p, bl, hz, hp, hc, hall⟩ := open_blocks content bs cmp sz hne hbs hsum hcmp post p0
  have h : Hurt unz good content {} ⟨⟨Spec.zipFile content bs cmp sz ++ post, p⟩, content.length, bs, Spec.zipCount content bs, bl, 0, 0, [], none⟩ := by
    refine ⟨rfl, by omega, hbs, rfl, hp, fun i hi => ?_, (fun i hi => by cases hi), rfl, Or.inl ⟨hc, (Nat.zero_div _).symm, Nat.zero_le _⟩⟩
    obtain ⟨off, h1, h2, h3⟩ := hall i hi
    refine ⟨off, (cmp i).length, h1, h2, ?_⟩
    simp only
    rw [h3]
    cases hg : good i with
    | true => exact hgood i hi hg
    | false => exact hbad i hi hg
  obtain ⟨z', h1, h2⟩ := Hurt.run ops _ _ h hops
  exact ⟨_, z', hz, h1, h2⟩

/-- **C58** for reads from the start to the end, without seeks: nothing is missing. They give the blocks up to the first damaged one and then
nothing. -/
theorem c58_reads_partial (unz : Unz) (content : Bytes) (bs : Nat) (cmp : Nat → Bytes) (sz : Nat → BitVec 32) (good : Nat → Bool)
    (hne : content ≠ []) (hbs : 0 < bs) (hsum : content.length + bs ≤ 2 ^ 32)
    (hcmp : ∀ i, i < Spec.zipCount content bs → (cmp i).length < 2 ^ 32)
    (hgood : ∀ i, i < Spec.zipCount content bs → good i = true →
      unz (cmp i) (Spec.zipBlock content bs i).length = (Spec.zipBlock content bs i, true))
    (hbad : ∀ i, i < Spec.zipCount content bs → good i = false → (unz (cmp i) (Spec.zipBlock content bs i).length).2 = false)
    (post : Bytes) (p0 : Nat) (ns : List Nat) :
    ∃ z z', fromZipped ⟨Spec.zipFile content bs cmp sz ++ post, p0⟩ = .ok (some z) ∧
      run unz z (ns.map .read) = .ok ((Spec.damagedRun good bs content 0 (ns.map .read)).1, z') :=  by
  obtain ⟨z, z', h1, h2, -⟩ := c58_blocks_partial unz content bs cmp sz good hne hbs hsum hcmp hgood hbad post p0 (ns.map .read)
    (heedful_reads hbs _ ns _ (Nat.zero_le _) (fun h => by cases h) (fun i hi => by cases hi)
      (fun h => absurd h.symm (by have := List.length_pos_iff.2 hne; show ¬ content.length = 0; omega)))
  exact ⟨z, z', h1, h2⟩

/-- The file of the examples: blocks of two bytes of which the second and the last, which is short, are damaged. -/
def damagedCmp (i : Nat) : Bytes := if i = 1 ∨ i = 3 then [255, 255] else Spec.zipBlock [1, 2, 3, 4, 5, 6, 7] 2 i

-- It meets the hypotheses of `c58_blocks_partial`.
example : ∀ i, i < Spec.zipCount [1, 2, 3, 4, 5, 6, 7] 2 → (damagedCmp i).length < 2 ^ 32 ∧
    (decide (i = 0 ∨ i = 2) = true → toyUnz (damagedCmp i) (Spec.zipBlock [1, 2, 3, 4, 5, 6, 7] 2 i).length =
      (Spec.zipBlock [1, 2, 3, 4, 5, 6, 7] 2 i, true)) ∧
    (decide (i = 0 ∨ i = 2) = false → (toyUnz (damagedCmp i) (Spec.zipBlock [1, 2, 3, 4, 5, 6, 7] 2 i).length).2 = false) := by
  intro i hi
  have : i < 4 := hi
  match i, this with
  | 0, _ => decide
  | 1, _ => decide
  | 2, _ => decide
  | 3, _ => decide

-- Reads up to a damaged block, then of the one behind it, of the first again and at the damaged end.
example : Spec.Heedful (fun i => decide (i = 0 ∨ i = 2)) 2 7 {} [.read 3, .seek 2 .cur, .read 9, .seek 1 .beg, .read 2] := by
  refine ⟨?_, ?_, ?_, ?_, ?_, trivial⟩ <;> (intro n h; cases h) <;> decide

example : Spec.damagedRun (fun i => decide (i = 0 ∨ i = 2)) 2 [1, 2, 3, 4, 5, 6, 7] 0
    [.read 3, .seek 2 .cur, .read 9, .seek 1 .beg, .read 2] = ([[1, 2], [], [5, 6], [], [2]], 2) := by decide

/-- C58, violation — the memory of the cache: the last block, which is short, is damaged. Reading the first block again after having failed on it
copies from behind the end of the cache. -/
theorem c58_bounds_violation :
    ((fromZipped ⟨Spec.zipFile [1, 2, 3] 2 (fun i => if i = 1 then [255] else [1, 2]) (fun _ => 0), 0⟩).bind fun
      | none => .ok ()
      | some z => (run toyUnz z [.read 2, .read 1, .seek 0 .beg, .read 2]).map fun _ => ()) = .error .ub := by decide +kernel

end Verif.Props
