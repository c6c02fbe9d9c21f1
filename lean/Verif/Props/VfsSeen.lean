import Verif.Lemmas.VfsSeen
import Verif.Props.VfsDisk

/-!
# C113: what is seen of a Vfs determines the archive
-/

namespace Verif.Props

open Verif.Vfs Verif.Spec
open Zip (Unz)

/-- **C113** — two file systems that show the same at every path, all of it readable, are saved as the same archive, byte for byte,
or fail to be saved in the same way: it does not matter in which order the files were added, when they were, which archives they
came from and whether they were compressed there. -/
theorem c113_same (unz : Unz) (zip : Bytes → Bytes) (compressed g1 : Bool) (dos : BitVec 32) (n m : Bytes) (s t : Int)
    (cs ds : List Node) (hc : Wf (.dir n s cs)) (hd : Wf (.dir m t ds)) (kc : CleanTree (.dir n s cs)) (kd : CleanTree (.dir m t ds))
    (h : ∀ p, p ≠ [] → sees unz (.dir n s cs) p = sees unz (.dir m t ds) p)
    (hr : ∀ p x, sees unz (.dir n s cs) p ≠ some (.unreadable x)) :
    save unz zip compressed g1 dos (.dir n s cs) = save unz zip compressed g1 dos (.dir m t ds) := by
  cases hc with | dir _ _ _ oc wc =>
  cases hd with | dir _ _ _ od wd =>
  cases kc with | dir _ _ _ _ kc =>
  cases kd with | dir _ _ _ _ kd =>
  obtain ⟨ts, hts⟩ := viewAll_readable unz cs oc wc kc (fun p ps x => by rw [← sees_cons unz n s]; exact hr _ x)
  have he := viewAll_sees unz cs ds oc od wc wd kc kd (fun p ps => by
    rw [← sees_cons unz n s, ← sees_cons unz m t]; exact h _ (by simp))
  exact save_viewAll unz zip compressed g1 dos n m s t cs ds ts hts (he ▸ hts)

/-- **C113** — saving, mounting the archive and saving again gives the same archive, for ordinary archives; `compressed` chooses the
kind of the second archive: it is what saving the original as that kind gives. -/
theorem c113_again (unz : Unz) (zip : Bytes → Bytes) (compressed g1 g1' : Bool) (dos dos' : BitVec 32) (unixTime : BitVec 32 → Int)
    (o : Overwrite) (n : Bytes) (s : Int) (rs : List Node) (ts : List FTree) (hw : Wf (.dir n s rs))
    (hv : viewAll unz rs = some ts) (hne : ts ≠ []) (hfit : FTree.FitsAll (fun _ _ => True) ts)
    (hsize : 296 + FTree.bytesAll storedPlain ts < 2 ^ 32) :
    ∃ image f0 root, save unz zip false g1 dos (.dir n s rs) = .ok image ∧
      (∀ fuel, fuel ≥ f0 → mountDisk unixTime fuel image o empty = (root, .ok ())) ∧
      save unz zip compressed g1' dos' root = save unz zip compressed g1' dos' (.dir n s rs) := by
  obtain ⟨image, f0, cs, h1, -, h2, h3⟩ := c26_disk_roundtrip unz zip g1 dos unixTime o (.dir n s rs) n ts hw
    (by rw [view, hv]) hne hfit hsize
  exact ⟨image, f0, _, h1, h3, save_viewAll unz zip compressed g1' dos' _ _ _ _ cs rs ts h2 hv⟩

/-- **C113** (partial) — the same when the first archive is compressed. Missing: empty files, and audio files that look like
compressed ones, for which compressed archives do not give back what was stored (C63). -/
theorem c113_again_zipped_partial (unz : Unz) (zip : Bytes → Bytes) (compressed g1 g1' : Bool) (dos dos' : BitVec 32)
    (unixTime : BitVec 32 → Int) (o : Overwrite) (n : Bytes) (s : Int) (rs : List Node) (ts : List FTree) (hw : Wf (.dir n s rs))
    (hv : viewAll unz rs = some ts) (hne : ts ≠ []) (hfit : FTree.FitsAll (ZipFits unz zip) ts)
    (hsize : 296 + FTree.bytesAll (storedZip zip) ts < 2 ^ 32) :
    ∃ image f0 root, save unz zip true g1 dos (.dir n s rs) = .ok image ∧
      (∀ fuel, fuel ≥ f0 → mountDisk unixTime fuel image o empty = (root, .ok ())) ∧
      save unz zip compressed g1' dos' root = save unz zip compressed g1' dos' (.dir n s rs) := by
  obtain ⟨image, f0, cs, h1, -, h2, h3⟩ := c63_compressed_roundtrip_partial unz zip g1 dos unixTime o (.dir n s rs) n ts hw
    (by rw [view, hv]) hne hfit hsize
  exact ⟨image, f0, _, h1, h3, save_viewAll unz zip compressed g1' dos' _ _ _ _ cs rs ts h2 hv⟩

/-- Two ways of making the same file system: the order and the times differ, and `x` lies in a larger block of memory in one of
them. -/
def oneWay : List Node := (createIn (mkFile b!"y" 3 b!"22") (createIn (mkFile b!"x" 5 b!"1") []).1).1
def otherWay : List Node := (createIn (.file b!"x" 7 (Desc.make b!"012" 1 1 false 1)) (createIn (mkFile b!"y" 4 b!"22") []).1).1

/-- They meet the hypotheses of `c113_same`. -/
example : oneWay ≠ otherWay ∧ (∀ p, p ≠ [] → sees (fun _ _ => ([], false)) (.dir b!"/" 0 oneWay) p =
      sees (fun _ _ => ([], false)) (.dir b!"/" 0 otherWay) p) ∧
    (∀ p x, sees (fun _ _ => ([], false)) (.dir b!"/" 0 oneWay) p ≠ some (.unreadable x)) ∧
    Wf (.dir b!"/" 0 oneWay) ∧ CleanTree (.dir b!"/" 0 oneWay) := by
  have h1 : oneWay = [mkFile b!"x" 5 b!"1", mkFile b!"y" 3 b!"22"] := by decide +kernel
  have h2 : otherWay = [.file b!"x" 7 (Desc.make b!"012" 1 1 false 1), mkFile b!"y" 4 b!"22"] := by decide +kernel
  have hx : ∀ ps, sees (fun _ _ => ([], false)) (mkFile b!"x" 5 b!"1") ps =
      if ps = [] then some (.file b!"x" b!"1") else none := by intro ps; cases ps <;> rfl
  have hx' : ∀ ps, sees (fun _ _ => ([], false)) (.file b!"x" 7 (Desc.make b!"012" 1 1 false 1)) ps =
      if ps = [] then some (.file b!"x" b!"1") else none := by intro ps; cases ps <;> rfl
  have hy : ∀ t ps, sees (fun _ _ => ([], false)) (mkFile b!"y" t b!"22") ps =
      if ps = [] then some (.file b!"y" b!"22") else none := by intro t ps; cases ps <;> rfl
  rw [h1, h2]
  refine ⟨by decide +kernel, ?_, ?_, ?_, ?_⟩
  · intro p hp
    cases p with
    | nil => exact absurd rfl hp
    | cons p ps =>
      rw [sees_cons, sees_cons]
      simp only [entry, List.find?_cons, List.find?_nil, mkFile, Node.name]
      split
      · exact (hx ps).trans (hx' ps).symm
      · split
        · exact (hy 3 ps).trans (hy 4 ps).symm
        · rfl
  · intro p x
    cases p with
    | nil => simp [sees, lookup, sight]
    | cons p ps =>
      rw [sees_cons]
      simp only [entry, List.find?_cons, List.find?_nil]
      split
      · rw [Option.bind_some, hx]; split <;> simp
      · split
        · rw [Option.bind_some, hy]; split <;> simp
        · simp
  · refine .dir _ _ _ ?_ ?_
    · simp only [Ordered, List.pairwise_cons, List.mem_cons, List.not_mem_nil]
      refine ⟨?_, by simp, by simp⟩
      rintro y (rfl | h)
      · decide +kernel
      · exact h.elim
    · simp only [List.mem_cons, List.not_mem_nil]
      rintro c (rfl | rfl | h)
      · exact .file _ _ _
      · exact .file _ _ _
      · exact h.elim
  · refine .dir _ _ _ (by decide) ?_
    simp only [List.mem_cons, List.not_mem_nil]
    rintro c (rfl | rfl | h)
    · exact .file _ _ _ (by decide)
    · exact .file _ _ _ (by decide)
    · exact h.elim

end Verif.Props
