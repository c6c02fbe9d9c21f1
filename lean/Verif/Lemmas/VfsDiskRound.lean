import Verif.Lemmas.VfsDiskLoad
import Verif.Props.Zipped

/-!
# Lemmas about disk archives: round trip
-/

namespace Verif.Vfs

open Spec
open Zip (Unz)

theorem readHeader_eq (compressed g1 : Bool) (index files dos size : BitVec 32) (rest : Bytes) :
    readDiskHeader ⟨diskHeader compressed g1 index files dos size ++ rest, 0⟩ =
      .ok ((296, dos, compressed), ⟨diskHeader compressed g1 index files dos size ++ rest, 296⟩) := by
  have hs2 : Reads (Rd.string 16) (if g1 then sigG1 else sigG2) (if g1 then sigG1 else sigG2) := by
    have := Reads.string (if g1 then sigG1 else sigG2)
    cases g1 <;> exact this
  generalize hI : diskHeader compressed g1 index files dos size ++ rest = I
  unfold diskHeader at hI
  generalize hc : b!"Created using ZenKit" ++ List.replicate 236 (26 : Byte) = cm at hI
  have hcl : cm.length = 256 := by rw [← hc, List.length_append, List.length_replicate]; rfl
  have hs1 : Reads (Rd.string 256) cm cm := by
    have := Reads.string cm
    rw [hcl] at this
    exact this
  have hsl : (if g1 then sigG1 else sigG2).length = 16 := by cases g1 <;> rfl
  have hflag : (compressed, (if compressed then 0xA0 else 0x50 : BitVec 32)) ∈
      [(true, (0xA0 : BitVec 32)), (false, 0x50)] := by cases compressed <;> simp
  have hsig : ((if g1 then sigG1 else sigG2) == sigTool || (if g1 then sigG1 else sigG2) == sigG1 ||
      (if g1 then sigG1 else sigG2) == sigG2) = true := by cases g1 <;> decide
  have hsegI : ∀ a b, a ++ b = I → Seg I 0 a := by intro a b h; exact ⟨[], b, by simp [h], rfl⟩
  have S : Seg I 0 (cm ++ ((if g1 then sigG1 else sigG2) ++ (encW 4 index ++ (encW 4 files ++ (encW 4 dos ++ (encW 4 size ++
      (encW 4 (BitVec.ofNat 32 headerSize) ++ encW 4 (if compressed then 0xA0 else 0x50 : BitVec 32)))))))) :=
    hsegI _ rest (by rw [← hI]; simp)
  have r1 := S.left.reads hs1
  have S := S.right
  have r2 := S.left.reads hs2
  have S := S.right
  have r3 := S.left.reads (Reads.u32 _)
  have S := S.right
  have r4 := S.left.reads (Reads.u32 _)
  have S := S.right
  have r5 := S.left.reads (Reads.u32 _)
  have S := S.right
  have r6 := S.left.reads (Reads.u32 _)
  have S := S.right
  have r7 := S.left.reads (Reads.u32 _)
  have S := S.right
  have r8 := S.reads (Reads.u32 _)
  simp only [hcl, hsl, encW_length, Nat.zero_add, Nat.reduceAdd] at r1 r2 r3 r4 r5 r6 r7 r8
  unfold readDiskHeader
  rw [Rd.bind_ok r1, Rd.bind_ok r2, Rd.bind_ok r3, Rd.bind_ok r4, Rd.bind_ok r5, Rd.bind_ok r6, Rd.bind_ok r7,
    Rd.bind_ok r8, hsig]
  simp only [if_true]
  have ht : Rd.tell ⟨I, 296⟩ = .ok (296, ⟨I, 296⟩) := rfl
  rw [Rd.bind_ok ht]
  cases compressed <;> rfl

mutual
theorem bytes_eq (st : Stored) (t : FTree) :
    t.bytes st = 80 + 80 * below_ t + (treeData st t).length + (match t with | .file n c => (st n c).length | .dir _ _ => 0) := by
  match t with
  | .file n c => simp [FTree.bytes, below_, treeData]
  | .dir n ts =>
    simp only [FTree.bytes, below_, treeData, List.length_append]
    rw [bytesAll_eq st ts]; omega
theorem bytesAll_eq (st : Stored) (ts : List FTree) :
    FTree.bytesAll st ts = 80 * ts.length + 80 * belowAll ts + (fileData st ts).length + (dirsData st ts).length := by
  match ts with
  | [] => simp [FTree.bytesAll, belowAll, fileData, dirsData]
  | .file n c :: ts =>
    simp only [FTree.bytesAll, belowAll, fileData, dirsData, List.length_append, List.length_cons]
    rw [bytes_eq st (.file n c), bytesAll_eq st ts]
    dsimp only; omega
  | .dir n cs :: ts =>
    simp only [FTree.bytesAll, belowAll, fileData, dirsData, List.length_append, List.length_cons]
    rw [bytes_eq st (.dir n cs), bytesAll_eq st ts]
    dsimp only; omega
end

/-- Saving and mounting, for any way to store contents. -/
theorem disk_roundtrip (st : Stored) (unz : Unz) (zip : Bytes → Bytes) (compressed g1 : Bool) (dos : BitVec 32)
    (unixTime : BitVec 32 → Int) (o : Overwrite) (P : Bytes → Bytes → Prop) (hst : Stores st zip compressed P)
    (hrb : ∀ k : Disk, k.zipped = compressed → k.buf.length < 2 ^ 32 → Readback st unz k P)
    (root : Node) (n : Bytes) (ts : List FTree) (hw : Wf root) (hv : view unz root = some (.dir n ts)) (hne : ts ≠ [])
    (hfit : FTree.FitsAll P ts) (hsize : 296 + FTree.bytesAll st ts < 2 ^ 32) :
    ∃ image f0 cs, save unz zip compressed g1 dos root = .ok image ∧ image.length = 296 + FTree.bytesAll st ts ∧
      viewAll unz cs = some ts ∧ ∀ fuel, fuel ≥ f0 →
      mountDisk unixTime fuel image o empty = (.dir b!"/" (-1) cs, .ok ()) := by
  have hb := bytesAll_eq st ts
  obtain ⟨index, files, size, hs⟩ := save_eq st unz zip compressed g1 dos P hst root n ts hv hfit
    (by simp only [below_]; omega)
  have hhl := diskHeader_length compressed g1 index files dos size
  have hhr := readHeader_eq compressed g1 index files dos size
    (encTree st (.dir n ts) 0 (296 + 80 * below_ (.dir n ts)) ++ treeData st (.dir n ts))
  rw [← List.append_assoc] at hhr
  generalize diskHeader compressed g1 index files dos size = hd at *
  have hord : OrdT (.dir n ts) := ordT_of_wf root _ hv hw
  have hel := encTree_length st (.dir n ts) 0 (296 + 80 * below_ (.dir n ts))
  have hlen : (hd ++ encTree st (.dir n ts) 0 (296 + 80 * below_ (.dir n ts)) ++ treeData st (.dir n ts)).length =
      296 + FTree.bytesAll st ts := by
    rw [List.length_append, List.length_append, hhl, hel]
    simp only [treeData, below_, List.length_append]
    omega
  have S1 : Seg (hd ++ encTree st (.dir n ts) 0 (296 + 80 * below_ (.dir n ts)) ++ treeData st (.dir n ts)) 296
      (encTree st (.dir n ts) 0 (296 + 80 * below_ (.dir n ts))) := ⟨hd, _, rfl, hhl⟩
  have S2 : Seg (hd ++ encTree st (.dir n ts) 0 (296 + 80 * below_ (.dir n ts)) ++ treeData st (.dir n ts))
      (296 + 80 * below_ (.dir n ts)) (treeData st (.dir n ts)) :=
    ⟨hd ++ encTree st (.dir n ts) 0 (296 + 80 * below_ (.dir n ts)), [], by simp, by simp only [List.length_append, hhl, hel]⟩
  generalize hI : hd ++ encTree st (.dir n ts) 0 (296 + 80 * below_ (.dir n ts)) ++ treeData st (.dir n ts) = I at *
  have hIl : I.length < 2 ^ 32 := by rw [hlen]; exact hsize
  simp only [encTree, Nat.zero_add] at S1
  simp only [treeData] at S2
  have S1r := S1.right
  rw [encLevel_length] at S1r
  obtain ⟨f0, new, hnew, hload⟩ := load_level st (k := ⟨I, 296, unixTime dos, compressed, o⟩) (hrb _ rfl hIl) rfl hIl ts hne hfit
    hord.2 [] (by simpa using hord.1) 296 (296 + 80 * below_ (.dir n ts)) ts.length
    (296 + 80 * below_ (.dir n ts) + (fileData st ts).length) S1.left S2.left S1r S2.right
  refine ⟨I, f0, new, hs, hlen, hnew, ?_⟩
  intro fuel hf
  unfold mountDisk
  simp only [hhr, empty]
  have h296 : (296 : BitVec 32).toNat = 296 := rfl
  rw [h296, show Rd.seek ((296 : Nat) : Int) .beg ⟨I, 296⟩ = .ok ((), ⟨I, 296⟩) from Rd.seek_beg (by omega)]
  simp only
  rw [hload fuel hf]
  rfl

/-! ## Ordinary archives -/

theorem stores_plain (zip : Bytes → Bytes) (P : Bytes → Bytes → Prop) : Stores storedPlain zip false P := by
  intro n c _ H D w ho
  exact ho.emits (f := fun w => w.write c) (Emits.write c) (ho.write c)

theorem readback_plain (unz : Unz) (k : Disk) (hz : k.zipped = false) (hI : k.buf.length < 2 ^ 32)
    (P : Bytes → Bytes → Prop) : Readback storedPlain unz k P := by
  intro n c off _ hs
  have hl := hs.le
  simp only [storedPlain] at hs hl
  rw [hz]
  simp only [Bool.false_eq_true, if_false]
  refine ⟨hl, by omega, ?_⟩
  unfold readFile Desc.make
  simp only [Bool.false_eq_true, if_false]
  rw [if_neg (by omega), hs.slice]

/-! ## Compressed archives -/

theorem isWave_iff (n : Bytes) : isWave n = true ↔ IsAudio n := by
  have key : ∀ e : Bytes, e.length = 4 → fold e = e → n.length ≥ 4 →
      (iequals (n.drop (n.length - 4)) e = true ↔ e <:+ fold n) := by
    intro e he hfe hn
    rw [iequals_iff, hfe]
    have hd : fold (n.drop (n.length - 4)) = (fold n).drop ((fold n).length - e.length) := by
      simp [fold, he, List.map_drop]
    rw [hd, eq_comm, List.suffix_iff_eq_drop]
  unfold isWave IsAudio
  split
  · rename_i hlt
    constructor
    · intro h; cases h
    · rintro (h | h)
      all_goals
        have := h.length_le
        simp [fold] at this
        omega
  · rename_i hlt
    rw [Bool.or_eq_true, key _ rfl (by decide) (by omega), key _ rfl (by decide) (by omega)]

theorem emits_blocks (zip : Bytes → Bytes) (data : Bytes) (is : List Nat) :
    Emits (writeBlocks zip data is) ((is.map fun i =>
      encW 4 (BitVec.ofNat 32 (zipBlock data 8192 i).length) ++ encW 4 (BitVec.ofNat 32 (zip (zipBlock data 8192 i)).length) ++
        encW 4 (8192 : BitVec 32) ++ zip (zipBlock data 8192 i)).flatten) := by
  induction is with
  | nil => exact Emits.id
  | cons i is ih =>
    have h1 := ((((Emits.u32 (BitVec.ofNat 32 (zipBlock data 8192 i).length)).comp
      (Emits.u32 (BitVec.ofNat 32 (zip (zipBlock data 8192 i)).length))).comp (Emits.u32 (8192 : BitVec 32))).comp
      (Emits.write (zip (zipBlock data 8192 i)))).comp ih
    exact h1.congr (by simp)

theorem emits_zipped (zip : Bytes → Bytes) (c : Bytes) (hc : c.length < 2 ^ 32) :
    Emits (writeZipped zip c) (zipFile c 8192 (fun i => zip (zipBlock c 8192 i)) (fun _ => 8192)) := by
  have hcount : (BitVec.ofNat 32 ((c.length + zippedBlock - 1) / zippedBlock)).toNat = zipCount c 8192 := by
    rw [BitVec.toNat_ofNat]
    unfold zipCount zippedBlock
    apply Nat.mod_eq_of_lt
    omega
  have h1 := (((Emits.u32 (BitVec.ofNat 32 c.length)).comp (Emits.u32 (BitVec.ofNat 32 zippedBlock))).comp
    (Emits.u32 (BitVec.ofNat 32 ((c.length + zippedBlock - 1) / zippedBlock)))).comp
    (emits_blocks zip c (List.range (zipCount c 8192)))
  intro w hw
  have := h1 w hw
  unfold writeZipped
  simp only [hcount]
  exact this

theorem writeZipped_gap (zip : Bytes → Bytes) (c : Bytes) {H : Nat} {D : Bytes} {w : Ws} (h : Out H D w) :
    writeZipped zip c w = writeZipped zip c ⟨List.replicate H 0 ++ D, H + D.length⟩ := by
  unfold writeZipped
  have := h.write (encW 4 (BitVec.ofNat 32 c.length))
  have e : Ws.u32 (BitVec.ofNat 32 c.length) w =
      Ws.u32 (BitVec.ofNat 32 c.length) ⟨List.replicate H 0 ++ D, H + D.length⟩ := this
  rw [e]

theorem stores_zip (unz : Unz) (zip : Bytes → Bytes) : Stores (storedZip zip) zip true (ZipFits unz zip) := by
  intro n c hP H D w ho
  unfold storeFile storedZip
  by_cases ha : IsAudio n
  · rw [if_pos ha, (isWave_iff n).2 ha]
    exact ho.emits (f := fun w => w.write c) (Emits.write c) (ho.write c)
  · have hw : isWave n = false := by
      cases h : isWave n
      · rfl
      · exact absurd ((isWave_iff n).1 h) ha
    rw [if_neg ha, hw]
    exact ho.emits (f := writeZipped zip c) (emits_zipped zip c (by have := hP.2.1; omega)) (writeZipped_gap zip c ho)

theorem fromZipped_raw (c post : Bytes) (hl : 12 ≤ c.length) (h : ¬ LooksZipped c) :
    Zip.fromZipped ⟨c ++ post, 0⟩ = .ok none := by
  have hsplit : ∃ a b d e, c = a ++ (b ++ (d ++ e)) ∧ a.length = 4 ∧ b.length = 4 ∧ d.length = 4 :=
    ⟨c.take 4, (c.drop 4).take 4, (c.drop 8).take 4, c.drop 12, by
      have e8 : c.drop 8 = (c.drop 4).drop 4 := by rw [List.drop_drop]
      have e12 : c.drop 12 = ((c.drop 4).drop 4).drop 4 := by rw [List.drop_drop, List.drop_drop]
      rw [e12, e8, List.take_append_drop, List.take_append_drop, List.take_append_drop], by simp; omega, by simp; omega, by simp; omega⟩
  obtain ⟨a, b, d, e, rfl, ha, hb, hd⟩ := hsplit
  have hda := encW_decW (w := 32) 4 rfl a ha
  have hdb := encW_decW (w := 32) 4 rfl b hb
  have hdd := encW_decW (w := 32) 4 rfl d hd
  have S : Seg (a ++ (b ++ (d ++ e)) ++ post) 0 (a ++ (b ++ d)) := ⟨[], e ++ post, by simp, rfl⟩
  have r1 := S.left.reads (hda ▸ Reads.u32 (decW 32 a))
  have S := S.right
  have r2 := S.left.reads (hdb ▸ Reads.u32 (decW 32 b))
  have S := S.right
  have r3 := S.reads (hdd ▸ Reads.u32 (decW 32 d))
  rw [hd] at r3
  rw [ha, hb] at r2 r3
  rw [ha] at r1
  have hs0 : Rd.seek 0 .beg ⟨a ++ (b ++ (d ++ e)) ++ post, 0⟩ = .ok ((), ⟨a ++ (b ++ (d ++ e)) ++ post, 0⟩) :=
    Rd.seek_ok (t := 0) rfl (by omega)
  unfold Zip.fromZipped
  rw [Rd.bind_ok hs0, Rd.bind_ok r1, Rd.bind_ok r2, Rd.bind_ok r3]
  have h' : ¬ (decW 32 a ≠ 0 ∧ decW 32 b ≠ 0 ∧ decW 32 d ≠ 0 ∧ decW 32 d = (decW 32 a + decW 32 b - 1) / decW 32 b) := by
    intro hh
    apply h
    unfold LooksZipped
    have e0 : ((a ++ (b ++ (d ++ e))).drop (4 * 0)).take 4 = a := by simp [← ha]
    have e1 : ((a ++ (b ++ (d ++ e))).drop (4 * 1)).take 4 = b := by
      rw [show 4 * 1 = a.length by omega, List.drop_left, ← hb, List.take_left]
    have e2 : ((a ++ (b ++ (d ++ e))).drop (4 * 2)).take 4 = d := by
      rw [← List.append_assoc, show 4 * 2 = (a ++ b).length by simp; omega, List.drop_left, ← hd, List.take_left]
    simp only [e0, e1, e2]
    exact hh
  by_cases hz : (decW 32 d == 0 || decW 32 b == 0 || decW 32 a == 0) = true
  · simp only [hz, if_true]; rfl
  · simp only [hz, Bool.false_eq_true, if_false]
    have hz' : ¬ decW 32 d = 0 ∧ ¬ decW 32 b = 0 ∧ ¬ decW 32 a = 0 := by
      simp only [Bool.or_eq_true, beq_iff_eq, not_or] at hz
      exact ⟨hz.1.1, hz.1.2, hz.2⟩
    have hne : (decW 32 d != (decW 32 a + decW 32 b - 1) / decW 32 b) = true := by
      simp only [bne_iff_ne, ne_eq]
      intro he
      exact h' ⟨hz'.2.2, hz'.2.1, hz'.1, he⟩
    simp only [hne, if_true]; rfl

/-- Opening and reading a compressed content. -/
theorem readZipped_eq (unz : Unz) (zip : Bytes → Bytes) (c post : Bytes) (hne : c ≠ []) (hl : c.length + 8192 ≤ 2 ^ 32)
    (hz : ∀ i, i < zipCount c 8192 → (zip (zipBlock c 8192 i)).length < 2 ^ 32 ∧
      unz (zip (zipBlock c 8192 i)) (zipBlock c 8192 i).length = (zipBlock c 8192 i, true)) :
    ∃ z z', Zip.fromZipped ⟨zipFile c 8192 (fun i => zip (zipBlock c 8192 i)) (fun _ => 8192) ++ post, 0⟩ = .ok (some z) ∧
      z.length = c.length ∧ Zip.read unz z.length z = .ok (c, z') := by
  obtain ⟨z, z1, h1, h2, h3⟩ := Props.c09_zipped_transparent unz c 8192 (fun i => zip (zipBlock c 8192 i)) (fun _ => 8192)
    hne (by omega) hl hz post 0 [.seek 0 .end_]
  have hlen : z.length = c.length := by
    simp only [Zip.run, Zip.step, Except.ok.injEq, Prod.mk.injEq] at h2
    have : (Zip.seek 0 .end_ z).pos = c.length := by
      rw [h2.2, h3]
      simp [zipRun, zipPosAfter, seekTo]
    simp only [Zip.seek] at this
    rw [← this]
    split <;> split <;> omega
  obtain ⟨z', z2, g1, g2, g3⟩ := Props.c09_zipped_transparent unz c 8192 (fun i => zip (zipBlock c 8192 i)) (fun _ => 8192)
    hne (by omega) hl hz post 0 [.read c.length]
  have hzz : z' = z := by
    have := h1.symm.trans g1
    simp only [Except.ok.injEq, Option.some.injEq] at this
    exact this.symm
  subst hzz
  refine ⟨z', z2, h1, hlen, ?_⟩
  rw [hlen]
  simp only [Zip.run, Zip.step] at g2
  cases hr : Zip.read unz c.length z' with
  | error e => rw [hr] at g2; cases g2
  | ok q =>
    obtain ⟨out, z3⟩ := q
    rw [hr] at g2
    simp only [Except.ok.injEq, Prod.mk.injEq, zipRun, zipReturned, List.drop_zero, List.take_length, List.cons.injEq,
      and_true] at g2
    rw [g2.1, g2.2]

theorem readback_zip (unz : Unz) (zip : Bytes → Bytes) (k : Disk) (hz : k.zipped = true) (_ : k.buf.length < 2 ^ 32) :
    Readback (storedZip zip) unz k (ZipFits unz zip) := by
  intro n c off hP hs
  obtain ⟨hne, hl, hP⟩ := hP
  have hcl : 0 < c.length := List.length_pos_iff.2 hne
  have hle := hs.le
  obtain ⟨pre, post, hbuf, hpre⟩ := hs
  have hdrop : k.buf.drop off = storedZip zip n c ++ post := by
    rw [hbuf, List.append_assoc, ← hpre, List.drop_left]
  have hpos : 0 < (storedZip zip n c).length := by
    unfold storedZip
    split
    · exact hcl
    · unfold zipFile; simp only [List.length_append, encW_length]; omega
  rw [hz]
  simp only [if_true]
  refine ⟨by omega, by omega, ?_⟩
  have hraw : (if c.length = 0 then k.buf.length - off else c.length) = c.length := by rw [if_neg (by omega)]
  unfold readFile Desc.make
  simp only [hraw, if_true]
  rw [if_neg (by omega)]
  have htake : (k.buf.drop off).take (k.buf.length - off) = storedZip zip n c ++ post := by
    rw [← hdrop, List.take_of_length_le (by simp)]
  rw [htake]
  unfold storedZip at hdrop hle ⊢
  by_cases ha : IsAudio n
  · rw [if_pos ha] at hP hdrop hle ⊢
    rw [fromZipped_raw c post hP.1 hP.2]
    simp only
    rw [if_neg (by omega), hdrop, List.take_left]
  · rw [if_neg ha] at hP ⊢
    obtain ⟨z, z', h1, h2, h3⟩ := readZipped_eq unz zip c post hne hl hP
    rw [h1]
    simp only [h3]
    rw [h2]

/-! ## Reading at the end of the image -/

theorem readPadded_total (k : Nat) (s : Rs) : ∃ bs s', Rd.readPadded k s = .ok (bs, s') := ⟨_, _, rfl⟩

theorem u32_total (s : Rs) : ∃ v s', Rd.u32 s = .ok (v, s') := ⟨_, _, rfl⟩

theorem readPadded_end (buf : Bytes) (k : Nat) :
    Rd.readPadded k ⟨buf, buf.length⟩ = .ok (List.replicate k 0, ⟨buf, buf.length⟩) := by
  unfold Rd.readPadded Rd.read
  cases k with
  | zero => simp
  | succ k => simp

theorem u32_end (buf : Bytes) : Rd.u32 ⟨buf, buf.length⟩ = .ok (0, ⟨buf, buf.length⟩) := by
  unfold Rd.u32 Rd.word
  rw [Rd.bind_ok (readPadded_end buf 4)]
  rfl

theorem readEntry_end (buf : Bytes) :
    readEntry ⟨buf, buf.length⟩ = .ok (⟨List.replicate 64 0, 0, 0, 0⟩, ⟨buf, buf.length⟩) := by
  unfold readEntry Rd.string
  rw [Rd.bind_ok (readPadded_end buf 64), Rd.bind_ok (u32_end buf), Rd.bind_ok (u32_end buf), Rd.bind_ok (u32_end buf),
    Rd.bind_ok (u32_end buf)]
  have : entryName (List.replicate 64 0) = List.replicate 64 0 := by decide +kernel
  rw [this]; rfl

/-- Behind the last entry of the image the loop never ends. -/
theorem loadLoop_end (k : Disk) (buf : Bytes) (fuel : Nat) (cs : List Node) :
    (loadLoop k fuel cs ⟨buf, buf.length⟩).2 = .error .hang := by
  induction fuel generalizing cs with
  | zero => rfl
  | succ fuel ih =>
    rw [loadLoop]
    cases fuel with
    | zero => rfl
    | succ fuel =>
      rw [loadEntry, readEntry_end]
      exact ih _

/-- What `read_string(16)` gives for the signature. -/
theorem readHeader_bad (buf : Bytes)
    (h : (buf.drop 256).take 16 ≠ sigTool ∧ (buf.drop 256).take 16 ≠ sigG1 ∧ (buf.drop 256).take 16 ≠ sigG2) :
    readDiskHeader ⟨buf, 0⟩ = .error (.throw .vfsBrokenDisk) := by
  have h1 : ∃ bs, Rd.string 256 ⟨buf, 0⟩ = .ok (bs, ⟨buf, min 256 buf.length⟩) := by
    unfold Rd.string Rd.readPadded Rd.read
    apply Exists.intro
    simp only [Nat.zero_add, Nat.sub_zero]
    congr 3
    split <;> omega
  obtain ⟨bs, h1⟩ := h1
  have hx : ∃ x s', Rd.string 16 ⟨buf, min 256 buf.length⟩ = .ok (x, s') ∧
      x = (buf.drop 256).take 16 ++ List.replicate (16 - ((buf.drop 256).take 16).length) 0 := by
    refine ⟨_, _, rfl, ?_⟩
    have : (buf.drop (min 256 buf.length)).take (if min 256 buf.length + 16 > buf.length then buf.length - min 256 buf.length else 16)
        = (buf.drop 256).take 16 := by
      rcases Nat.lt_or_ge buf.length 256 with hl | hl
      · rw [Nat.min_eq_right (by omega), List.drop_length, List.take_nil, List.drop_of_length_le (by omega), List.take_nil]
      · rw [Nat.min_eq_left hl]
        split
        · rw [List.take_of_length_le (by simp), List.take_of_length_le (by simp; omega)]
        · rfl
    simp only [this]
  obtain ⟨x, s', h2, hxe⟩ := hx
  have hlast : ∀ sg : Bytes, sg.length = 16 → (0 : Byte) ∉ sg → (buf.drop 256).take 16 ≠ sg → (x == sg) = false := by
    intro sg hl h0 hne
    rw [beq_eq_false_iff_ne]
    intro he
    cases hk : 16 - ((buf.drop 256).take 16).length with
    | zero => rw [hk] at hxe; simp only [List.replicate_zero, List.append_nil] at hxe; exact hne (hxe.symm.trans he)
    | succ k =>
      apply h0
      rw [← he, hxe, hk]
      simp
  unfold readDiskHeader
  rw [Rd.bind_ok h1, Rd.bind_ok h2]
  obtain ⟨_, s3, h3⟩ := u32_total s'
  obtain ⟨_, s4, h4⟩ := u32_total s3
  obtain ⟨_, s5, h5⟩ := u32_total s4
  obtain ⟨_, s6, h6⟩ := u32_total s5
  obtain ⟨_, s7, h7⟩ := u32_total s6
  obtain ⟨_, s8, h8⟩ := u32_total s7
  rw [Rd.bind_ok h3, Rd.bind_ok h4, Rd.bind_ok h5, Rd.bind_ok h6, Rd.bind_ok h7, Rd.bind_ok h8,
    hlast sigTool rfl (by decide) h.1, hlast sigG1 rfl (by decide) h.2.1, hlast sigG2 rfl (by decide) h.2.2]
  rfl

end Verif.Vfs
