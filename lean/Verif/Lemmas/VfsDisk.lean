import Verif.Spec.VfsDisk
import Verif.Lemmas.VfsTree
import Verif.Lemmas.Stream

/-!
# Lemmas about disk archives: writing
-/

namespace Verif.Vfs

open Spec
open Zip (Unz)

/-! ## The layout of a disk -/

/-- An entry of the catalog. -/
def ent (n : Bytes) (off size type : BitVec 32) : Bytes :=
  padName n ++ encW 4 off ++ encW 4 size ++ encW 4 type ++ encW 4 (0 : BitVec 32)

theorem padName_length {n : Bytes} (h : n.length ≤ 64) : (padName n).length = 64 := by
  simp [padName]; omega

theorem padName_len (n : Bytes) : (padName n).length = 64 := by
  simp [padName]; omega

@[simp] theorem ent_length (n : Bytes) (off size type : BitVec 32) : (ent n off size type).length = 80 := by
  simp [ent, padName_len]

/-- The flag of the last entry of a directory. -/
def lastFlag (ts : List FTree) : BitVec 32 := if ts.isEmpty then 0x40000000 else 0

variable (st : Stored)

/-- The contents of the files in a list. -/
def fileData : List FTree → Bytes
  | [] => []
  | .file n c :: ts => st n c ++ fileData ts
  | .dir _ _ :: ts => fileData ts

mutual
def treeData : FTree → Bytes
  | .file _ _ => []
  | .dir _ ts => fileData st ts ++ dirsData ts
/-- The contents of the files below the directories in a list. -/
def dirsData : List FTree → Bytes
  | [] => []
  | t :: ts => treeData t ++ dirsData ts
end

mutual
/-- The number of entries below a node. -/
def below_ : FTree → Nat
  | .file _ _ => 0
  | .dir _ ts => ts.length + belowAll ts
def belowAll : List FTree → Nat
  | [] => 0
  | t :: ts => below_ t + belowAll ts
end

/-- The entries of a directory before the offsets of the directories are known. -/
def rawLevel : List FTree → Nat → Bytes
  | [], _ => []
  | .file n c :: ts, d =>
    ent n (BitVec.ofNat 32 d) (BitVec.ofNat 32 c.length) (if ts.isEmpty then 0x40000000 else 0) ++
      rawLevel ts (d + (st n c).length)
  | .dir n _ :: ts, d => ent n 0 0 (if ts.isEmpty then 0xC0000000 else 0x80000000) ++ rawLevel ts d

/-- The entries of a directory: `d` is the position of the next content, `j` the index of the entries of the next
subdirectory. -/
def encLevel : List FTree → Nat → Nat → Bytes
  | [], _, _ => []
  | .file n c :: ts, d, j =>
    ent n (BitVec.ofNat 32 d) (BitVec.ofNat 32 c.length) (if ts.isEmpty then 0x40000000 else 0) ++
      encLevel ts (d + (st n c).length) j
  | .dir n kids :: ts, d, j =>
    ent n (BitVec.ofNat 32 j) 0 (if ts.isEmpty then 0xC0000000 else 0x80000000) ++
      encLevel ts d (j + below_ (.dir n kids))

mutual
/-- All entries below a node. -/
def encTree : FTree → Nat → Nat → Bytes
  | .file _ _, _, _ => []
  | .dir _ ts, j, d =>
    encLevel st ts d (j + ts.length) ++ encDirs ts (j + ts.length) (d + (fileData st ts).length)
def encDirs : List FTree → Nat → Nat → Bytes
  | [], _, _ => []
  | t :: ts, j, d => encTree t j d ++ encDirs ts (j + below_ t) (d + (treeData st t).length)
end

/-- The positions of the offsets of the directories. -/
def offsetsOf : List FTree → Nat → List Nat
  | [], _ => []
  | .file _ _ :: ts, p => offsetsOf ts (p + 80)
  | .dir _ _ :: ts, p => (p + 64) :: offsetsOf ts (p + 80)

theorem rawLevel_length (ts : List FTree) (d : Nat) : (rawLevel st ts d).length = 80 * ts.length := by
  induction ts generalizing d with
  | nil => rfl
  | cons t ts ih => cases t <;> simp [rawLevel, ih] <;> omega

theorem encLevel_length (ts : List FTree) (d j : Nat) : (encLevel st ts d j).length = 80 * ts.length := by
  induction ts generalizing d j with
  | nil => rfl
  | cons t ts ih => cases t <;> simp [encLevel, ih] <;> omega

mutual
theorem encTree_length (t : FTree) (j d : Nat) : (encTree st t j d).length = 80 * below_ t := by
  cases t with
  | file n c => simp [encTree, below_]
  | dir n ts => simp [encTree, below_, encLevel_length, encDirs_length ts]; omega
theorem encDirs_length (ts : List FTree) (j d : Nat) : (encDirs st ts j d).length = 80 * belowAll ts := by
  match ts with
  | [] => simp [encDirs, belowAll]
  | t :: ts => simp [encDirs, belowAll, encTree_length t, encDirs_length ts]; omega
end

/-! ## The output -/

/-- `H` bytes are left free at the start of the file, `D` was written behind them. -/
structure Out (H : Nat) (D : Bytes) (w : Ws) : Prop where
  pos : w.pos = H + D.length
  data : w.data = List.replicate H 0 ++ D ∨ (w.data = [] ∧ D = [])

theorem splice_gap (H : Nat) (bs : Bytes) : splice [] H bs = List.replicate H 0 ++ bs := by
  unfold splice
  simp

theorem Out.write {H : Nat} {D : Bytes} {w : Ws} (h : Out H D w) (bs : Bytes) :
    w.write bs = Ws.write bs ⟨List.replicate H 0 ++ D, H + D.length⟩ := by
  obtain ⟨wd, wp⟩ := w
  obtain ⟨h1, h2⟩ := h
  simp only at h1 h2
  subst h1
  rcases h2 with rfl | ⟨rfl, rfl⟩
  · rfl
  · simp only [Ws.write, List.append_nil, List.length_nil, Nat.add_zero]
    rw [splice_gap]
    have := splice_end (List.replicate H 0) bs
    simp only [List.length_replicate] at this
    rw [this]

/-- Where a function emits bytes whatever comes first, it does so behind the gap. -/
theorem Out.emits {H : Nat} {D : Bytes} {w : Ws} (h : Out H D w) {f : Ws → Ws} {bs : Bytes} (hf : Emits f bs)
    (hw : f w = f ⟨List.replicate H 0 ++ D, H + D.length⟩) : Out H (D ++ bs) (f w) := by
  rw [hw, hf _ (by simp)]
  have : (⟨List.replicate H 0 ++ D, H + D.length⟩ : Ws) = ⟨List.replicate H 0 ++ D, (List.replicate H (0 : Byte) ++ D).length⟩ := by
    simp
  rw [this]
  have e := splice_end (List.replicate H (0 : Byte) ++ D) bs
  constructor
  · simp [Ws.write]; omega
  · left; simp only [Ws.write, e]; simp

/-! ## The writer -/

/-- What is done with the contents of a file. -/
def storeFile (zip : Bytes → Bytes) (compressed : Bool) (n c : Bytes) (w : Ws) : Ws :=
  if compressed && !isWave n then writeZipped zip c w else w.write c

/-- Contents that satisfy `P` are stored by appending. -/
def Stores (zip : Bytes → Bytes) (compressed : Bool) (P : Bytes → Bytes → Prop) : Prop :=
  ∀ n c, P n c → ∀ H D w, Out H D w → Out H (D ++ st n c) (storeFile zip compressed n c w)

theorem viewAll_cons {unz : Unz} {c : Node} {cs : List Node} {ts : List FTree} (h : viewAll unz (c :: cs) = some ts) :
    ∃ t ts', ts = t :: ts' ∧ view unz c = some t ∧ viewAll unz cs = some ts' := by
  simp only [viewAll] at h
  split at h
  · injection h with h; exact ⟨_, _, h.symm, by assumption, by assumption⟩
  · cases h

theorem view_file {unz : Unz} {n tm d} {t : FTree} (h : view unz (.file n tm d) = some t) :
    ∃ c, t = .file n c ∧ readFile unz d = .ok (c.length, c) := by
  simp only [view] at h
  split at h
  · split at h
    · rename_i sz bs hr hl
      injection h with h
      exact ⟨bs, h.symm, by rw [hr, hl]⟩
    · cases h
  · cases h

theorem view_dir {unz : Unz} {n tm cs} {t : FTree} (h : view unz (.dir n tm cs) = some t) :
    ∃ ts, t = .dir n ts ∧ viewAll unz cs = some ts := by
  simp only [view] at h
  split at h
  · injection h with h; exact ⟨_, h.symm, by assumption⟩
  · cases h

theorem viewAll_length {unz : Unz} {cs : List Node} {ts : List FTree} (h : viewAll unz cs = some ts) :
    cs.length = ts.length := by
  induction cs generalizing ts with
  | nil => simp [viewAll] at h; subst h; rfl
  | cons c cs ih =>
    obtain ⟨t, ts', rfl, -, h'⟩ := viewAll_cons h
    simp [ih h']

/-- A writer at the end of its file. -/
abbrev atEnd (C : Bytes) : Ws := ⟨C, C.length⟩

theorem Ws.append (C bs : Bytes) : Ws.write bs ⟨C, C.length⟩ = ⟨C ++ bs, (C ++ bs).length⟩ := by
  simp [Ws.write, splice_end]

theorem catEntry (C n : Bytes) (a b c : BitVec 32) :
    ((((Ws.string (padName n) ⟨C, C.length⟩).u32 a).u32 b).u32 c).u32 0 =
      ⟨C ++ ent n a b c, (C ++ ent n a b c).length⟩ := by
  simp only [Ws.string, Ws.u32, Ws.word, Ws.append]
  simp [ent]

theorem resize_full (cache bytes : Bytes) : bytes ++ (Zip.resize cache bytes.length).drop bytes.length = bytes := by
  have : (Zip.resize cache bytes.length).drop bytes.length = [] := by
    apply List.drop_of_length_le
    simp [Zip.resize]; omega
  rw [this, List.append_nil]

theorem isEmpty_of_length {α β} {a : List α} {b : List β} (h : a.length = b.length) : a.isEmpty = b.isEmpty := by
  cases a <;> cases b <;> simp at h ⊢

theorem writeEntries_eq (unz : Unz) (zip : Bytes → Bytes) (compressed : Bool) (P : Bytes → Bytes → Prop)
    (hst : Stores st zip compressed P) (H : Nat) (cs : List Node) (ts : List FTree) (hv : viewAll unz cs = some ts)
    (hP : FTree.FitsAll P ts) (C D : Bytes) (s : Save) (hc : s.cat = ⟨C, C.length⟩) (ho : Out H D s.out) :
    ∃ s', writeEntries unz zip compressed cs s = .ok (offsetsOf ts C.length, s') ∧
      s'.cat = ⟨C ++ rawLevel st ts (H + D.length), (C ++ rawLevel st ts (H + D.length)).length⟩ ∧
      Out H (D ++ fileData st ts) s'.out ∧ s'.index = s.index + BitVec.ofNat 32 ts.length := by
  induction cs generalizing ts C D s with
  | nil =>
    simp only [viewAll, Option.some.injEq] at hv
    subst hv
    refine ⟨s, rfl, ?_, ?_, ?_⟩
    · simp [rawLevel, hc]
    · simpa [fileData] using ho
    · simp
  | cons x cs ih =>
    obtain ⟨t, ts', rfl, hx, hr⟩ := viewAll_cons hv
    obtain ⟨hPt, hPr⟩ := hP
    have hem := isEmpty_of_length (viewAll_length hr)
    cases x with
    | file n tm d =>
      obtain ⟨c, rfl, hrd⟩ := view_file hx
      have hout := hst n c hPt.2 H D s.out ho
      have hcat : ((((Ws.string (padName n) s.cat).u32 (BitVec.ofNat 32 s.out.pos)).u32
          (BitVec.ofNat 32 c.length)).u32 (if cs.isEmpty then 0x40000000 else 0)).u32 0 =
          atEnd (C ++ ent n (BitVec.ofNat 32 (H + D.length)) (BitVec.ofNat 32 c.length)
            (if ts'.isEmpty then 0x40000000 else 0)) := by
        rw [hc, catEntry, ho.pos, hem]
      obtain ⟨s', h1, h2, h3, h4⟩ := ih ts' hr hPr
        (C ++ ent n (BitVec.ofNat 32 (H + D.length)) (BitVec.ofNat 32 c.length) (if ts'.isEmpty then 0x40000000 else 0))
        (D ++ st n c)
        { cat := ((((Ws.string (padName n) s.cat).u32 (BitVec.ofNat 32 s.out.pos)).u32
            (BitVec.ofNat 32 c.length)).u32 (if cs.isEmpty then 0x40000000 else 0)).u32 0
          out := storeFile zip compressed n c s.out, cache := c, index := s.index + 1, files := s.files + 1 } hcat hout
      refine ⟨s', ?_, ?_, ?_, ?_⟩
      · simp only [writeEntries, hrd, resize_full]
        rw [show (if (compressed && !isWave n) = true then writeZipped zip c s.out else s.out.write c) =
          storeFile zip compressed n c s.out from rfl, h1]
        simp [offsetsOf]
      · rw [h2]; simp [rawLevel, Nat.add_assoc]
      · simpa [fileData] using h3
      · rw [h4, List.length_cons, Nat.add_comm ts'.length, BitVec.ofNat_add, ← BitVec.add_assoc]; rfl
    | dir n tm kids =>
      obtain ⟨kt, rfl, hkt⟩ := view_dir hx
      have hcat : ((((Ws.string (padName n) s.cat).u32 0).u32 0).u32
          (if cs.isEmpty then 0xC0000000 else 0x80000000)).u32 0 =
          atEnd (C ++ ent n 0 0 (if ts'.isEmpty then 0xC0000000 else 0x80000000)) := by
        rw [hc, catEntry, hem]
      obtain ⟨s', h1, h2, h3, h4⟩ := ih ts' hr hPr (C ++ ent n 0 0 (if ts'.isEmpty then 0xC0000000 else 0x80000000)) D
        { s with cat := ((((Ws.string (padName n) s.cat).u32 0).u32 0).u32
            (if cs.isEmpty then 0xC0000000 else 0x80000000)).u32 0, index := s.index + 1 } hcat ho
      refine ⟨s', ?_, ?_, ?_, ?_⟩
      · simp only [writeEntries, h1]
        simp [offsetsOf, hc, Ws.string, Ws.append, padName_len]
      · rw [h2]; simp [rawLevel]
      · simpa [fileData] using h3
      · rw [h4, List.length_cons, Nat.add_comm ts'.length, BitVec.ofNat_add, ← BitVec.add_assoc]; rfl

/-- Storing the index of a directory in its entry. -/
theorem patch_dir (A n : Bytes) (a b c v : BitVec 32) (B : Bytes) :
    (Ws.u32 v (Ws.seek ((A.length + 64 : Nat) : Int) .beg ⟨A ++ ent n a b c ++ B, (A ++ ent n a b c ++ B).length⟩)).seek
      ((A ++ ent n a b c ++ B).length : Nat) .beg =
    ⟨A ++ ent n v b c ++ B, (A ++ ent n v b c ++ B).length⟩ := by
  have e : A ++ ent n a b c ++ B = (A ++ padName n) ++ encW 4 a ++ (encW 4 b ++ encW 4 c ++ encW 4 (0 : BitVec 32) ++ B) := by
    simp [ent]
  have e' : A ++ ent n v b c ++ B = (A ++ padName n) ++ encW 4 v ++ (encW 4 b ++ encW 4 c ++ encW 4 (0 : BitVec 32) ++ B) := by
    simp [ent]
  have hl : (A ++ padName n).length = A.length + 64 := by simp [padName_len]
  have hlen : (A ++ ent n a b c ++ B).length = (A ++ ent n v b c ++ B).length := by simp
  simp only [Ws.seek, Rd.seekTarget, Int.toNat_natCast, Ws.u32, Ws.word, Ws.write]
  rw [hlen, e, splice_le _ _ _ (by simp [padName_len]), ← hl]
  congr 1
  rw [e']
  generalize A ++ padName n = X
  generalize (encW 4 b ++ encW 4 c ++ encW 4 (0 : BitVec 32) ++ B) = Y
  have : (encW 4 a).length = (encW 4 v).length := by simp
  generalize encW 4 a = O at *
  generalize encW 4 v = N at *
  rw [List.append_assoc X O Y, List.take_left, ← List.append_assoc X O Y, ← this, ← List.length_append, List.drop_left]

mutual
theorem writeNode_eq (unz : Unz) (zip : Bytes → Bytes) (compressed : Bool) (P : Bytes → Bytes → Prop)
    (hst : Stores st zip compressed P) (H : Nat) (x : Node) (n : Bytes) (ts : List FTree)
    (hv : view unz x = some (.dir n ts)) (hP : FTree.FitsAll P ts) (C D : Bytes) (s : Save) (j : Nat)
    (hc : s.cat = ⟨C, C.length⟩) (ho : Out H D s.out) (hj : s.index = BitVec.ofNat 32 j) :
    ∃ s', writeNode unz zip compressed x s = .ok s' ∧
      s'.cat = ⟨C ++ encTree st (.dir n ts) j (H + D.length), (C ++ encTree st (.dir n ts) j (H + D.length)).length⟩ ∧
      Out H (D ++ treeData st (.dir n ts)) s'.out ∧ s'.index = BitVec.ofNat 32 (j + below_ (.dir n ts)) := by
  match x, hv with
  | .file n' tm d, hv =>
    obtain ⟨c, h, -⟩ := view_file hv
    cases h
  | .dir n' tm cs, hv =>
    obtain ⟨ts', h, hcs⟩ := view_dir hv
    injection h with h1 h2
    subst h1 h2
    obtain ⟨s1, h1, h2, h3, h4⟩ := writeEntries_eq st unz zip compressed P hst H cs ts hcs hP C D s hc ho
    obtain ⟨s2, g1, g2, g3, g4⟩ := writeDirs_eq unz zip compressed P hst H cs ts hcs hP C [] (H + D.length)
      (D ++ fileData st ts) s1 (j + ts.length) (by simpa using h2) h3 (by rw [h4, hj, BitVec.ofNat_add])
    refine ⟨s2, ?_, ?_, ?_, ?_⟩
    · simp only [writeNode, h1]; exact g1
    · rw [g2]; simp [encTree, Nat.add_assoc]
    · simpa [treeData] using g3
    · rw [g4]; simp [below_, Nat.add_assoc]
theorem writeDirs_eq (unz : Unz) (zip : Bytes → Bytes) (compressed : Bool) (P : Bytes → Bytes → Prop)
    (hst : Stores st zip compressed P) (H : Nat) (cs : List Node) (ts : List FTree) (hv : viewAll unz cs = some ts)
    (hP : FTree.FitsAll P ts) (A B : Bytes) (d : Nat) (D : Bytes) (s : Save) (j : Nat)
    (hc : s.cat = ⟨A ++ rawLevel st ts d ++ B, (A ++ rawLevel st ts d ++ B).length⟩) (ho : Out H D s.out)
    (hj : s.index = BitVec.ofNat 32 j) :
    ∃ s', writeDirs unz zip compressed cs (offsetsOf ts A.length) s = .ok s' ∧
      s'.cat = ⟨A ++ encLevel st ts d j ++ B ++ encDirs st ts j (H + D.length),
        (A ++ encLevel st ts d j ++ B ++ encDirs st ts j (H + D.length)).length⟩ ∧
      Out H (D ++ dirsData st ts) s'.out ∧ s'.index = BitVec.ofNat 32 (j + belowAll ts) := by
  match cs, hv with
  | [], hv =>
    simp only [viewAll, Option.some.injEq] at hv
    subst hv
    refine ⟨s, rfl, ?_, ?_, ?_⟩
    · rw [hc]; simp [rawLevel, encLevel, encDirs]
    · simpa [dirsData] using ho
    · simp [hj, belowAll]
  | .file n tm fd :: cs, hv =>
    obtain ⟨t, ts', rfl, hx, hr⟩ := viewAll_cons hv
    obtain ⟨c, rfl, -⟩ := view_file hx
    obtain ⟨-, hPr⟩ := hP
    obtain ⟨s', h1, h2, h3, h4⟩ := writeDirs_eq unz zip compressed P hst H cs ts' hr hPr
      (A ++ ent n (BitVec.ofNat 32 d) (BitVec.ofNat 32 c.length) (if ts'.isEmpty then 0x40000000 else 0)) B
      (d + (st n c).length) D s j (by rw [hc]; simp [rawLevel]) ho hj
    refine ⟨s', ?_, ?_, ?_, ?_⟩
    · simp only [writeDirs, offsetsOf]
      simpa using h1
    · rw [h2]; simp [encLevel, encDirs, encTree, below_, treeData]
    · simpa [dirsData, treeData] using h3
    · rw [h4]; simp [belowAll, below_]
  | .dir n tm kids :: cs, hv =>
    obtain ⟨t, ts', rfl, hx, hr⟩ := viewAll_cons hv
    obtain ⟨kt, rfl, hkt⟩ := view_dir hx
    obtain ⟨hPt, hPr⟩ := hP
    have hcat : (Ws.u32 s.index (s.cat.seek ((A.length + 64 : Nat) : Int) .beg)).seek (s.cat.pos : Nat) .beg =
        atEnd (A ++ ent n (BitVec.ofNat 32 j) 0 (if ts'.isEmpty then 0xC0000000 else 0x80000000) ++ rawLevel st ts' d ++ B) := by
      rw [hc, hj]
      simp only [rawLevel]
      have := patch_dir A n 0 0 (if ts'.isEmpty then 0xC0000000 else 0x80000000) (BitVec.ofNat 32 j) (rawLevel st ts' d ++ B)
      simpa only [List.append_assoc] using this
    obtain ⟨s1, g1, g2, g3, g4⟩ := writeNode_eq unz zip compressed P hst H (.dir n tm kids) n kt hx hPt.2.2
      (A ++ ent n (BitVec.ofNat 32 j) 0 (if ts'.isEmpty then 0xC0000000 else 0x80000000) ++ rawLevel st ts' d ++ B) D
      { s with cat := (Ws.u32 s.index (s.cat.seek ((A.length + 64 : Nat) : Int) .beg)).seek (s.cat.pos : Nat) .beg }
      j hcat ho hj
    obtain ⟨s2, h1, h2, h3, h4⟩ := writeDirs_eq unz zip compressed P hst H cs ts' hr hPr
      (A ++ ent n (BitVec.ofNat 32 j) 0 (if ts'.isEmpty then 0xC0000000 else 0x80000000))
      (B ++ encTree st (.dir n kt) j (H + D.length)) d (D ++ treeData st (.dir n kt)) s1 (j + below_ (.dir n kt))
      (by rw [g2]; simp) g3 g4
    refine ⟨s2, ?_, ?_, ?_, ?_⟩
    · simp only [writeDirs, offsetsOf]
      rw [g1]
      simpa using h1
    · rw [h2]; simp [encLevel, encDirs, Nat.add_assoc]
    · simpa [dirsData] using h3
    · rw [h4]; simp [belowAll, Nat.add_assoc]
end

/-! ## The whole file -/

mutual
theorem count_view {unz : Unz} (x : Node) (t : FTree) (h : view unz x = some t) : count x = 1 + below_ t := by
  match x, h with
  | .file n tm d, h =>
    obtain ⟨c, rfl, -⟩ := view_file h
    simp [count, below_]
  | .dir n tm cs, h =>
    obtain ⟨ts, rfl, hcs⟩ := view_dir h
    simp only [count, below_]
    rw [countAll_view cs ts hcs]
theorem countAll_view {unz : Unz} (cs : List Node) (ts : List FTree) (h : viewAll unz cs = some ts) :
    countAll cs = ts.length + belowAll ts := by
  match cs, h with
  | [], h => simp only [viewAll, Option.some.injEq] at h; subst h; rfl
  | c :: cs, h =>
    obtain ⟨t, ts', rfl, h1, h2⟩ := viewAll_cons h
    simp only [countAll, belowAll, List.length_cons]
    rw [count_view c t h1, countAll_view cs ts' h2]
    omega
end

/-- The header of a saved disk. -/
def diskHeader (compressed g1 : Bool) (index files dos size : BitVec 32) : Bytes :=
  (b!"Created using ZenKit" ++ List.replicate 236 26) ++ (if g1 then sigG1 else sigG2) ++ encW 4 index ++ encW 4 files ++
    encW 4 dos ++ encW 4 size ++ encW 4 (BitVec.ofNat 32 headerSize) ++
    encW 4 (if compressed then 0xA0 else 0x50 : BitVec 32)

theorem diskHeader_length (compressed g1 : Bool) (index files dos size : BitVec 32) :
    (diskHeader compressed g1 index files dos size).length = 296 := by
  unfold diskHeader
  simp only [List.length_append, encW_length, List.length_replicate]
  cases g1 <;> rfl

theorem emits_header (compressed g1 : Bool) (index files dos size : BitVec 32) :
    Emits (fun w => (((((((w.string (b!"Created using ZenKit" ++ List.replicate 236 26)).string
      (if g1 then sigG1 else sigG2)).u32 index).u32 files).u32 dos).u32 size).u32 (BitVec.ofNat 32 headerSize)).u32
      (if compressed then 0xA0 else 0x50)) (diskHeader compressed g1 index files dos size) := by
  unfold diskHeader
  exact (((((((Emits.string _).comp (Emits.string _)).comp (Emits.u32 _)).comp (Emits.u32 _)).comp (Emits.u32 _)).comp
    (Emits.u32 _)).comp (Emits.u32 _)).comp (Emits.u32 _)

theorem save_eq (unz : Unz) (zip : Bytes → Bytes) (compressed g1 : Bool) (dos : BitVec 32) (P : Bytes → Bytes → Prop)
    (hst : Stores st zip compressed P) (root : Node) (n : Bytes) (ts : List FTree)
    (hv : view unz root = some (.dir n ts)) (hP : FTree.FitsAll P ts)
    (hsize : 296 + 80 * below_ (.dir n ts) < 2 ^ 32) :
    ∃ index files size, save unz zip compressed g1 dos root = .ok (diskHeader compressed g1 index files dos size ++
      encTree st (.dir n ts) 0 (296 + 80 * below_ (.dir n ts)) ++ treeData st (.dir n ts)) := by
  generalize hB : below_ (.dir n ts) = b at *
  have hcount := count_view root _ hv
  rw [hB] at hcount
  have hH : (BitVec.ofNat 32 headerSize + (BitVec.ofNat 32 (count root) - 1) * 80).toNat = 296 + 80 * b := by
    have h1 : (BitVec.ofNat 32 (count root) - 1) = BitVec.ofNat 32 b := by
      rw [hcount, Nat.add_comm, BitVec.ofNat_add]
      exact BitVec.add_sub_cancel _ _
    rw [h1]
    simp only [headerSize, BitVec.toNat_add, BitVec.toNat_mul, BitVec.toNat_ofNat, show (80 : BitVec 32).toNat = 80 from rfl]
    omega
  obtain ⟨s, h1, h2, h3, h4⟩ := writeNode_eq st unz zip compressed P hst (296 + 80 * b) root n ts hv hP [] []
    ⟨Ws.empty, ⟨[], 296 + 80 * b⟩, [], 0, 0⟩ 0 rfl ⟨by simp, .inr ⟨rfl, rfl⟩⟩ rfl
  refine ⟨s.index, s.files, BitVec.ofNat 32 (s.out.pos + s.cat.data.length), ?_⟩
  have hw : Ws.empty.seek (((296 + 80 * b : Nat)) : Int) .beg = ⟨[], 296 + 80 * b⟩ := by
    simp only [Ws.seek, Rd.seekTarget, Ws.empty, Int.toNat_natCast]
  unfold save
  simp only [hH, hw, h1]
  simp only [List.nil_append, List.length_nil, Nat.add_zero] at h2 h3
  have he := emits_header compressed g1 s.index s.files dos (BitVec.ofNat 32 (s.out.pos + s.cat.data.length))
  have he' := he (s.out.seek 0 .beg) (by simp [Ws.seek, Rd.seekTarget])
  simp only at he'
  rw [he']
  have hcl : s.cat.data.length = 80 * b := by rw [h2]; simp only [encTree_length, hB]
  have hcd : s.cat.data = encTree st (.dir n ts) 0 (296 + 80 * b) := by rw [h2]
  have hl := diskHeader_length compressed g1 s.index s.files dos (BitVec.ofNat 32 (s.out.pos + s.cat.data.length))
  generalize diskHeader compressed g1 s.index s.files dos (BitVec.ofNat 32 (s.out.pos + s.cat.data.length)) = hd at *
  rw [← hcd]
  generalize s.cat.data = cat at *
  generalize treeData st (.dir n ts) = D at *
  congr 1
  simp only [Ws.write, Ws.seek, Rd.seekTarget, headerSize]
  obtain ⟨-, hd2⟩ := h3
  have e3 : ((296 : Nat) : Int).toNat = hd.length := hl.symm
  rw [e3, show (Int.toNat 0) = 0 from rfl]
  rcases hd2 with hd2 | ⟨hd2, rfl⟩
  · have e0 : splice (List.replicate (296 + 80 * b) 0 ++ D) 0 hd = hd ++ (List.replicate (80 * b) 0 ++ D) := by
      rw [splice_le _ _ _ (by simp)]
      simp only [List.take_zero, List.nil_append, Nat.zero_add, hl]
      rw [List.drop_append]; simp
    rw [hd2, e0, splice_le _ _ _ (by simp), List.take_left, ← List.drop_drop, List.drop_left, hcl, List.drop_append]
    simp
  · have e0 : splice [] 0 hd = hd := by simp [splice]
    rw [hd2, e0, splice_end, List.append_nil]

end Verif.Vfs
