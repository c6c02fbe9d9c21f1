import Verif.Lemmas.Materials
import Verif.Props.Meshes

/-! # C87: the materials of meshes -/

namespace Verif.Props

open Verif.Ar Verif.Obj Spec

/-- C87, parts of a mesh: the materials that a `MultiResolutionMesh` writes for its parts are those it finds, and reading ends behind
the last one. If there are no parts, what follows must not look like the rest of the header. -/
theorem c87_parts_partial (g : Game) (e e' : Ar.Env) (he : ClockOk e e') (xs : List Material) (h : ∀ x ∈ xs, x.Plain)
    (hn : xs.length < 10 ^ 9) :
    ∃ bs, (∀ w : Ws, w.pos ≤ w.data.length → Material.saveParts g e e' xs w = .ok (w.write bs)) ∧
      (bs.length < 2 ^ 32 → ReadsIf (Material.loadParts xs.length) bs (xs.map (Material.kept g))
        fun post => xs = [] → post.head? ≠ some 10 ∧ post ≠ [0]) := by
  refine ⟨_, fun w hw => Material.saveArchive_ok g e e' he (fun w => w) [] (fun w hw => (Ws.write_nil w hw).symm) xs w hw, fun hl => ?_⟩
  have h1 := open_count .binary (by decide) 9 10 false e' (BitVec.ofNat 32 xs.length)
    (dec_length_le _ 9 (by decide) (by rw [BitVec.toNat_ofNat, Nat.mod_eq_of_lt (by omega)]; exact hn))
    (by rw [BitVec.toNat_ofNat, Nat.mod_eq_of_lt (by omega)]; omega) he.date he.user
  have h2 := Material.reads_body g xs h (by simp only [List.length_append, List.nil_append] at hl; omega)
  rw [List.nil_append]
  unfold Material.loadParts
  refine ReadsIf.bind h1 (h2.toIf _) ?_
  intro post hq
  cases xs with
  | nil =>
    obtain ⟨q1, q2⟩ := hq rfl
    refine ⟨?_, q2⟩
    intro c rest hc
    change [] ++ post = _ at hc
    rw [List.nil_append] at hc
    subst hc
    intro hm
    simp only [Fmt.ignored, List.mem_singleton] at hm
    subst hm
    exact q1 rfl
  | cons x xs =>
    obtain ⟨v, t, ht⟩ := Material.bodyBytes_cons g x xs
    rw [ht]
    have hname := (h x List.mem_cons_self).name
    constructor
    · intro c rest hc hm
      simp only [Fmt.ignored, List.mem_singleton] at hm
      subst hm
      cases hx : x.name with
      | nil => rw [hx] at hc; cases hc
      | cons a b =>
        rw [hx] at hc
        cases hc
        exact (hname 10 (by rw [hx]; simp)).2.2 rfl
    · intro hc
      have := congrArg List.length hc
      simp at this
      omega

/-- C87 for a mesh that has materials already: it has as many as the file afterwards, none of the old ones is left, and what a file of
Gothic 1 does not have of a material stays as it was in the one at its place. -/
theorem c87_mesh_reload_partial (g : Game) (e e' : Ar.Env) (he : ClockOk e e') (xs : List Material) (h : ∀ x ∈ xs, x.Plain)
    (hn : xs.length < 10 ^ 9) (h10 : xs.length % 256 ≠ 10) :
    ∃ bs, (∀ w : Ws, w.pos ≤ w.data.length → Material.saveCounted g e e' xs w = .ok (w.write bs)) ∧
      (bs.length < 2 ^ 32 → ∀ os, Reads (Material.loadCounted os) bs (Material.keptIn g os xs)) := by
  refine ⟨_, fun w hw => Material.saveArchive_ok g e e' he _ _ (Emits.u32 (BitVec.ofNat 32 xs.length)) xs w hw, fun hl os => ?_⟩
  have hnat : (BitVec.ofNat 32 xs.length).toNat = xs.length := by rw [BitVec.toNat_ofNat, Nat.mod_eq_of_lt (by omega)]
  have h1 := open_count .binary (by decide) 9 10 false e' (BitVec.ofNat 32 xs.length)
    (dec_length_le _ 9 (by decide) (by rw [hnat]; exact hn)) (by rw [hnat]; omega) he.date he.user
  have h2 := Material.reads_over g os xs h (by simp only [List.length_append] at hl; omega)
  have h3 : Reads (do let n ← Rd.u32; Material.loadIn .binary (Material.resize os n.toNat)) (encW 4 (BitVec.ofNat 32 xs.length) ++ Material.bodyBytes g xs)
      (Material.keptIn g os xs) := (Reads.u32 _).bind (by rw [hnat]; exact h2)
  unfold Material.loadCounted
  intro pre post
  refine ReadsIf.bind h1 (h3.toIf fun _ => True) ?_ pre post trivial
  intro post _
  constructor
  · intro c rest hc hm
    simp only [Fmt.ignored, List.mem_singleton] at hm
    subst hm
    simp only [encW, hnat, leBytes, List.cons_append, List.cons.injEq] at hc
    have := congrArg UInt8.toNat hc.1
    simp only [UInt8.toNat_ofNat'] at this
    have e10 : (10 : Byte).toNat = 10 := rfl
    omega
  · intro hc
    have := congrArg List.length hc
    simp at this
    omega

/-- C87, whole meshes: the materials that a `Mesh` writes are those it finds, and reading ends behind the last one. Missing: numbers
of materials whose lowest byte is 10. -/
theorem c87_mesh_partial (g : Game) (e e' : Ar.Env) (he : ClockOk e e') (xs : List Material) (h : ∀ x ∈ xs, x.Plain)
    (hn : xs.length < 10 ^ 9) (h10 : xs.length % 256 ≠ 10) :
    ∃ bs, (∀ w : Ws, w.pos ≤ w.data.length → Material.saveCounted g e e' xs w = .ok (w.write bs)) ∧
      (bs.length < 2 ^ 32 → Reads (Material.loadCounted []) bs (xs.map (Material.kept g))) := by
  obtain ⟨bs, h1, h2⟩ := c87_mesh_reload_partial g e e' he xs h hn h10
  refine ⟨bs, h1, fun hl => ?_⟩
  have := h2 hl []
  rwa [Material.keptIn_nil] at this

/-- With files of Gothic 2 nothing is left of the old materials. -/
theorem c87_reload_g2 (os xs : List Material) : Material.keptIn .g2 os xs = xs.map (Material.kept .g2) := Material.keptIn_g2 os xs

/-- There are as many as in the file. -/
theorem c87_reload_length (g : Game) (os xs : List Material) : (Material.keptIn g os xs).length = xs.length := Material.keptIn_length g os xs

/-- C87 fails: a mesh with ten materials does not get them back. The ten is taken for a line break behind the header of the archive, and
the number is read one byte too late. -/
theorem c87_ten_violation (g : Game) (e e' : Ar.Env) (he : ClockOk e e') (xs : List Material) (h : ∀ x ∈ xs, x.Plain)
    (hn : xs.length = 10) :
    ∃ bs, (∀ w : Ws, w.pos ≤ w.data.length → Material.saveCounted g e e' xs w = .ok (w.write bs)) ∧
      ∀ os pre post ys s, Material.loadCounted os ⟨pre ++ bs ++ post, pre.length⟩ = .ok (ys, s) → ys.length ≠ 10 := by
  refine ⟨_, fun w hw => Material.saveArchive_ok g e e' he _ _ (Emits.u32 (BitVec.ofNat 32 xs.length)) xs w hw, ?_⟩
  intro os pre post ys s hl
  cases xs with
  | nil => cases hn
  | cons x xs =>
    obtain ⟨v, t, ht⟩ := Material.bodyBytes_cons g x xs
    obtain ⟨b, u, hb⟩ : ∃ b u, Material.bodyBytes g (x :: xs) = b :: u := by
      rw [ht]
      cases x.name with
      | nil => exact ⟨_, _, rfl⟩
      | cons a n => exact ⟨_, _, rfl⟩
    obtain ⟨s', hr⟩ := Material.ten_reads g e' he.date he.user (x :: xs) hn b u hb os pre post
    rw [hr] at hl
    have := Material.loadIn_length _ _ _ _ _ hl
    rw [Material.resize_length] at this
    omega

/-- C87 fails: if the first of the ten has no name, the mesh has no materials at all. -/
theorem c87_ten_unnamed_violation (g : Game) (e e' : Ar.Env) (he : ClockOk e e') (x : Material) (xs : List Material) (hn : xs.length = 9)
    (hx : x.name = []) :
    ∃ bs, (∀ w : Ws, w.pos ≤ w.data.length → Material.saveCounted g e e' (x :: xs) w = .ok (w.write bs)) ∧
      ∀ os pre post, ∃ s, Material.loadCounted os ⟨pre ++ bs ++ post, pre.length⟩ = .ok ([], s) := by
  refine ⟨_, fun w hw => Material.saveArchive_ok g e e' he _ _ (Emits.u32 (BitVec.ofNat 32 (x :: xs).length)) (x :: xs) w hw, ?_⟩
  intro os pre post
  obtain ⟨v, t, ht⟩ := Material.bodyBytes_cons g x xs
  rw [hx] at ht
  obtain ⟨s', hr⟩ := Material.ten_reads g e' he.date he.user (x :: xs) (by rw [List.length_cons, hn]) 0 _ ht os pre post
  rw [show (0 : Byte).toNat * 2 ^ 24 = 0 by decide] at hr
  exact ⟨s', by rw [hr, Material.resize, List.take_zero, Nat.zero_sub]; rfl⟩

/-- C87, files of the games: an archive of any format with the entries of materials, in which `alphaFunc` is an enumeration, gives these
materials. -/
theorem c87_load {σ} {r : Reader σ} (M : Sim r) (g : Game) (xs : List Material) (h : ∀ x ∈ xs, x.Finite) (i : BitVec 32) (s : σ)
    (hs : M.R [Material.docOf g Material.alphaFunc i xs] s) :
    ∃ s', Material.loadMany r (List.replicate xs.length ({} : Material)) s = .ok (xs.map fun x => x.copy ⟨g, false, false⟩ x.alphaFunc, s') ∧ M.R [.nil] s' :=
  Material.loadMany_ok M g Material.alphaFunc xs i s h hs

/-- C87: an object of another class is rejected. -/
theorem c87_foreign {σ} {r : Reader σ} (M : Sim r) (o : Material) (n1 t n c : Bytes) (ver : BitVec 16) (ix : BitVec 32) (ch rest : Doc)
    (L : List Doc) (hc : c ≠ b!"zCMaterial") (s : σ) (hs : M.R (.val n1 (.string t) (.obj n c ver ix ch rest) :: L) s) :
    Material.loadFrom r o s = .error (.throw .parser) := by
  obtain ⟨s1, e1, h1⟩ := M.val _ _ _ _ _ hs
  obtain ⟨s2, e2, h2⟩ := M.obj _ _ _ _ _ _ _ _ h1
  unfold Material.loadFrom
  rw [show Val.kind (.string t) = .string from rfl] at e1
  rw [e1]
  dsimp only
  rw [e2]
  dsimp only
  rw [if_pos hc]

/-- C87, a whole file: a `MultiResolutionMesh` whose archive was written for the materials `xs` is loaded with these materials. -/
theorem c87_mrm (g : Game) (e e' : Ar.Env) (he : ClockOk e e') (xs : List Material) (h : ∀ x ∈ xs, x.Plain) (hne : xs ≠ [])
    (f : MrmFile Material) (hc : f.parts.length < 256) (hx : f.parts.map MrmPartFile.mat = xs.map (Material.kept g)) (w : Ws)
    (hw : Material.saveParts g e e' xs ⟨[], 0⟩ = .ok w) (hm : f.matBytes = w.data)
    (hf : ∀ mats, Reads (mats f.parts.length) f.matBytes (f.parts.map MrmPartFile.mat) → f.Ok mats) (hl : f.bytes.length < 2 ^ 32)
    (old : Mrm Material) (pre post : Bytes) :
    Mrm.load Material.loadParts old ⟨pre ++ mrmBytes f ++ post, pre.length⟩ =
        .ok (f.mesh old.alphaTest, ⟨pre ++ mrmBytes f ++ post, pre.length + (mrmBytes f).length⟩) ∧
      (f.mesh old.alphaTest).materials = xs.map (Material.kept g) := by
  have hlen : f.parts.length = xs.length := by simpa using congrArg List.length hx
  have hmb : f.matBytes.length ≤ f.bytes.length := by
    unfold MrmFile.bytes
    simp only [List.length_append]
    omega
  have hcount : xs.length < 10 ^ 9 := by omega
  obtain ⟨bs, h1, h2⟩ := c87_parts_partial g e e' he xs h hcount
  have h3 := h1 ⟨[], 0⟩ (by simp)
  rw [hw] at h3
  cases h3
  have hbs : f.matBytes = bs := by rw [hm]; simp [Ws.write, splice]
  have hok : f.Ok Material.loadParts := hf _ (by
    rw [hlen, hx, hbs]
    intro pre post
    exact h2 (by rw [← hbs]; omega) pre post (fun h => absurd h hne))
  exact ⟨c81_load Material.loadParts f hok hl old pre post, hx⟩

/-- Two materials and the clock. -/
def wood : Material := { name := b!"WOOD", texture := b!"WOOD.TGA", alphaFunc := 2, textureScale := ⟨0x43800000, 0x43000000⟩ }
def stone : Material := { name := b!"STONE", group := 2, texture := b!"STONE.TGA", waveMode := 1 }
def clock : Ar.Env := ⟨b!"15.1.2026 12:00:00", b!"Diego"⟩

/-- The hypotheses of the theorems hold for them. -/
theorem demo_plain : wood.Plain ∧ stone.Plain := by
  refine ⟨⟨?_, ?_, ?_, ?_, ?_⟩, ⟨?_, ?_, ?_, ?_, ?_⟩⟩ <;> first | decide | (unfold Material.Finite Obj.Finite; decide +kernel)

example : ClockOk clock clock := ⟨by decide, by decide, rfl⟩

/-- They come back from a mesh. -/
example : ((Material.saveCounted .g2 clock clock [wood, stone] ⟨[], 0⟩).map fun w =>
    (Material.loadCounted [] ⟨w.data, 0⟩).map fun x => x.1.map Material.name) = .ok (.ok [b!"WOOD", b!"STONE"]) := by decide +kernel

end Verif.Props
