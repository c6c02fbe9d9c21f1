import Verif.Lemmas.OpenTame
import Verif.Lemmas.MeshTame
import Verif.Model.ObjRead
import Verif.Props.Meshes

/-!
# Damaged archives (C99) and meshes (C86) do no harm

Reading an object from any bytes ends with an object, nothing, or an exception, unless one of a few words is in the file. Each word stands
for a part of the code that does not check what it has read.
-/

namespace Verif.Props

open Verif.Obj Verif.Ar

/-- A result or an exception; what is left of the file is a part of it. -/
def ReadsWell (data : Bytes) : Except Fail (Option Nat × Rs × Made) → Prop
  | .ok (_, s, _) => s.data = data ∧ s.pos ≤ data.length
  | .error (.throw _) => True
  | .error _ => False

/-- The word is nowhere in the file. -/
def Without (data w : Bytes) : Prop := ¬ w <:+: data

private theorem ascii_any {data : Bytes} (hl : data.length < 2 ^ 32) (hh : Spec.Harmless data) (c : Ctx) (env : Env Nat) (fuel : Nat) (s : Rs) (g : Made)
    (hs : s.data = data ∧ s.pos ≤ data.length) (hf : data.length < fuel) :
    (∃ p s' g', readAny Asc.reader c env fuel s g = .ok (p, s', g') ∧ s'.data = data ∧ s'.pos ≤ data.length) ∨
      ∃ e, readAny Asc.reader c env fuel s g = .error e ∧ Asc.Wrong data e := by
  rcases (Asc.tame data hl).readAny c env (harmless_names hh) fuel () s g hs (by have := hs.2; omega) with ⟨p, s', g', e, h, _⟩ | h
  · exact .inl ⟨p, s', g', e, h⟩
  · exact .inr h

private theorem binsafe_any {data : Bytes} (hl : data.length < 2 ^ 32) (hh : Spec.Harmless data) (c : Ctx) (env : Env Nat) (fuel : Nat) (s : Rs)
    (g : Made) (hs : s.data = data ∧ s.pos ≤ data.length) (hf : data.length < fuel) : ReadsWell data (readAny Bs.reader c env fuel s g) := by
  rcases (Bs.tame data hl).readAny c env (harmless_names hh) fuel () s g hs (by have := hs.2; omega) with
    ⟨p, s', g', e, h, _⟩ | ⟨e, he, x, rfl⟩
  · rw [e]; exact h
  · rw [he]; trivial

/-- **C99**, BINARY and BINSAFE, part — an object is read from any place of any file of less than 4 GiB. Missing: files with one of the
names of `Spec.perils` in them, for which the claim is false (`c99_block_violation`, `c99_cutscene_violation`, `c99_npc_violation`,
`c99_light_violation`) or that belong to other properties (way nets and
worlds). -/
theorem c99_binsafe_partial (data : Bytes) (hl : data.length < 2 ^ 32) (hh : Spec.Harmless data) (c : Ctx) (env : Env Nat) (g : Made) (pos : Nat)
    (hp : pos ≤ data.length) (fuel : Nat) (hf : data.length < fuel) : ReadsWell data (readAny Bs.reader c env fuel ⟨data, pos⟩ g) :=
  binsafe_any hl hh c env fuel _ g ⟨rfl, hp⟩ hf

@[inherit_doc c99_binsafe_partial]
theorem c99_binary_partial (data : Bytes) (hl : data.length < 2 ^ 32) (hh : Spec.Harmless data) (c : Ctx) (env : Env Nat) (g : Made) (pos : Nat)
    (hp : pos ≤ data.length) (fuel : Nat) (hf : data.length < fuel) :
    ReadsWell data ((readAny Bin.reader c env fuel ⟨⟨data, pos⟩, []⟩ g).map fun x => (x.1, x.2.1.rs, x.2.2)) := by
  rcases (Bin.tame data hl).readAny c env (harmless_names hh) fuel [] ⟨⟨data, pos⟩, []⟩ g (show Bin.In data [] _ from
    ⟨rfl, hp, List.suffix_refl _, fun _ => rfl⟩) (by dsimp only; omega) with ⟨p, s', g', e, ⟨h1, h2, _⟩, _⟩ | ⟨e, he, x, rfl⟩
  · rw [e]
    exact ⟨h1, h2⟩
  · rw [he]
    trivial

/-- **C99**, ASCII, part — the same for ASCII, but for two defects: an object that does not end makes the search for its end go on forever,
and a colour of fewer than four numbers is made of variables without a value. -/
theorem c99_ascii_partial (data : Bytes) (hl : data.length < 2 ^ 32) (hh : Spec.Harmless data) (c : Ctx) (env : Env Nat) (g : Made) (pos : Nat)
    (hp : pos ≤ data.length) (fuel : Nat) (hf : data.length < fuel) :
    ReadsWell data (readAny Asc.reader c env fuel ⟨data, pos⟩ g) ∨ readAny Asc.reader c env fuel ⟨data, pos⟩ g = .error .hang ∨
      readAny Asc.reader c env fuel ⟨data, pos⟩ g = .error .ub ∧ b!"color" <:+: data := by
  rcases ascii_any hl hh c env fuel ⟨data, pos⟩ g ⟨rfl, hp⟩ hf with ⟨p, s', g', e, h⟩ | ⟨e, he, ⟨x, rfl⟩ | rfl | ⟨rfl, hc⟩⟩
  · left
    rw [e]
    exact h
  · left
    rw [he]
    trivial
  · exact .inr (.inl he)
  · exact .inr (.inr ⟨he, hc⟩)

/-- **C99**, opening, part — `ReadArchive::from` gets an archive from any bytes or throws. Missing: BINSAFE archives
(`c99_table_violation`). -/
theorem c99_open_partial (data : Bytes) (hl : data.length < 2 ^ 32) (hb : Without data b!"BIN_SAFE") (pos : Nat) (hp : pos ≤ data.length) :
    match openArchive ⟨data, pos⟩ with
    | .ok (_, s) => s.data = data ∧ pos ≤ s.pos ∧ s.pos ≤ data.length
    | .error (.throw _) => True
    | .error _ => False := by
  rcases openArchive_runs hl pos hp with ⟨a, p', e, b, l, _⟩ | ⟨e, he, ⟨x, rfl⟩ | ⟨_, h⟩⟩
  · rw [e]
    exact ⟨rfl, b, l⟩
  · rw [he]
    trivial
  · exact absurd h hb

/-- **C99**, whole files, part — any bytes without the words are opened and read without harm: `ReadArchive::from` and `read_object`. -/
theorem c99_file_partial (data : Bytes) (hl : data.length < 2 ^ 32) (hh : Spec.Harmless data) (hb : Without data b!"BIN_SAFE")
    (ha : Without data b!"ASCII") (game : Game) (env : Env Nat) (fuel : Nat) (hf : data.length < fuel) :
    ReadsWell data (readFirst game env fuel data) := by
  unfold readFirst
  rcases openArchive_runs hl 0 (Nat.zero_le _) with ⟨o, p', e, _, l, hfmt⟩ | ⟨e, he, ⟨x, rfl⟩ | ⟨_, h⟩⟩
  · rw [e]
    dsimp only
    cases ho : o.header.format with
    | ascii =>
      rw [ho] at hfmt
      exact absurd hfmt ha
    | binsafe =>
      rw [ho] at hfmt
      exact absurd hfmt hb
    | binary => exact c99_binary_partial data hl hh _ env _ p' l fuel hf
  · rw [he]
    trivial
  · exact absurd h hb

/-! ## Files for which the claim is false -/

/-- Nothing is asked. -/
def noAnswers : Env Nat := ⟨fun _ _ => false, fun _ => false, fun _ => none, fun _ => false, 0⟩

/-- The header of an archive. -/
def headOf (fmt : Bytes) : Bytes := b!"ZenGin Archive\nver 1\nzCArchiverGeneric\n" ++ fmt ++ b!"\nsaveGame 0\nEND\n"

/-- A BINARY archive with one object. -/
def binaryWith (cls body : Bytes) : Bytes :=
  headOf b!"BINARY" ++ b!"objects 1\nEND\n" ++ encW 4 (BitVec.ofNat 32 (14 + cls.length + body.length)) ++ [0, 0, 0, 0, 0, 0] ++ b!"%" ++ [0] ++ cls ++ [0] ++ body

/-- A block of a cutscene whose file ends where its content should be. -/
def cutBlock : Bytes := binaryWith b!"zCCSBlock" ([0] ++ encW 4 (1 : BitVec 32) ++ encW 4 (0 : BitVec 32))

/-- **C99** is false of cutscene blocks: a block without content makes `load` use a null pointer. -/
theorem c99_block_violation : readFirst .g2 noAnswers 1000 cutBlock = .error .ub := by decide +kernel

/-- **C99** is false of cutscenes and of cutscene contexts, which are read as blocks first. -/
theorem c99_cutscene_violation : ∀ cls ∈ [b!"zCCutscene:zCCSBlock", b!"zCCSCutsceneContext:zCCutscene:zCCSBlock"],
    readFirst .g2 noAnswers 1000 (binaryWith cls ([0] ++ encW 4 (1 : BitVec 32) ++ encW 4 (0 : BitVec 32))) = .error .ub := by decide +kernel

/-- The null object, as it is written. -/
def noObject : Bytes := [13, 0, 0, 0, 0, 0, 0, 0, 0, 0, 0, 37, 0]

/-- A virtual object of zeros, without a visual and without an AI. -/
def plainVob : Bytes := List.replicate 99 0 ++ noObject ++ noObject

/-- Somebody with one thing in their pockets, which is the null object. -/
def emptyPockets : Bytes := binaryWith b!"oCNpc:zCVob" (plainVob ++ List.replicate 558 0 ++ noObject ++ noObject ++ [0, 0] ++ encW 4 (1 : BitVec 32))

/-- **C99** is false of people: `load` asks the null object in the pockets for its flags. -/
theorem c99_npc_violation : readFirst .g2 noAnswers 1000 emptyPockets = .error .ub := by decide +kernel

/-- A light with the text `x` for its colours. -/
def darkLight : Bytes := binaryWith b!"zCVobLight:zCVob" (plainVob ++ List.replicate 24 0 ++ [120, 0])

/-- **C99** is false of lights: a colour that is not a number has components that were never set. -/
theorem c99_light_violation : readFirst .g2 noAnswers 1000 darkLight = .error .ub := by decide +kernel

/-- A BINSAFE archive whose table has an entry with the index 5 in a table of one. -/
def badTable : Bytes :=
  let h := headOf b!"BIN_SAFE"
  h ++ encW 4 (2 : BitVec 32) ++ encW 4 (1 : BitVec 32) ++ encW 4 (BitVec.ofNat 32 (h.length + 12)) ++ encW 4 (1 : BitVec 32) ++ encW 2 (0 : BitVec 16) ++ encW 2 (5 : BitVec 16) ++ encW 4 (0 : BitVec 32)

/-- **C99** is false of BINSAFE archives: an index of the table in the file is not checked. -/
theorem c99_table_violation : openArchive ⟨badTable, 0⟩ = .error .ub := by decide +kernel

/-- An ASCII archive. -/
def asciiWith (body : Bytes) : Bytes := headOf b!"ASCII" ++ b!"objects 1\nEND\n\n" ++ body

/-- **C99** is false of ASCII archives: the end of an object that does not end is searched forever. -/
theorem c99_hang_violation : readFirst .g2 noAnswers 1000 (asciiWith b!"[% what 0 0]\n") = .error .hang := by decide +kernel

/-- A material with a colour of two numbers. -/
def badColor : Bytes := asciiWith b!"[% zCMaterial 0 0]\n\tname=string:\n\tmaterialGroup=enum:0\n\tcolor=color:1 2\n[]\n"

/-- **C99** is false of ASCII archives: a colour that is not complete has components that were never set. -/
theorem c99_color_violation : readFirst .g2 noAnswers 1000 badColor = .error .ub := by decide +kernel

/-! ## The hypotheses are met -/

/-- A damaged archive: the object says it is longer than the file, and there is half of a virtual object in it. -/
def halfObject : Bytes := binaryWith b!"zCVobStair:zCVob" [1, 2, 3]

instance (data : Bytes) : Decidable (Spec.Harmless data) := by unfold Spec.Harmless; infer_instance
instance (data w : Bytes) : Decidable (Without data w) := by unfold Without; infer_instance

example : halfObject.length < 2 ^ 32 ∧ Spec.Harmless halfObject ∧ Without halfObject b!"BIN_SAFE" ∧ Without halfObject b!"ASCII" := by
  decide +kernel

/-- Whether an archive was opened and is BINARY. -/
def isBinary : Except Fail (Opened × Rs) → Bool
  | .ok (o, _) => o.header.format = .binary
  | .error _ => false

example : isBinary (openArchive ⟨halfObject, 0⟩) = true := by decide +kernel

-- An ASCII archive without the names, in which something goes wrong all the same.
example : badColor.length < 2 ^ 32 ∧ Spec.Harmless badColor ∧ badColor.length < 1000 := by decide +kernel

-- A BINSAFE archive without the names.
example : badTable.length < 2 ^ 32 ∧ Spec.Harmless badTable ∧ badTable.length < 1000 := by decide +kernel

/-! ## Meshes with their materials -/

private theorem endsWell_plain {α} {p : Rd α} (h : Fwd plainFiles p) (data : Bytes) (hl : data.length < 2 ^ 32) (hb : Without data b!"BIN_SAFE")
    (ha : Without data b!"ASCII") (pos : Nat) (hp : pos ≤ data.length) : EndsWell (p ⟨data, pos⟩) data.length := by
  rcases h data pos ⟨hl, hb, ha⟩ hp with ⟨a, pos', e, _, l⟩ | ⟨_, e, he⟩
  · rw [e]
    exact l
  · rw [he]
    trivial

/-- **C86**, textures — any file of less than 4 GiB. -/
theorem c86_texture (old : Tex.Texture) (data : Bytes) (hl : data.length < 2 ^ 32) (pos : Nat) (hp : pos ≤ data.length) :
    EndsWell (old.load ⟨data, pos⟩) data.length := by
  rcases Tex.Texture.fwd_load old data pos ⟨hl, trivial⟩ hp with ⟨a, pos', e, _, l⟩ | ⟨_, e, he⟩
  · rw [e]
    exact l
  · rw [he]
    trivial

/-- **C86**, multi resolution meshes with the archive of their materials, part. Missing: files with the name of another format of archives
than BINARY, for which the claim is false (`c86_materials_violation`). -/
theorem c86_mrm_file_partial (old : Mrm Material) (data : Bytes) (hl : data.length < 2 ^ 32) (hb : Without data b!"BIN_SAFE")
    (ha : Without data b!"ASCII") (pos : Nat) (hp : pos ≤ data.length) : EndsWell (Mrm.load Material.loadParts old ⟨data, pos⟩) data.length :=
  endsWell_plain (Mrm.fwd_load loadParts_fwd old) data hl hb ha pos hp

/-- **C86**, soft skin meshes with the archive of their materials, part; see `c86_mrm_file_partial`. -/
theorem c86_softskin_file_partial (old : SoftSkin Material) (data : Bytes) (hl : data.length < 2 ^ 32) (hb : Without data b!"BIN_SAFE")
    (ha : Without data b!"ASCII") (pos : Nat) (hp : pos ≤ data.length) : EndsWell (SoftSkin.load Material.loadParts old ⟨data, pos⟩) data.length :=
  endsWell_plain (SoftSkin.fwd_load loadParts_fwd old) data hl hb ha pos hp

/-- **C86**, morph meshes with the archive of their materials, part; see `c86_mrm_file_partial`. -/
theorem c86_morph_file_partial (old : MorphMesh Material) (data : Bytes) (hl : data.length < 2 ^ 32) (hb : Without data b!"BIN_SAFE")
    (ha : Without data b!"ASCII") (pos : Nat) (hp : pos ≤ data.length) : EndsWell (MorphMesh.load Material.loadParts old ⟨data, pos⟩) data.length :=
  endsWell_plain (MorphMesh.fwd_load loadParts_fwd old) data hl hb ha pos hp

/-- **C86**, meshes of worlds with materials and light maps, part. Missing: files with the name of another format of archives than BINARY
or with the two bytes of the type of the chunk of shared light maps anywhere (`c86_lightmap_violation`). -/
theorem c86_mesh_partial (wide : Bool) (old : WholeMesh) (data : Bytes) (hl : data.length < 2 ^ 32) (hb : Without data b!"BIN_SAFE")
    (ha : Without data b!"ASCII") (hc : Without data [0x26, 0xB0]) (pos : Nat) (hp : pos ≤ data.length) :
    EndsWell (WholeMesh.load wide old ⟨data, pos⟩) data.length := by
  rcases WholeMesh.load_runs hl wide old pos hp with ⟨a, p', e, _, l, _⟩ | ⟨e, he, (⟨x, rfl⟩ | ⟨_, h⟩ | ⟨h, _⟩) | ⟨_, h⟩⟩
  · rw [e]
    exact l
  · rw [he]
    trivial
  · exact absurd h hb
  · exact absurd h ha
  · exact absurd h hc

/-- How reading has failed. -/
def failure {α} : Except Fail α → Option Fail
  | .ok _ => none
  | .error e => some e

/-- A mesh without anything. -/
def blankMesh : WholeMesh :=
  { core := { date := ⟨0, 0, 0, 0, 0, 0⟩, name := [], bbox := ⟨⟨0, 0, 0⟩, ⟨0, 0, 0⟩⟩, obb := ⟨⟨0, 0, 0⟩, ⟨0, 0, 0⟩, ⟨0, 0, 0⟩, ⟨0, 0, 0⟩, ⟨0, 0, 0⟩, []⟩,
              vertices := [], features := [], geometry := [], vertexIndices := [], featureIndices := [], polygons := ⟨[], [], [], [], []⟩ } }

/-- A mesh with one light map and no images. -/
def badLightMap : Bytes :=
  [0x26, 0xB0] ++ encW 4 (48 : BitVec 32) ++ encW 4 (0 : BitVec 32) ++ encW 4 (1 : BitVec 32) ++ List.replicate 36 0 ++ encW 4 (0 : BitVec 32)

/-- **C86** is false of meshes: the index of the image of a light map is not checked. -/
theorem c86_lightmap_violation : failure (WholeMesh.load false blankMesh ⟨badLightMap, 0⟩) = some .ub := by decide +kernel

/-- **C86** is false of meshes: the archive of the materials may be a BINSAFE archive with a table that is not checked. -/
theorem c86_materials_violation : failure (Material.loadParts 0 ⟨badTable, 0⟩) = some .ub := by decide +kernel

/-- A mesh that ends in the middle of the archive of its materials. -/
def halfMesh : Bytes := [0x20, 0xB0] ++ encW 4 (1000 : BitVec 32) ++ headOf b!"BINARY" ++ b!"objects 1\nEND\n" ++ encW 4 (7 : BitVec 32) ++ b!"half a name"

example : halfMesh.length < 2 ^ 32 ∧ Without halfMesh b!"BIN_SAFE" ∧ Without halfMesh b!"ASCII" ∧ Without halfMesh [0x26, 0xB0] := by decide +kernel

-- It is found out.
example : failure (WholeMesh.load false blankMesh ⟨halfMesh, 0⟩) = some (.throw .parser) := by decide +kernel

end Verif.Props
