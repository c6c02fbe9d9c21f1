import Verif.Lemmas.BehindArchive

/-!
# C115: reading from the middle of a stream

A resource that is stored behind other bytes of the same stream is loaded like one that starts the stream.
-/

namespace Verif.Props

open Verif.Spec

private theorem relocates {α} {pre : Bytes} {F : Bytes → Prop} {p : Rd α} (h : Sk ⟨pre, F, 0⟩ p) : Relocates pre F p := by
  rintro ⟨data, pos⟩ hF hp
  rcases h data pos hF (Nat.zero_le _) hp with ⟨a, b, pos', e1, e2, hr, _, _⟩ | ⟨e, e1, e2⟩
  · subst hr
    rw [e1]
    exact e2
  · rw [e1]
    exact e2

variable (pre : Bytes)

theorem c115_texture (t : Tex.Texture) : Relocates pre AnyFile t.load := relocates (Tex.Texture.sk t)

theorem c115_font : Relocates pre AnyFile Font.load := relocates Font.sk

theorem c115_hierarchy (h : Hierarchy) : Relocates pre AnyFile h.load := relocates (Hierarchy.sk h)

theorem c115_animation (o : SampleOps) (m : Animation) : Relocates pre AnyFile (Animation.load o m) := relocates (Animation.sk o m)

theorem c115_tree (g1 : Bool) (b : Bsp) : Relocates pre AnyFile (Bsp.load g1 b) := relocates (Bsp.sk g1 b)

theorem c115_compiled_modelscript (s : Mds.Script) : Relocates pre AnyFile (Mds.loadBinary s) := relocates (Mds.sk_binary s)

/-- Model scripts of at least two bytes whose first two bytes are the type of a chunk. -/
theorem c115_modelscript_partial (s : Mds.Script) (data : Bytes) (pos : Nat) (h : pos + 2 ≤ data.length)
    (hb : ∀ t u, Rd.u16 ⟨data, pos⟩ = .ok (t, u) → 0xF000 ≤ t.toNat ∨ t = 0xD000) :
    Mds.load s (behind pre ⟨data, pos⟩) = match Mds.load s ⟨data, pos⟩ with
      | .ok (a, t) => .ok (a, behind pre t)
      | .error e => .error e := by
  have key : ShAt ⟨pre, AnyFile, 0⟩ Eq (Mds.load s) (Mds.load s) data pos := by
    unfold Mds.load
    refine ShAt.bind (Sk.u16 data pos trivial (Nat.zero_le _) (by omega)) fun v _ pos1 hr e1 _ l1 => ?_
    subst hr
    have ht := hb _ _ e1
    obtain ⟨_, h1⟩ := Rd.word_ok 16 2 data pos (by omega)
    have e1 : Rd.word 16 2 _ = _ := e1
    rw [h1] at e1
    cases e1
    refine ShAt.bind (Sk.seekBack (n := 2) (by dsimp only; omega) l1) fun _ _ pos2 _ _ m1 m2 => ?_
    rw [if_pos ht]
    exact Mds.sk_binary s data pos2 trivial m1 m2
  rcases key with ⟨a, b, pos', e1, e2, hr, _, _⟩ | ⟨e, e1, e2⟩
  · subst hr
    rw [e1]
    exact e2
  · rw [e1]
    exact e2

/-- An empty model script is an error, unless it lies behind other bytes: the attempt to go back two bytes then leaves the script, and a
quotation mark in front of it is taken for the start of a text that never ends. -/
theorem c115_modelscript_violation : ¬ ∀ s pre, Relocates pre AnyFile (Mds.load s) := by
  intro h
  have h2 : Mds.load {} ⟨[], 0⟩ = .error (.throw .parser) := by decide +kernel
  have h3 : Mds.load {} (behind b!"\n\"" ⟨[], 0⟩) = .error .hang := by decide +kernel
  have h1 := h {} b!"\n\"" ⟨[], 0⟩ trivial (Nat.zero_le _)
  rw [h2, h3] at h1
  cases h1

theorem c115_script (sc : Daedalus.Script) : Relocates pre AnyFile sc.load := relocates (Daedalus.sk_load sc pre)

/-- Meshes with their materials and light maps. -/
theorem c115_mesh_partial (wide : Bool) (m : WholeMesh) : Relocates pre NoBinsafe (WholeMesh.load wide m) :=
  relocates (WholeMesh.sk (fun _ h => h) wide m)

/-- What is shown about the formats that hold meshes of several resolutions. -/
def SmallFile (pre data : Bytes) : Prop := Short pre data ∧ NoBinsafe data

private theorem mats (n : Nat) : Sk ⟨pre, SmallFile pre, 0⟩ (Obj.Material.loadParts n) := Obj.Material.sk_parts (fun _ (h : SmallFile pre _) => h.2) n

theorem c115_mrm_partial (m : Mrm Obj.Material) : Relocates pre (SmallFile pre) (Mrm.load Obj.Material.loadParts m) :=
  relocates (Mrm.sk (fun _ (h : SmallFile pre _) => h.1) (mats pre) m)

theorem c115_softskin_partial (m : SoftSkin Obj.Material) : Relocates pre (SmallFile pre) (SoftSkin.load Obj.Material.loadParts m) :=
  relocates (SoftSkin.sk (fun _ (h : SmallFile pre _) => h.1) (mats pre) m)

theorem c115_morph_partial (m : MorphMesh Obj.Material) : Relocates pre (SmallFile pre) (MorphMesh.load Obj.Material.loadParts m) :=
  relocates (MorphMesh.sk (fun _ (h : SmallFile pre _) => h.1) (mats pre) m)

theorem c115_modelmesh_partial (m : ModelMesh Obj.Material) : Relocates pre (SmallFile pre) (ModelMesh.load Obj.Material.loadParts m) :=
  relocates (ModelMesh.sk (fun _ (h : SmallFile pre _) => h.1) (mats pre) m)

theorem c115_model_partial (m : GModel Obj.Material) : Relocates pre (SmallFile pre) (GModel.load Obj.Material.loadParts m) :=
  relocates (GModel.sk (fun _ (h : SmallFile pre _) => h.1) (mats pre) m)

open Ar in
private theorem graph {data : Bytes} {pos : Nat} {σ : Type} {S : σ → σ → Prop} {x y : Except Fail (Option Nat × σ × GRd)} (h : XG S x y)
    (rs : σ → Rs) (hS : ∀ s t, S s t → RsRel ⟨pre, NoBinsafe, 0⟩ data (rs s) (rs t)) (p : Rd (Option Nat × GRd))
    (h1 : p ⟨data, pos⟩ = x.map fun x => ((x.1, x.2.2), rs x.2.1))
    (h2 : p ⟨pre ++ data, pre.length + pos⟩ = y.map fun x => ((x.1, x.2.2), rs x.2.1)) :
    ShAt ⟨pre, NoBinsafe, 0⟩ Eq p p data pos := by
  rcases h with ⟨a, s, t, g, rfl, rfl, hs⟩ | ⟨e, rfl, rfl⟩
  · obtain ⟨pos', e1, e2, m1, m2⟩ := hS s t hs
    refine .inl ⟨(a, g), (a, g), pos', ?_, ?_, rfl, m1, m2⟩
    · rw [h1, ← e1]; rfl
    · rw [h2, ← e2]; rfl
  · exact .inr ⟨e, h1, h2⟩

open Ar in
/-- ASCII and BINARY archives: the first object and everything it refers to, for all classes. -/
theorem c115_archive_partial (W : Schema) (fuel : Nat) : Relocates pre NoBinsafe (readFirst W fuel) := by
  refine relocates ?_
  unfold readFirst
  refine (sk_open fun _ h => h).bind fun o => ?_
  intro data pos hF l1 l2
  have hr : RsRel ⟨pre, NoBinsafe, 0⟩ data ⟨data, pos⟩ ⟨pre ++ data, pre.length + pos⟩ := ⟨pos, rfl, rfl, l1, l2⟩
  cases o.header.format with
  | ascii => exact graph pre ((Asc.twin hF).readPtr W fuel _ _ ⟨[], []⟩ hr) id (fun _ _ h => h) _ rfl rfl
  | binsafe => exact graph pre ((Bs.twin hF).readPtr W fuel _ _ ⟨[], []⟩ hr) id (fun _ _ h => h) _ rfl rfl
  | binary =>
    exact graph pre ((Bin.twin hF).readPtr W fuel ⟨⟨data, pos⟩, []⟩ ⟨⟨pre ++ data, pre.length + pos⟩, []⟩ ⟨[], []⟩ ⟨hr, .nil⟩) Bin.Rr.rs
      (fun _ _ h => h.1) _ rfl rfl

/-- A BINSAFE archive without objects whose table holds one name. -/
def oneName : Bytes :=
  b!"ZenGin Archive\nver 1\nzCArchiverBinSafe\nBIN_SAFE\nsaveGame 0\nEND\n" ++
    [2, 0, 0, 0, 0, 0, 0, 0, 75, 0, 0, 0, 1, 0, 0, 0, 2, 0, 0, 0, 0, 0, 0, 0, 104, 105]

/-- The header of a BINSAFE archive holds the place of the table of names in the stream, not in the archive: behind eight other bytes an
archive has no names. -/
theorem c115_binsafe_violation : ¬ ∀ pre, Relocates pre AnyFile Ar.openArchive := by
  intro h
  have h1 := h (List.replicate 8 0) ⟨oneName, 0⟩ trivial (Nat.zero_le _)
  have h2 : (Ar.openArchive ⟨oneName, 0⟩).map (fun x => x.1.table) = .ok [(b!"hi", 0)] := by decide +kernel
  have h3 : (Ar.openArchive (behind (List.replicate 8 0) ⟨oneName, 0⟩)).map (fun x => x.1.table) = .ok [] := by decide +kernel
  rw [h1] at h3
  cases h4 : Ar.openArchive ⟨oneName, 0⟩ with
  | error e => rw [h4] at h2; cases h2
  | ok x =>
    rw [h4] at h2 h3
    have h2 : Except.ok x.1.table = Except.ok _ := h2
    have h3 : Except.ok x.1.table = Except.ok _ := h3
    rw [h2] at h3
    cases h3

/-! ## The hypotheses are met -/

/-- A BINARY archive with one object without content. -/
def oneObject : Bytes :=
  b!"ZenGin Archive\nver 1\nzCArchiverBinary\nBINARY\nsaveGame 0\nEND\nobjects 1\nEND\n\n" ++
    [20, 0, 0, 0, 0, 0, 0, 0, 0, 0, 37, 0] ++ b!"zCCSLib\x00"

private theorem oneObject_plain : NoBinsafe oneObject := by
  refine ⟨by decide, ?_⟩
  refine (?_ : ¬ _ <:+: _)
  decide +kernel

example : NoBinsafe oneObject := oneObject_plain

example : SmallFile (List.replicate 100 0) oneObject := ⟨by unfold Short; decide, oneObject_plain⟩

example : (readFirst (fun _ _ => none) 2 ⟨oneObject, 0⟩).map (fun x => x.1.1) = .ok (some 0) := by decide +kernel

/-- Behind other bytes, the same object. -/
example : (readFirst (fun _ _ => none) 2 (behind b!"ZenGin" ⟨oneObject, 0⟩)).map (fun x => (x.1.1, x.2.pos)) = .ok (some 0, 6 + oneObject.length) := by
  rw [c115_archive_partial b!"ZenGin" (fun _ _ => none) 2 ⟨oneObject, 0⟩ oneObject_plain (Nat.zero_le _)]
  decide +kernel

example : (0 : Nat) + 2 ≤ [0x00, 0xF0, 0, 0, 0, 0].length ∧
    ∀ t u, Rd.u16 ⟨[0x00, 0xF0, 0, 0, 0, 0], 0⟩ = .ok (t, u) → 0xF000 ≤ t.toNat ∨ t = 0xD000 := by
  refine ⟨by decide, fun t u h => ?_⟩
  have : Rd.u16 ⟨[0x00, 0xF0, 0, 0, 0, 0], 0⟩ = .ok (0xF000, ⟨[0x00, 0xF0, 0, 0, 0, 0], 2⟩) := by decide +kernel
  rw [this] at h
  cases h
  decide

end Verif.Props
