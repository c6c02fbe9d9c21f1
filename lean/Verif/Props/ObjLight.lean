import Verif.Lemmas.ObjLightArchive
import Verif.Props.Objects

/-! # C79: lights and materials -/

namespace Verif.Props

open Verif.Ar Verif.Obj

/-- All answers about types are positive. -/
def env0 : Env Nat := ⟨fun _ _ => true, fun _ => true, fun _ => some 0, fun _ => false, 0⟩

section
variable {P : Type} {c : Ctx} {env : Env P} {φ : Nat → P}

/-! ### Materials -/

/-- C79, materials of Gothic 1: `load`, given what `save` has written, reads exactly that, and all members that Gothic 1 has come
back, if the two that are kept as text are finite: also these to the last bit. -/
theorem c79_material_g1 (x : Material) (hg : c.game = .g1) (h : x.Finite) (rest : List (Item P)) :
    ∃ y, (Material.load c {}).run env ((x.save c).map (Field.item φ) ++ rest) = .ok (y, rest) ∧
      y.name = x.name ∧ y.group = x.group ∧ y.color = x.color ∧ y.smoothAngle = x.smoothAngle ∧ y.texture = x.texture ∧
      y.textureScale = x.textureScale ∧ y.animFps = x.animFps ∧ y.animMapMode = x.animMapMode ∧ y.animMapDir = x.animMapDir ∧
      y.disableCollision = x.disableCollision ∧ y.disableLightmap = x.disableLightmap ∧ y.dontCollapse = x.dontCollapse ∧
      y.detailObject = x.detailObject ∧ y.mapping = x.mapping ∧ y.alphaFunc = 0 :=
  ⟨_, Material.loads hg h rest, by simp [Material.copy, Ctx.g2, hg]⟩

/-- The file that `save` writes to a BINARY archive for a material of Gothic 2 is the one it would write if `alpha_func` was an
enumeration, with the value 0 or 1. -/
theorem c79_material_binary (x : Material) (w : Bin.Wr) :
    Bin.calls w (flatCalls (x.save c)) =
      Bin.calls w (flatCalls (x.saveWith (fEnum b!"alphaFunc" (if x.alphaFunc = 0 then 0 else 1)) c)) := by
  obtain ⟨game, save, pack⟩ := c
  cases game with
  | g1 => rfl
  | g2 =>
    have e : ∀ w, Bin.call w (.val b!"alphaFunc" (.bool (x.alphaFunc ≠ 0))) =
        Bin.call w (.val b!"alphaFunc" (.enum (if x.alphaFunc = 0 then 0 else 1))) := by
      intro w
      by_cases h : x.alphaFunc = 0
      · simp only [h, ne_eq, not_true_eq_false, decide_false, if_true]
        rfl
      · simp only [h, ne_eq, not_false_eq_true, decide_true, if_false]
        rfl
    have split : ∀ a : Field, flatCalls (x.saveWith a ⟨.g2, save, pack⟩) =
        flatCalls ((x.saveWith a ⟨.g2, save, pack⟩).take 22) ++ (flatCalls [a] ++ flatCalls [fVec2 b!"defaultMapping" x.mapping]) := by
      intro a
      cases a <;> rfl
    have pre : ∀ a b : Field, (x.saveWith a ⟨.g2, save, pack⟩).take 22 = (x.saveWith b ⟨.g2, save, pack⟩).take 22 := fun a b => rfl
    unfold Material.save
    rw [split, split (fEnum _ _), pre _ (fEnum b!"alphaFunc" (if x.alphaFunc = 0 then 0 else 1))]
    simp only [Bin.calls, List.foldlM_append]
    congr 1
    funext w
    have e2 := e w
    simp only [flatCalls, List.flatMap_cons, List.flatMap_nil, List.append_nil, fBool, fEnum, List.foldlM_cons, List.foldlM_nil, e2]

/-- C79, materials of Gothic 2, part: saved to a BINARY archive and loaded again, a material is the same except for `alpha_func`,
which is 0 or 1. `load` has made exactly the calls that belong to those of `save`. Strings as in C10, `animMapMode` is a byte.
Missing: the other values of `alpha_func`, and the other formats; see the violations. -/
theorem c79_material_g2_binary_partial (x : Material) (hg : c.game = .g2) (h : x.Finite) (h1 : NoEol x.name) (h2 : NoEol x.texture)
    (h3 : NoEol x.detailObject) (h4 : x.animMapMode.toNat < 256) (S : Schema) (w : Bin.Wr) (hw : w.ws.pos ≤ w.ws.data.length)
    (post : Bytes) (tail : List Nat) :
    ∃ w', Bin.calls w (flatCalls (x.save c)) = some w' ∧
      (w'.ws.pos - w.ws.pos < 2 ^ 32 → ∃ N gs, ∀ f1 ≥ N, ∀ f2 ≥ N,
        (readFields Bin.reader (readPtr Bin.reader S f1) (Material.load c {}).want f2 [] ⟨⟨w'.ws.data ++ post, w.ws.pos⟩, tail⟩
          ⟨[], []⟩).map (·.1) = .ok gs ∧
        (Material.load c {}).run env0 (gs.map Got.item) =
          .ok ({ x with alphaFunc := if x.alphaFunc = 0 then 0 else 1 }, [])) := by
  rw [c79_material_binary]
  generalize ha : (if x.alphaFunc = 0 then 0 else 1 : BitVec 32) = a
  have hlt : a.toNat < 256 := by rw [← ha]; split <;> decide
  have hload : ∀ {P} (env : Env P) (φ : Nat → P), Loads env φ (Material.load c {}) (x.saveWith (fEnum b!"alphaFunc" a) c) _ :=
    fun env φ => Material.loadsWith a h
  have small : ∀ v : BitVec 8, (v.setWidth 32).toNat < 256 := by
    intro v
    have := v.isLt
    simp only [BitVec.toNat_setWidth]
    omega
  obtain ⟨game, save, pack⟩ := c
  cases hg
  have hflat : Flat (x.saveWith (fEnum b!"alphaFunc" a) ⟨.g2, save, pack⟩) := by
    intro f hf
    simp only [Material.saveWith, fIf, Ctx.g2, decide_true, if_true, List.mem_append, List.mem_cons, List.not_mem_nil, or_false] at hf
    rcases hf with (rfl|rfl|rfl|rfl|rfl|rfl|rfl|rfl|rfl|rfl|rfl|rfl|rfl)|(rfl|rfl|rfl|rfl|rfl|rfl|rfl|rfl|rfl|rfl)|rfl <;> exact ⟨_, _, rfl⟩
  have hvals : ∀ n v, Field.val n v ∈ x.saveWith (fEnum b!"alphaFunc" a) ⟨.g2, save, pack⟩ → Bin.OkVal v := by
    intro n v hf
    simp only [Material.saveWith, fIf, Ctx.g2, decide_true, if_true, List.mem_append, List.mem_cons, List.not_mem_nil, or_false] at hf
    rcases hf with (hf|hf|hf|hf|hf|hf|hf|hf|hf|hf|hf|hf|hf)|(hf|hf|hf|hf|hf|hf|hf|hf|hf|hf)|hf <;> cases hf <;>
      first
      | trivial
      | exact h1
      | exact h2
      | exact h3
      | exact h4
      | exact hlt
      | exact small _
      | exact vec2Text_noEol _
  obtain ⟨w', hw1, hw2⟩ := flat_binary _ hflat hvals S (Material.load ⟨.g2, save, pack⟩ {}).want
    (Loads.follows (env := ⟨fun _ _ => true, fun _ => true, fun _ => none, fun _ => false, ()⟩) (by simp) (hload _ _)) w hw post tail
  refine ⟨w', hw1, fun hs => ?_⟩
  obtain ⟨N, s', hN⟩ := hw2 hs
  refine ⟨N, _, fun f1 hf1 f2 hf2 => ⟨(hN f1 hf1 f2 hf2).1, ?_⟩⟩
  have := hload env0 id []
  rw [List.append_nil] at this
  rw [List.map_map, show Got.item ∘ Field.got id = Field.item id from by
    funext f
    cases f with
    | val n v => rfl
    | ptr n p => cases p <;> rfl]
  rw [this]
  rfl

/-- Violation: in a BINARY archive every `alpha_func` other than 0 becomes 1, such as `BLEND` (2) becomes `NONE` (1): nothing tells
the files of the two materials apart. -/
theorem c79_alpha_violation (x : Material) (a b : BitVec 32) (ha : a ≠ 0) (hb : b ≠ 0) (w : Bin.Wr) :
    Bin.calls w (flatCalls ({ x with alphaFunc := a }.save c)) = Bin.calls w (flatCalls ({ x with alphaFunc := b }.save c)) := by
  rw [c79_material_binary, c79_material_binary]
  dsimp only
  rw [if_neg ha, if_neg hb]
  rfl

/-- The entries in front of `alphaFunc`. -/
theorem saveWith_split (x : Material) (hg : c.game = .g2) : ∃ pre : List Field, pre.length = 22 ∧ Flat pre ∧
    ∀ f, x.saveWith f c = pre ++ [f, fVec2 b!"defaultMapping" x.mapping] := by
  obtain ⟨game, save, pack⟩ := c
  cases hg
  refine ⟨(x.saveWith (fEnum b!"alphaFunc" 0) ⟨.g2, save, pack⟩).take 22, rfl, ?_, fun f => rfl⟩
  intro f hf
  have hf := List.mem_of_mem_take hf
  simp only [Material.saveWith, fIf, Ctx.g2, decide_true, if_true, List.mem_append, List.mem_cons, List.not_mem_nil, or_false] at hf
  rcases hf with (rfl|rfl|rfl|rfl|rfl|rfl|rfl|rfl|rfl|rfl|rfl|rfl|rfl)|(rfl|rfl|rfl|rfl|rfl|rfl|rfl|rfl|rfl|rfl)|rfl <;> exact ⟨_, _, rfl⟩

theorem material_follows (x : Material) (h : x.Finite) :
    Follows (Material.load c {}).want (x.saveWith (fEnum b!"alphaFunc" 0) c) :=
  Loads.follows (env := ⟨fun _ _ => true, fun _ => true, fun _ => none, fun _ => false, ()⟩) (by simp)
    (Material.loadsWith (φ := fun _ => ()) 0 h)

/-- Violation: no material of Gothic 2 that was saved to a BINSAFE archive can be loaded: `load` asks for an enumeration where `save`
has written a truth value. -/
theorem c79_g2_binsafe_violation (x : Material) (hg : c.game = .g2) (h : x.Finite)
    (hv : ∀ n v, Field.val n v ∈ x.save c → Bs.OkVal v) (w : Bs.Wr) (hw : w.ws.pos ≤ w.ws.data.length) (post : Bytes)
    (ptr : Rs → GRd → Except Fail (Option Nat × Rs × GRd)) (g : GRd) (fuel : Nat) (hf : 22 < fuel) :
    readFields Bs.reader ptr (Material.load c {}).want fuel [] ⟨(Bs.calls w (flatCalls (x.save c))).ws.data ++ post, w.ws.pos⟩ g =
      .error (.throw .parser) := by
  obtain ⟨pre, hlen, hflat, hpre⟩ := saveWith_split (c := c) x hg
  have hfol := material_follows (c := c) x h
  rw [hpre] at hfol
  have hall : Bs.OkDoc (flatDoc (x.save c)) := flatDoc_all _ hv
  have hwr := Bs.write_doc' (flatDoc (x.save c)) w hw (flatDoc_numbered _ _)
  rw [flatDoc_calls] at hwr
  rw [hwr]
  generalize hE : Bs.enc w.keys (flatDoc (x.save c)) = E
  have hdrop := Ws.write_drop w.ws E post hw
  have hle := Ws.write_le w.ws E hw
  dsimp only
  refine readFields_wrong (Bs.sim ((w.ws.write E).data ++ post) (w.ws.data.drop (w.ws.pos + E.length) ++ post)) ptr
    (Material.load c {}).want pre b!"alphaFunc" (.bool (x.alphaFunc ≠ 0)) [fVec2 b!"defaultMapping" x.mapping] .enum _ ?_ g fuel _
    (by omega) hflat (fEnum b!"alphaFunc" 0) [fVec2 b!"defaultMapping" x.mapping] hfol rfl ?_
  · intro s hs
    exact bs_bool_enum _ _ _ _ _ s hs
  · have e : pre ++ Field.val b!"alphaFunc" (.bool (x.alphaFunc ≠ 0)) :: [fVec2 b!"defaultMapping" x.mapping] = x.save c :=
      (hpre (fBool b!"alphaFunc" (x.alphaFunc ≠ 0))).symm
    rw [e]
    refine ⟨rfl, fun d hd => by rw [List.mem_singleton.1 hd]; exact hall, ?_, E, hdrop, w.keys, hE.symm⟩
    simp only [Ws.write, List.length_append] at hle ⊢
    omega

/-- Violation: nor one that was saved to an ASCII archive. Values as in C17. -/
theorem c79_g2_ascii_violation (x : Material) (hg : c.game = .g2) (h : x.Finite)
    (hv : ∀ n v, Field.val n v ∈ x.save c → Asc.OkKey n ∧ Asc.OkVal v) (w : Asc.Wr) (hw : w.ws.pos = w.ws.data.length)
    (hi : w.indent = 0) (post : Bytes) (hpost : Solid post) (ptr : Rs → GRd → Except Fail (Option Nat × Rs × GRd)) (g : GRd) (fuel : Nat)
    (hf : 22 < fuel) :
    readFields Asc.reader ptr (Material.load c {}).want fuel [] ⟨(Asc.calls w (flatCalls (x.save c))).ws.data ++ post, w.ws.pos⟩ g =
      .error (.throw .parser) := by
  obtain ⟨pre, hlen, hflat, hpre⟩ := saveWith_split (c := c) x hg
  have hfol := material_follows (c := c) x h
  rw [hpre] at hfol
  obtain ⟨_, _, _, hstart⟩ := asc_start (flatDoc (x.save c)) w hw hi (flatDoc_numbered _ _) (flatDoc_all _ hv) post hpost
  rw [flatDoc_calls] at hstart
  refine readFields_wrong (Asc.sim w.junk ((Asc.calls w (flatCalls (x.save c))).ws.data ++ post) post hpost) ptr
    (Material.load c {}).want pre b!"alphaFunc" (.bool (x.alphaFunc ≠ 0)) [fVec2 b!"defaultMapping" x.mapping] .enum _ ?_ g fuel _
    (by omega) hflat (fEnum b!"alphaFunc" 0) [fVec2 b!"defaultMapping" x.mapping] hfol rfl ?_
  · intro s hs
    exact asc_bool_enum _ _ _ _ _ (by decide) (by decide) _ _ s hs
  · have e : pre ++ Field.val b!"alphaFunc" (.bool (x.alphaFunc ≠ 0)) :: [fVec2 b!"defaultMapping" x.mapping] = x.save c :=
      (hpre (fBool b!"alphaFunc" (x.alphaFunc ≠ 0))).symm
    rw [e]
    exact hstart

/-- Violation: in Gothic 1, a loaded material has `alpha_func` `DEFAULT`, while a new one has `NONE`. -/
theorem c79_alpha_g1_violation :
    (Material.load ⟨.g1, false, false⟩ {}).run env0 ((Material.save ⟨.g1, false, false⟩ {}).map (Field.item id)) =
      .ok ({ ({} : Material) with alphaFunc := 0 }, []) ∧ ({} : Material).alphaFunc = 1 := by
  decide +kernel

/-- Violation: infinity is not read back, and the number behind it is not read at all. -/
theorem c79_infinite_violation : readVec2 (vec2Text ⟨0x7F800000, 0x3F800000⟩) ⟨0x40000000, 0x40000000⟩ = ⟨0, 0x40000000⟩ := by
  decide +kernel

/-- A material: 0.1, -123456.789, the smallest and the largest number as text. -/
def demoMaterial : Material :=
  { name := b!"STONE", group := 2, texture := b!"STONE.TGA", textureScale := ⟨0x3DCCCCCD, 0xC7F12065⟩, animMapDir := ⟨1, 0x7F7FFFFF⟩,
    waveMode := 3, alphaFunc := 2, mapping := ⟨0x3F800000, 0x40000000⟩ }

example : demoMaterial.Finite := by unfold Material.Finite Finite; decide
example : NoEol demoMaterial.name ∧ NoEol demoMaterial.texture ∧ NoEol demoMaterial.detailObject ∧
    demoMaterial.animMapMode.toNat < 256 := by decide
example : ∀ n v, Field.val n v ∈ demoMaterial.save ⟨.g2, false, false⟩ → Bs.OkVal v ∧ Asc.OkKey n ∧ Asc.OkVal v := by
  have h : ∀ f ∈ demoMaterial.save ⟨.g2, false, false⟩,
      (match f with | .val n v => decide (Bs.OkVal v ∧ Asc.OkKey n ∧ Asc.OkVal v) | _ => true) = true := by
    decide +kernel
  exact fun n v hm => of_decide_eq_true (h _ hm)

/-! ### Lights -/

/-- C79, lights, part: a static light comes back with all members it has, and reading takes exactly what was written. -/
theorem c79_static_light_partial (x : LightPreset) (h : x.isStatic = true) (rest : List (Item P)) :
    ∃ y, (LightPreset.load c {}).run env ((x.save c).map (Field.item φ) ++ rest) = .ok (y, rest) ∧
      y.preset = x.preset ∧ y.lightType = x.lightType ∧ y.range = x.range ∧ y.color = x.color ∧ y.coneAngle = x.coneAngle ∧
      y.isStatic = true ∧ y.quality = x.quality ∧ y.lensflareFx = x.lensflareFx :=
  ⟨_, LightPreset.loads (ns := []) (.inl h) rest, by simp [LightPreset.copy, h]⟩

/-- C79, lights, part: a light without factors for the range comes back with all its members; of the colours of the animation
everything but `alpha`. Missing: factors, see below. -/
theorem c79_light_partial (x : LightPreset) (h : x.isStatic = false) (hr : x.rangeScale = []) (hm : c.game = .g1 → x.canMove = true)
    (rest : List (Item P)) :
    (LightPreset.load c {}).run env ((x.save c).map (Field.item φ) ++ rest) =
      .ok ({ x with colors := x.colors.map opaque_ }, rest) := by
  rw [LightPreset.loads (ns := []) (.inr (by rw [hr]; exact .nil)) rest]
  have hc : (if c.g2 then x.canMove else true) = x.canMove := by
    obtain ⟨game, save, pack⟩ := c
    cases game with
    | g1 => exact (hm rfl).symm
    | g2 => rfl
  simp only [LightPreset.copy, h, Bool.false_eq_true, if_false, List.map_nil, List.nil_append, hc]

/-- C79, the factors for the range, part: those with at most six significant digits come back from the text, to the last bit. -/
theorem c79_ranges_partial (l : List F32) (h : ∀ v ∈ l, SixDigits v) : readRanges (rangesText l) [] = .ok l := by
  have := readRanges_ok l [] (fun v hv => by
    obtain ⟨h1, h2⟩ := h v hv
    rcases h2 with h2 | h2
    · exact FText.enough_short 6 v (by decide) h1 ⟨0, 0, 0, by decide, by rw [h2]; rfl⟩
    · exact FText.enough_short 6 v (by decide) h1 h2)
  exact this

/-- Violation: the list of colours begins with the factors for the range, which become greys. Here all factors are whole numbers of
at most six digits. -/
theorem c79_colors_violation (x : LightPreset) (ns : List Nat) (h : x.isStatic = false) (hw : Wholes x.rangeScale ns)
    (rest : List (Item P)) :
    ∃ y, (LightPreset.load c {}).run env ((x.save c).map (Field.item φ) ++ rest) = .ok (y, rest) ∧ y.rangeScale = x.rangeScale ∧
      y.colors = ns.map grey ++ x.colors.map opaque_ :=
  ⟨_, LightPreset.loads (.inr hw) rest, by simp [LightPreset.copy, h], by simp [LightPreset.copy, h]⟩

end

/-- A light with a flickering range and a red and a green colour; the second is half transparent. -/
def demoLight (factors : List F32) : LightPreset :=
  { lightType := 0, range := 0x447A0000, rangeScale := factors, colors := [⟨255, 0, 0, 255⟩, ⟨0, 255, 0, 128⟩] }

example : (demoLight []).isStatic = false ∧ (demoLight []).rangeScale = [] := by decide

/-- 1 and 300: two colours become four. -/
example : Wholes (demoLight [0x3F800000, 0x43960000]).rangeScale [1, 300] := by
  refine .cons ?_ (.cons ?_ .nil) <;> (unfold IsWhole; decide +kernel)

example : [1, 300].map grey = [⟨1, 1, 1, 255⟩, ⟨44, 44, 44, 255⟩] := by decide

/-- 0.5, 1.25 and 123456. -/
example : ∀ v ∈ [(0x3F000000 : F32), 0x3FA00000, 0x47F12000], SixDigits v := by
  intro v hv
  simp only [List.mem_cons, List.not_mem_nil, or_false] at hv
  rcases hv with rfl | rfl | rfl
  · exact ⟨by unfold Finite; decide, .inr ⟨5, 1, 0, by decide, by decide +kernel⟩⟩
  · exact ⟨by unfold Finite; decide, .inr ⟨125, 2, 0, by decide, by decide +kernel⟩⟩
  · exact ⟨by unfold Finite; decide, .inr ⟨123456, 0, 0, by decide, by decide +kernel⟩⟩

/-- Violation: of the colours of a light with the factors 0.5 and 0.25 none comes back: there are two others. -/
theorem c79_colors_lost_violation :
    ((LightPreset.load ⟨.g2, false, false⟩ {}).run env0 (((demoLight [0x3F000000, 0x3E800000]).save ⟨.g2, false, false⟩).map
      (Field.item id))).map (·.1.colors) = .ok [⟨0, 0, 0, 255⟩, ⟨5, 0, 0, 255⟩] := by
  decide +kernel

/-- Violation: loading a light with the single factor 0.5 uses a variable that has no value: undefined behaviour, from a light that
was saved by `save`. -/
theorem c79_uninitialised_violation :
    (LightPreset.load ⟨.g2, false, false⟩ {}).run env0 (((demoLight [0x3F000000]).save ⟨.g2, false, false⟩).map (Field.item id)) =
      .error .ub := by
  decide +kernel

/-- Violation: six digits do not suffice for 1/3. -/
theorem c79_precision_violation : readRanges (rangesText [0x3EAAAAAB]) [] = .ok [0x3EAAAA9F] := by decide +kernel

/-- Violation: loading into a light that already has an animation adds to it. -/
theorem c79_reload_violation :
    ((LightPreset.load ⟨.g2, false, false⟩ (demoLight [])).run env0 (((demoLight []).save ⟨.g2, false, false⟩).map (Field.item id))).map
      (·.1.colors.length) = .ok 4 := by
  decide +kernel

/-- Whatever text is in the file: reading the factors ends, without an error. -/
theorem c79_ranges_end (t : Bytes) (old : List F32) : ∃ l, readRanges t old = .ok l := rangesLoop_ends _ _ _ (Nat.lt_succ_self _)

/-- Whatever text is in the file: reading the colours ends, but may use variables without a value. -/
theorem c79_colors_end (t : Bytes) (old : List Color) : readColors t old = .error .ub ∨ ∃ l, readColors t old = .ok l :=
  colorsLoop_ends _ _ _ _ (Nat.lt_succ_self _)

/-- Violation: a text of one opening bracket is enough for that. -/
theorem c79_bad_text_violation : readColors b!"(" [] = .error .ub := by decide +kernel

end Verif.Props
