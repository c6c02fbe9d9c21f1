import Verif.Lemmas.Font

/-! # Properties of fonts and model hierarchies: C50 -/

namespace Verif.Props

/-- **C50**, model hierarchies — a saved hierarchy is loaded unchanged, whatever the object held before. -/
theorem c50_hierarchy (h old : Hierarchy) (hn : ∀ n ∈ h.nodes, NoEol n.name) (hp : NoEol h.sourcePath)
    (hc : h.nodes.length < 2 ^ 16) (hb : h.body.length < 2 ^ 32) (hs : h.source.length < 2 ^ 32)
    (w : Ws) (hw : w.pos ≤ w.data.length) (post : Bytes) :
    Hierarchy.load old ⟨(h.save w).data ++ post, w.pos⟩ = .ok (h, ⟨(h.save w).data ++ post, (h.save w).pos⟩) := by
  rw [Hierarchy.emits h w hw]
  exact Reads.of_write (Hierarchy.reads h old hn hp hc hb hs) w hw post

/-- **C50**, fonts, for names that do not begin with whitespace. -/
theorem c50_font_partial (f : Font) (hn : NoEol f.name) (hne : f.name ≠ []) (hh : ∀ c ∈ f.name.head?, c ∉ Rd.lineSpaces)
    (hg : f.glyphs.length < 2 ^ 32) (w : Ws) (hw : w.pos ≤ w.data.length) (post : Bytes) :
    Font.load ⟨(f.save w).data ++ post, w.pos⟩ = .ok (f, ⟨(f.save w).data ++ post, (f.save w).pos⟩) := by
  rw [Font.emits f w hw]
  exact Reads.of_write (Font.reads f hn hh hne hg) w hw post

example : let f : Font := ⟨b!"FONT_OLD_10_WHITE.TGA", 17, [⟨3, ⟨1, 2⟩, ⟨3, 4⟩⟩, ⟨4, ⟨5, 6⟩, ⟨7, 8⟩⟩]⟩
    NoEol f.name ∧ f.name ≠ [] ∧ (∀ c ∈ f.name.head?, c ∉ Rd.lineSpaces) ∧ f.glyphs.length < 2 ^ 32 := by decide

/-- **C50** is false of fonts without a name: the end of the empty line is skipped together with the line before, and the
height is taken for the name. -/
theorem c50_font_empty_violation :
    let f : Font := ⟨[], 0x0A414141, []⟩
    NoEol f.name ∧ ∃ g s, Font.load ⟨(f.save Ws.empty).data, 0⟩ = .ok (g, s) ∧ g.name = b!"AAA" ∧ g ≠ f := by
  refine ⟨by decide, ⟨b!"AAA", 0, []⟩, ⟨((Font.mk [] 0x0A414141 []).save Ws.empty).data, 11⟩, ?_, ?_, ?_⟩ <;> decide +kernel

/-- **C50** is false of names that begin with a blank: it is lost. -/
theorem c50_font_blank_violation :
    let f : Font := ⟨b!" A", 1, []⟩
    NoEol f.name ∧ ∃ s, Font.load ⟨(f.save Ws.empty).data, 0⟩ = .ok (⟨b!"A", 1, []⟩, s) := by
  refine ⟨by decide, ⟨((Font.mk b!" A" 1 []).save Ws.empty).data, 13⟩, ?_⟩
  decide +kernel

/-- A hierarchy with two nodes. -/
def demoHierarchy : Hierarchy where
  nodes := [⟨0xFFFF, b!"BIP01", ⟨⟨1, 0, 0, 0⟩, ⟨0, 1, 0, 0⟩, ⟨0, 0, 1, 0⟩, ⟨1, 2, 3, 4⟩⟩⟩, ⟨0, b!"BIP01 HEAD", ⟨⟨1, 0, 0, 0⟩, ⟨0, 1, 0, 0⟩, ⟨0, 0, 1, 0⟩, ⟨1, 2, 3, 4⟩⟩⟩]
  bbox := ⟨⟨1, 2, 3⟩, ⟨4, 5, 6⟩⟩
  collisionBbox := ⟨⟨1, 1, 1⟩, ⟨2, 2, 2⟩⟩
  rootTranslation := ⟨0, 5, 0⟩
  checksum := 0x12345678
  sourceDate := ⟨2002, 3, 4, 5, 6, 7⟩
  sourcePath := b!"HUMANS.ASC"

example : (∀ n ∈ demoHierarchy.nodes, NoEol n.name) ∧ NoEol demoHierarchy.sourcePath ∧ demoHierarchy.nodes.length < 2 ^ 16 ∧
    demoHierarchy.body.length < 2 ^ 32 ∧ demoHierarchy.source.length < 2 ^ 32 := by decide +kernel

end Verif.Props
