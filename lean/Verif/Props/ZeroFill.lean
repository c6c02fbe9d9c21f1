import Verif.Lemmas.ZeroFill
import Verif.Model.ModelHierarchy

/-! # C119: files that end early -/

namespace Verif.Props

/-- The file `data`, filled up with `k` zero bytes. -/
def filledUp (data : Bytes) (k : Nat) : Bytes := data ++ List.replicate k 0

/-- Reading from a file that ends early gives what reading from the same file, filled up with any number of zero bytes,
gives: the same value or the same error. -/
def ReadAsFilled {α} (p : Rd α) : Prop := ∀ (data : Bytes) (k pos : Nat), pos ≤ data.length →
  (p ⟨data, pos⟩).map Prod.fst = (p ⟨filledUp data k, pos⟩).map Prod.fst

theorem readAsFilled_of {α} {p : Rd α} (h : Zf p) : ReadAsFilled p := by
  intro data k pos hp
  have := h ⟨data, pos⟩ ⟨filledUp data k, pos⟩ hp (by simp only [Rs.Inside, filledUp, List.length_append]; omega)
    (ahead_zeros data k pos).symm
  revert this
  cases p ⟨data, pos⟩ with
  | error e => cases p ⟨filledUp data k, pos⟩ with
    | error e' => intro h; exact congrArg Except.error h
    | ok y => intro h; exact h.elim
  | ok x => cases p ⟨filledUp data k, pos⟩ with
    | error e' => intro h; exact h.elim
    | ok y => intro h; exact congrArg Except.ok h.1

/-- **C119** — textures: `Texture::load` on any object. -/
theorem c119_texture (t : Tex.Texture) : ReadAsFilled t.load := readAsFilled_of (Zf.texture t)

/-- **C119** — fonts. -/
theorem c119_font : ReadAsFilled Font.load := readAsFilled_of Zf.font

/-- **C119** — oriented bounding boxes with all of their children. -/
theorem c119_obb : ReadAsFilled Obb.load := readAsFilled_of Zf.obb

/-- **C119** — lines, with and without the blanks that follow. -/
theorem c119_line (skip : Bool) : ReadAsFilled (Rd.line skip) := readAsFilled_of (Zf.line skip)

/-- A texture of one pixel, of which the last byte is missing. -/
def clippedTexture : Bytes := b!"ZTEX" ++ encW 4 (0 : BitVec 32) ++ encW 4 (8 : BitVec 32) ++ encW 4 (1 : BitVec 32) ++ encW 4 (1 : BitVec 32) ++
  encW 4 (1 : BitVec 32) ++ encW 4 (1 : BitVec 32) ++ encW 4 (1 : BitVec 32) ++ encW 4 (0 : BitVec 32) ++ [7]

example : (({} : Tex.Texture).load ⟨clippedTexture, 0⟩).map (·.1.textures) = .ok [[7, 0]] := by decide +kernel
example : (({} : Tex.Texture).load ⟨filledUp clippedTexture 9, 0⟩).map (·.1.textures) = .ok [[7, 0]] := by decide +kernel

/-- A new `ModelHierarchy`. -/
def noHierarchy : Hierarchy := ⟨[], ⟨⟨0, 0, 0⟩, ⟨0, 0, 0⟩⟩, ⟨⟨0, 0, 0⟩, ⟨0, 0, 0⟩⟩, ⟨0, 0, 0⟩, 0, ⟨0, 0, 0, 0, 0, 0⟩, []⟩

/-- A hierarchy file that ends in the middle of a chunk of unknown type, whose content looks like a chunk. -/
def clippedHierarchy : Bytes := encW 2 (0x1234 : BitVec 16) ++ encW 4 (40 : BitVec 32) ++
  (encW 2 (0xD110 : BitVec 16) ++ encW 4 (20 : BitVec 32) ++ List.replicate 16 0 ++ b!"ABC" ++ [10])

/-- **C119** — files made of chunks are different: a chunk that is to be skipped and that the file has not got all of is
not skipped, its content is read as chunks. Filled up with zero bytes it is skipped. -/
theorem c119_violation : ¬ ReadAsFilled noHierarchy.load := by
  intro h
  have := h clippedHierarchy 20 0 (by decide)
  have hn : ((noHierarchy.load ⟨clippedHierarchy, 0⟩).map Prod.fst).map Hierarchy.sourcePath ≠
      ((noHierarchy.load ⟨filledUp clippedHierarchy 20, 0⟩).map Prod.fst).map Hierarchy.sourcePath := by
    have h1 : ((noHierarchy.load ⟨clippedHierarchy, 0⟩).map Prod.fst).map Hierarchy.sourcePath = .ok b!"ABC" := by
      decide +kernel
    have h2 : ((noHierarchy.load ⟨filledUp clippedHierarchy 20, 0⟩).map Prod.fst).map Hierarchy.sourcePath = .ok [] := by
      decide +kernel
    rw [h1, h2]
    decide
  exact hn (congrArg _ this)

end Verif.Props
