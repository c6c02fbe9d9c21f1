import Verif.Spec.VfsDisk

/-!
# Specification: trees that were put together from disks
-/

namespace Verif.Spec

open Verif.Vfs (Node)

/-- The trees of an empty Vfs on which any number of disks were mounted, one after the other, whatever their images are made of, with
any policies. The mounts may have failed half way. -/
inductive Merged (unixTime : BitVec 32 → Int) : Node → Prop
  | empty : Merged unixTime Vfs.empty
  | mount {root : Node} (fuel : Nat) (image : Bytes) (o : Vfs.Overwrite) : Merged unixTime root →
      Merged unixTime (Vfs.mountDisk unixTime fuel image o root).1

/-- Something of the name can be seen. -/
def Visible (n : Bytes) : Prop := rtrim n ≠ []

mutual
/-- No directory is empty, every name can be seen, and every file satisfies `P`. -/
def FTree.Storable (P : Bytes → Bytes → Prop) : FTree → Prop
  | .file n c => Visible n ∧ P n c
  | .dir n ts => Visible n ∧ ts ≠ [] ∧ FTree.StorableAll P ts
def FTree.StorableAll (P : Bytes → Bytes → Prop) : List FTree → Prop
  | [] => True
  | t :: ts => t.Storable P ∧ FTree.StorableAll P ts
end

end Verif.Spec
