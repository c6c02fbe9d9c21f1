import Verif.Spec.VfsDisk

/-!
# What can be seen of a Vfs (C113)
-/

namespace Verif.Spec

open Verif.Vfs (Node)

/-- What a user sees of a node: a directory, or a file with its contents, unless these can not be read completely. -/
inductive Sight where
  | file (name contents : Bytes)
  | unreadable (name : Bytes)
  | dir (name : Bytes)
  deriving DecidableEq, Repr

def sight (unz : Zip.Unz) : Node → Sight
  | .dir n _ _ => .dir n
  | .file n _ d =>
    match Vfs.readFile unz d with
    | .ok (sz, bs) => if bs.length = sz then .file n bs else .unreadable n
    | .error _ => .unreadable n

/-- What is seen at a path. -/
def sees (unz : Zip.Unz) (root : Node) (p : List Bytes) : Option Sight := (lookup root p).map (sight unz)

end Verif.Spec
