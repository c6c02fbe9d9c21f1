import Verif.Model.VfsHost
import Verif.Spec.VfsDisk

/-!
# Specification: directories of the host
-/

namespace Verif.Spec

open Verif.Vfs (Node Host)

/-- What a user sees of a file or a directory: name and time, of a file what is read from it as well. -/
inductive Seen where
  | file (name : Bytes) (time : Int) (content : Bytes)
  | dir (name : Bytes) (time : Int)
  deriving DecidableEq, Repr

/-- A node of a Vfs, as a user sees it who reads it to its end. -/
def seen (unz : Zip.Unz) : Node → Option Seen
  | .file n t d =>
    match Vfs.readFile unz d with
    | .ok (sz, bs) => if bs.length = sz then some (.file n t bs) else none
    | .error _ => none
  | .dir n t _ => some (.dir n t)

/-- What is at a path below a directory of the host, when files without content are left out; `shift` is taken off
the times. -/
def hostAt (shift : Int) : List Host → List Bytes → Option Seen
  | _, [] => none
  | hs, p :: ps =>
    match hs.find? (fun h => fold h.name == key p) with
    | none => none
    | some (.file n t c) => if ps = [] ∧ c ≠ [] then some (.file n (t - shift) c) else none
    | some (.dir n t es) => if ps = [] then some (.dir n (t - shift)) else hostAt shift es ps

mutual
/-- Names have no whitespace at their end, and in no directory two names are the same ignoring case. -/
def HostOk : Host → Prop
  | .file n _ _ => Clean n
  | .dir n _ es => Clean n ∧ HostsOk es
def HostsOk : List Host → Prop
  | [] => True
  | h :: hs => HostOk h ∧ (∀ x ∈ hs, fold x.name ≠ fold h.name) ∧ HostsOk hs
end

end Verif.Spec
