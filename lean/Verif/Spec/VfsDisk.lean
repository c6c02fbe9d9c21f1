import Verif.Model.VfsDisk
import Verif.Spec.Vfs
import Verif.Spec.Zipped

/-!
# Specification: file trees on disk
-/

namespace Verif.Spec

open Verif.Vfs (Node)

/-- A file tree as a user sees it: names and contents. -/
inductive FTree where
  | file (name content : Bytes)
  | dir (name : Bytes) (kids : List FTree)

def FTree.name : FTree → Bytes
  | .file n _ => n
  | .dir n _ => n

mutual
/-- What a user sees of a node who opens and reads every file to its end; `none` when some file can not be read
completely. -/
def view (unz : Zip.Unz) : Node → Option FTree
  | .file n _ d =>
    match Vfs.readFile unz d with
    | .ok (sz, bs) => if bs.length = sz then some (.file n bs) else none
    | .error _ => none
  | .dir n _ cs =>
    match viewAll unz cs with
    | some ts => some (.dir n ts)
    | none => none
def viewAll (unz : Zip.Unz) : List Node → Option (List FTree)
  | [] => some []
  | c :: cs =>
    match view unz c, viewAll unz cs with
    | some t, some ts => some (t :: ts)
    | _, _ => none
end

/-- The names a catalog entry can hold: 64 bytes, not empty, no whitespace at the end. -/
def NameFits (n : Bytes) : Prop := n ≠ [] ∧ Clean n ∧ n.length ≤ 64

mutual
/-- A tree that can be stored: names fit, no directory is empty, and every file satisfies `P`. -/
def FTree.Fits (P : Bytes → Bytes → Prop) : FTree → Prop
  | .file n c => NameFits n ∧ P n c
  | .dir n ts => NameFits n ∧ ts ≠ [] ∧ FTree.FitsAll P ts
def FTree.FitsAll (P : Bytes → Bytes → Prop) : List FTree → Prop
  | [] => True
  | t :: ts => t.Fits P ∧ FTree.FitsAll P ts
end

/-- How the contents of a file are stored. -/
abbrev Stored := Bytes → Bytes → Bytes

mutual
/-- The size of a stored tree: 80 bytes for each entry of the catalog and the stored contents. -/
def FTree.bytes (st : Stored) : FTree → Nat
  | .file n c => 80 + (st n c).length
  | .dir _ ts => 80 + FTree.bytesAll st ts
def FTree.bytesAll (st : Stored) : List FTree → Nat
  | [] => 0
  | t :: ts => t.bytes st + FTree.bytesAll st ts
end

/-- Files of an ordinary archive are stored as they are. -/
def storedPlain : Stored := fun _ c => c

/-- The name ends in `.wav` or `.ogg`. -/
def IsAudio (n : Bytes) : Prop := b!".wav" <:+ fold n ∨ b!".ogg" <:+ fold n

instance (n : Bytes) : Decidable (IsAudio n) := inferInstanceAs (Decidable (_ ∨ _))

/-- In a compressed archive audio files are stored as they are, all others as compressed files with blocks of 8192
bytes. -/
def storedZip (zip : Bytes → Bytes) : Stored := fun n c =>
  if IsAudio n then c else zipFile c 8192 (fun i => zip (zipBlock c 8192 i)) (fun _ => 8192)

/-- The content starts like a compressed file: three words, none of them zero, of which the last is the
first divided by the second, rounded up (in 32 bits). -/
def LooksZipped (c : Bytes) : Prop :=
  let w i : BitVec 32 := decW 32 ((c.drop (4 * i)).take 4)
  w 0 ≠ 0 ∧ w 1 ≠ 0 ∧ w 2 ≠ 0 ∧ w 2 = (w 0 + w 1 - 1) / w 1

/-- Contents that a compressed archive can hold: not empty, small enough, restored by the decompressor; audio files do
not look like compressed ones. -/
def ZipFits (unz : Zip.Unz) (zip : Bytes → Bytes) (n c : Bytes) : Prop :=
  c ≠ [] ∧ c.length + 8192 ≤ 2 ^ 32 ∧
    if IsAudio n then 12 ≤ c.length ∧ ¬ LooksZipped c
    else ∀ i, i < zipCount c 8192 → (zip (zipBlock c 8192 i)).length < 2 ^ 32 ∧
      unz (zip (zipBlock c 8192 i)) (zipBlock c 8192 i).length = (zipBlock c 8192 i, true)

/-- Operations on a Vfs. A tree that is mounted or created was built by the functions that build trees. -/
inductive Built : Node → Prop
  | file (n t d) : Built (.file n t d)
  | dir (n t) : Built (.dir n t [])
  | create {n t cs c} : Built (.dir n t cs) → Built c → Built (.dir n t (Vfs.createIn c cs).1)
  | remove {n t cs} (name) : Built (.dir n t cs) → Built (.dir n t (Vfs.removeIn name cs).1)

end Verif.Spec
