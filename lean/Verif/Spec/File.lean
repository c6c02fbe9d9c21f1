import Verif.Model.StreamMem

/-!
# Specification: files with a cursor

Independent of the implementation: a read-only file is a byte string with a cursor in `[0, length]`; a
writable file is a function from offsets to bytes together with a length.
-/

namespace Verif.Spec

open Mem (ROp WOp)

/-- Where a seek points to, as a signed offset. -/
def seekTo (pos len : Nat) (off : Int) : Whence → Int
  | .beg => off
  | .cur => pos + off
  | .end_ => len + off

/-- The position after an operation on a read-only file of `len` bytes: a read advances, stopping at the
end; a seek into the file moves there; any other seek does nothing. -/
def posAfter (len pos : Nat) : ROp → Nat
  | .read n => min (pos + n) len
  | .seek off w =>
    let t := seekTo pos len off w
    if 0 ≤ t ∧ t ≤ len then t.toNat else pos

/-- The bytes an operation returns: those between the old and the new position for a read. -/
def returned (data : Bytes) (pos : Nat) : ROp → Bytes
  | .read n => (data.drop pos).take (posAfter data.length pos (.read n) - pos)
  | .seek _ _ => []

/-- All results of a history and the final position. -/
def runR (data : Bytes) : Nat → List ROp → List Bytes × Nat
  | pos, [] => ([], pos)
  | pos, op :: ops =>
    let (rs, p) := runR data (posAfter data.length pos op) ops
    (returned data pos op :: rs, p)

/-- A writable file as offsets to bytes. -/
structure SFile where
  byte : Nat → Byte
  len : Nat

/-- The file with content `bs`; offsets behind the end read as zero. -/
def SFile.ofBytes (bs : Bytes) : SFile := ⟨fun i => bs.getD i 0, bs.length⟩

/-- A positioned write replaces exactly the bytes it covers and extends the file to its end. -/
def SFile.pwrite (f : SFile) (off : Nat) (bs : Bytes) : SFile :=
  { byte := fun i => if off ≤ i ∧ i < off + bs.length then bs.getD (i - off) 0 else f.byte i
    len := max f.len (off + bs.length) }

/-- The positioned writes of a history on a growing file, and the final position. -/
def runW : SFile → Nat → List WOp → SFile × Nat
  | f, pos, [] => (f, pos)
  | f, pos, .write bs :: ops => runW (f.pwrite pos bs) (pos + bs.length) ops
  | f, pos, .seek off w :: ops => runW f (seekTo pos f.len off w).toNat ops

/-- A byte string represents a file. -/
def Represents (bs : Bytes) (f : SFile) : Prop :=
  bs.length = f.len ∧ ∀ i, i < f.len → bs[i]? = some (f.byte i)

/-- The history stays within `limit`: every seek of a growing file targets an offset in `[0, limit]` and
no write ends behind `limit`. -/
def Within (limit : Nat) : SFile → Nat → List WOp → Prop
  | _, _, [] => True
  | f, pos, .write bs :: ops =>
    pos + bs.length ≤ limit ∧ Within limit (f.pwrite pos bs) (pos + bs.length) ops
  | f, pos, .seek off w :: ops =>
    0 ≤ seekTo pos f.len off w ∧ seekTo pos f.len off w ≤ limit ∧ Within limit f (seekTo pos f.len off w).toNat ops

/-- On a buffer of fixed size `len`: the writes are cut at the end, bad seeks are ignored. -/
def runF (len : Nat) : (Nat → Byte) → Nat → List WOp → (Nat → Byte) × Nat
  | f, pos, [] => (f, pos)
  | f, pos, .write bs :: ops =>
    let n := min bs.length (len - pos)
    runF len (fun i => if pos ≤ i ∧ i < pos + n then bs.getD (i - pos) 0 else f i) (pos + n) ops
  | f, pos, .seek off w :: ops =>
    let t := seekTo pos len off w
    runF len f (if 0 ≤ t ∧ t ≤ len then t.toNat else pos) ops

end Verif.Spec
