import Verif.Spec.File

/-!
# Specification of compressed file streams

The file format (a header followed by blocks of the content, each with its own header and compressed
independently), and the behaviour of the stream: a read-only file with a cursor, where a seek to outside of the
file goes to the nearest end.
-/

namespace Verif.Spec

/-- Block `i` of the content. -/
def zipBlock (content : Bytes) (bs i : Nat) : Bytes := (content.drop (i * bs)).take bs

/-- Number of blocks. -/
def zipCount (content : Bytes) (bs : Nat) : Nat := (content.length + bs - 1) / bs

/-- The bytes of a compressed file: `cmp i` is the compressed form of block `i`, `sz i` the unused third word of
its header. -/
def zipFile (content : Bytes) (bs : Nat) (cmp : Nat → Bytes) (sz : Nat → BitVec 32) : Bytes :=
  encW 4 (BitVec.ofNat 32 content.length) ++ encW 4 (BitVec.ofNat 32 bs) ++
    encW 4 (BitVec.ofNat 32 (zipCount content bs)) ++
    ((List.range (zipCount content bs)).map fun i =>
      encW 4 (BitVec.ofNat 32 (zipBlock content bs i).length) ++ encW 4 (BitVec.ofNat 32 (cmp i).length) ++
        encW 4 (sz i) ++ cmp i).flatten

/-- Position after an operation; a seek to outside of the file goes to its nearest end. -/
def zipPosAfter (len pos : Nat) : Mem.ROp → Nat
  | .read n => min (pos + n) len
  | .seek off w => (min (max (seekTo pos len off w) 0) len).toNat

/-- Bytes returned by an operation. -/
def zipReturned (content : Bytes) (pos : Nat) : Mem.ROp → Bytes
  | .read n => (content.drop pos).take n
  | .seek _ _ => []

/-- All results and the final position. -/
def zipRun (content : Bytes) : Nat → List Mem.ROp → List Bytes × Nat
  | pos, [] => ([], pos)
  | pos, op :: ops =>
    let (rs, p) := zipRun content (zipPosAfter content.length pos op) ops
    (zipReturned content pos op :: rs, p)

end Verif.Spec
