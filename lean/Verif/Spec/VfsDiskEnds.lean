import Verif.Base.Bytes

/-!
# Disk images whose catalog ends (C112)
-/

namespace Verif.Spec.Disk

/-- The number of four bytes at an offset. -/
def wordAt (image : Bytes) (p : Nat) : BitVec 32 := BitVec.ofNat 32 (leNat ((image.drop p).take 4))

/-- Where the catalog of an image begins: the header says so, zero stands for the end of the header. -/
def catalogOf (image : Bytes) : BitVec 32 := if wordAt image 288 = 0 then 296 else wordAt image 288

/-- An entry of the catalog: 80 bytes, the flags at the offset 72. -/
def isDirectory (image : Bytes) (p : Nat) : Prop := wordAt image (p + 72) &&& 0x80000000 ≠ 0
def isLast (image : Bytes) (p : Nat) : Prop := wordAt image (p + 72) &&& 0x40000000 ≠ 0

/-- Where the entries of a directory begin. -/
def entriesOf (image : Bytes) (p : Nat) : Nat := (catalogOf image + wordAt image (p + 64) * 80).toNat

/-- A set of offsets of entries that is closed under going on, until an entry is the last one, and under going into directories;
directories lie before their entries. -/
def Ordered (image : Bytes) (P : Nat → Prop) : Prop :=
  ∀ p, P p → p + 80 ≤ image.length ∧ (¬ isLast image p → P (p + 80)) ∧
    (isDirectory image p → p < entriesOf image p ∧ P (entriesOf image p))

end Verif.Spec.Disk
