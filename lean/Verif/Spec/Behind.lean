import Verif.Model.Stream
import Verif.Model.ArchiveHeader
import Verif.Model.ArchiveGraph
import Verif.Model.ArchiveAscii
import Verif.Model.ArchiveBinary

/-! # Reading from the middle of a stream -/

namespace Verif.Spec

/-- The same stream with other bytes in front. -/
def behind (pre : Bytes) (s : Rs) : Rs := ⟨pre ++ s.data, pre.length + s.pos⟩

/-- A function that reads does the same with `pre` in front, for the files `F`: it returns the same value or fails in the same way, and
stops at the same place. -/
def Relocates {α} (pre : Bytes) (F : Bytes → Prop) (p : Rd α) : Prop :=
  ∀ s : Rs, F s.data → s.pos ≤ s.data.length →
    p (behind pre s) = match p s with
      | .ok (a, t) => .ok (a, behind pre t)
      | .error e => .error e

/-- Files that are addressed with 32 bits, with what is in front of them. -/
def Short (pre data : Bytes) : Prop := pre.length + data.length < 2 ^ 32

/-- All files. -/
def AnyFile (_ : Bytes) : Prop := True

/-- Files below 4 GiB that hold no BINSAFE archives. -/
def NoBinsafe (data : Bytes) : Prop := data.length < 2 ^ 32 ∧ ¬ b!"BIN_SAFE" <:+: data

open Ar in
/-- What a user does with an archive: `ReadArchive::from` and `read_object`. The result is the object and everything that was made for it. -/
def readFirst (W : Schema) (fuel : Nat) : Rd (Option Nat × GRd) := do
  let o ← openArchive
  fun s =>
    match o.header.format with
    | .binary => (readPtr Bin.reader W fuel ⟨s, []⟩ ⟨[], []⟩).map fun x => ((x.1, x.2.2), x.2.1.rs)
    | .binsafe => (readPtr Bs.reader W fuel s ⟨[], []⟩).map fun x => ((x.1, x.2.2), x.2.1)
    | .ascii => (readPtr Asc.reader W fuel s ⟨[], []⟩).map fun x => ((x.1, x.2.2), x.2.1)

end Verif.Spec
