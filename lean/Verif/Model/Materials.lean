import Verif.Model.ObjLight
import Verif.Model.ArchiveBinary
import Verif.Model.ArchiveAscii
import Verif.Model.ArchiveHeader

/-!
# The materials of meshes

Meshes keep their materials in an archive in the middle of their file: `src/Mesh.cc:55-64, 241-251`,
`src/MultiResolutionMesh.cc:61-66, 173-178`, `src/Material.cc:15-40`.
-/

namespace Verif.Obj

open Verif.Ar

/-- The calls of a `save` that writes no pointers. -/
def flatCalls (fs : List Field) : List Call :=
  fs.flatMap fun
    | .val n v => [.val n v]
    | .ptr _ _ => []

/-- Running a program that reads no pointers on an archive. -/
def Ld.exec {σ α} (r : Reader σ) : Ld Unit α → σ → Except Fail (α × σ)
  | .ret a, s => .ok (a, s)
  | .fail e, _ => .error e
  | .val k f, s =>
    match r.val k s with
    | .ok (v, s) => (f v).exec r s
    | .error e => .error e
  | .ptr _, _ => .error .ub
  | .ptrAs _ _, _ => .error .ub
  | .skip _, _ => .error .ub

namespace Material

/-- `Material::get_version_identifier` (`src/Material.cc:12-13, 125-127`). -/
def version (g : Game) : BitVec 16 := if g = .g1 then 17408 else 0x9c03

/-- The game that `Material::load(ReadArchive&)` takes a version for (`src/Material.cc:34`). -/
def game (version : BitVec 16) : Game := if version = 17408 then .g1 else .g2

/-- `Material::load(ReadArchive&)` (`src/Material.cc:21-40`). -/
def loadFrom {σ} (r : Reader σ) (o : Material) (s : σ) : Except Fail (Material × σ) :=
  match r.val .string s with
  | .error e => .error e
  | .ok (_, s) =>
    match r.objBegin s with
    | .error e => .error e
    | .ok (none, _) => .error (.throw .parser)
    | .ok (some h, s) =>
      if h.cls ≠ b!"zCMaterial" then .error (.throw .parser)
      else
        match (Material.load ⟨game h.version, false, false⟩ o).exec r s with
        | .error e => .error e
        | .ok (m, s) =>
          match endOrSkip r s with
          | .error e => .error e
          | .ok (_, s) => .ok (m, s)

/-- The loops over the materials (`src/Mesh.cc:59-61`, `src/MultiResolutionMesh.cc:64-66`): every object of the list is loaded. -/
def loadMany {σ} (r : Reader σ) : List Material → σ → Except Fail (List Material × σ)
  | [], s => .ok ([], s)
  | o :: os, s =>
    match loadFrom r o s with
    | .error e => .error e
    | .ok (m, s) =>
      match loadMany r os s with
      | .error e => .error e
      | .ok (ms, s) => .ok (m :: ms, s)

/-- `std::vector::resize`. -/
def resize (os : List Material) (n : Nat) : List Material := os.take n ++ List.replicate (n - os.length) ({} : Material)

/-- The same for an archive that was opened by `ReadArchive::from`, which has chosen the reader (`src/Archive.cc:238-249`). -/
def loadIn (fmt : Fmt) (os : List Material) : Rd (List Material) := fun s =>
  match fmt with
  | .binary => (loadMany Bin.reader os ⟨s, []⟩).map fun x => (x.1, x.2.rs)
  | .binsafe => loadMany Bs.reader os s
  | .ascii => loadMany Asc.reader os s

/-- The materials of a `Mesh` (`src/Mesh.cc:55-64`) with the materials `os`: behind the header of the archive follows their number. -/
def loadCounted (os : List Material) : Rd (List Material) := do
  let o ← openArchive
  let n ← Rd.u32
  loadIn o.header.format (resize os n.toNat)

/-- The materials of a `MultiResolutionMesh` with `n` parts (`src/MultiResolutionMesh.cc:61-66`), for an object without materials. -/
def loadParts (n : Nat) : Rd (List Material) := do
  let o ← openArchive
  loadIn o.header.format (resize [] n)

/-- The calls for one material (`src/Mesh.cc:246-247`, `src/Archive.cc:576-591`). -/
def callsFor (g : Game) (x : Material) : List Call :=
  .val [] (.string x.name) :: .begin b!"%" b!"zCMaterial" (version g) :: (flatCalls (x.save ⟨g, false, false⟩) ++ [.finish])

/-- The archive of the materials (`src/Mesh.cc:242-250`, `src/MultiResolutionMesh.cc:173-178`), with something between the header and
the materials. `e` and `e'` are date and user when the archive is opened and when it is finished. -/
def saveArchive (g : Game) (e e' : Ar.Env) (front : Ws → Ws) (ms : List Material) (w : Ws) : Except Fail Ws :=
  let head := w.pos
  let w := Bin.writeHeader head false e 0 w
  let w := front w
  match Bin.calls ⟨w, 0, []⟩ (ms.flatMap (callsFor g)) with
  | none => .error .ub
  | some w => .ok (Bin.writeHeader head false e' w.index w.ws)

/-- The materials of a `Mesh` (`src/Mesh.cc:241-251`). -/
def saveCounted (g : Game) (e e' : Ar.Env) (ms : List Material) (w : Ws) : Except Fail Ws :=
  saveArchive g e e' (fun w => w.u32 (BitVec.ofNat 32 ms.length)) ms w

/-- The materials of a `MultiResolutionMesh` (`src/MultiResolutionMesh.cc:173-178`). -/
def saveParts (g : Game) (e e' : Ar.Env) (ms : List Material) (w : Ws) : Except Fail Ws :=
  saveArchive g e e' (fun w => w) ms w

end Material

end Verif.Obj
