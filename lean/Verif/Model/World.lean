import Verif.Model.VobTree
import Verif.Model.WholeMesh
import Verif.Model.Bsp
import Verif.Model.ArchiveHeader
import Verif.Model.ArchiveBinary
import Verif.Model.ArchiveBinsafe
import Verif.Model.ArchiveAscii
import Verif.Model.ObjLoad

/-!
# Worlds: `src/World.cc`

A world is an object of an archive. It has sections, which are objects without a class: the mesh and the BSP tree (not in saved games),
the virtual objects, the way net and, in saved games, the cutscene player and the sky; behind them saved games have the NPCs. Pointers
are addresses of objects, as in `Verif.Model.ArchiveGraph`.

Simplification: the world itself is not entered into the caches of the archives. No object has a pointer to a world.
-/

namespace Verif

open Ar VobTree
open Obj (Ctx Game)

/-- `struct SpawnLocation` (`include/zenkit/World.hh:59-63`). -/
structure Spawn where
  npc : Option Nat
  position : Vec3
  timer : F32
  deriving DecidableEq, Repr

/-- `class World` (`include/zenkit/World.hh:66-99`), without the mesh and the BSP tree. The children of the virtual objects are not
part of it: see `Verif.VobTree.Kids`. -/
structure World where
  vobs : List (Option Nat) := []
  wayNet : Option Nat := none
  npcs : List (Option Nat) := []
  spawns : List Spawn := []
  spawnEnabled : Bool := false
  spawnFlags : BitVec 32 := 0
  player : Option Nat := none
  sky : Option Nat := none
  deriving DecidableEq, Repr

/-- The mesh and the BSP tree of a world. -/
structure Level where
  mesh : WholeMesh
  bsp : Bsp := {}

namespace World

/-! ## Saving -/

/-- A section: its name and the calls that write its content. -/
abbrev Section := Bytes × List Field

/-- `save_vob_tree` for each of the roots (`src/World.cc:199-201`). -/
def rootFields (kids : Kids) (fuel : Nat) : List (Option Nat) → Except Fail (List Field)
  | [] => .ok []
  | p :: ps => do
    let (fs, _) ← VobTree.save kids fuel p 0
    let gs ← rootFields kids fuel ps
    return fs ++ gs

/-- A section with one object, which is left out if there is none (`src/World.cc:205-215`). -/
def optional (name : Bytes) : Option Nat → List Section
  | none => []
  | some a => [(name, [.ptr nullClass (some a)])]

/-- The sections that `World::save` writes behind that of the mesh (`src/World.cc:197-223`). -/
def sections (c : Ctx) (kids : Kids) (fuel : Nat) (w : World) : Except Fail (List Section) := do
  let vs ← rootFields kids fuel w.vobs
  return (b!"VobTree", .val b!"childs0" (.int (BitVec.ofNat 32 w.vobs.length)) :: vs) ::
    ((if c.save then optional b!"CutscenePlayer" w.player ++ optional b!"SkyCtrl" w.sky else []) ++
      [(b!"WayNet", [.ptr nullClass w.wayNet]), (b!"EndMarker", [])])

/-- The calls for a spawn location (`src/World.cc:235-239`). -/
def _root_.Verif.Spawn.fields (s : Spawn) : List Field :=
  [.ptr b!"npc" s.npc, .val b!"spawnPos" (.vec3 s.position), .val b!"timer" (.float s.timer)]

/-- What both games write behind the sections of a saved game (`src/World.cc:226-241`). -/
def npcFields (w : World) : List Field :=
  .val b!"npcCount" (.int (BitVec.ofNat 32 w.npcs.length)) :: (numberedPtrs b!"npc" w.npcs ++
    .val b!"NoOfEntries" (.int (BitVec.ofNat 32 w.spawns.length)) :: (w.spawns.flatMap Spawn.fields ++
      [.val b!"spawningEnabled" (.bool w.spawnEnabled)]))

/-- What is written behind the sections (`src/World.cc:225-246`). The flags are an `int` that is converted to `bool`. -/
def tail (c : Ctx) (w : World) : List Field :=
  if c.save then w.npcFields ++ (if c.g2 then [.val b!"spawnFlags" (.bool (w.spawnFlags != 0))] else []) else []

/-- Sections one after the other: `write_object_begin`, the content, `write_object_end`. -/
def writeSections (ptr : Bytes → Option Nat → GWr → Except Fail (List Call × GWr)) :
    List Section → GWr → Except Fail (List Call × GWr)
  | [], g => .ok ([], g)
  | (n, fs) :: rest, g => do
    let (cs, g) ← writeFields ptr fs g
    let (ds, g) ← writeSections ptr rest g
    return (.begin n [] 0 :: (cs ++ .finish :: ds), g)

/-- `World::save` (`src/World.cc:176-247`) but for the mesh: the calls of the archive that it makes. Fuel: the depth of the recursion of
`write_object` and that of `save_vob_tree`. -/
def save (c : Ctx) (H : GHeap) (kids : Kids) (fuel : Nat) (w : World) (g : GWr) : Except Fail (List Call × GWr) := do
  let secs ← w.sections c kids fuel
  let (cs, g) ← writeSections (writePtr H fuel) secs g
  let (ds, g) ← writeFields (writePtr H fuel) (w.tail c) g
  return (cs ++ ds, g)

/-- The name of the class (`src/Archive.cc:163`). -/
def className : Bytes := b!"oCWorld:zCWorld"

/-- `World::get_version_identifier` (`src/World.cc:249-251`). -/
def versionId : BitVec 16 := 64513

/-- `WriteArchive::write_object` (`src/Archive.cc:576-591`) for a world of a saved game. -/
def saveObject (c : Ctx) (H : GHeap) (kids : Kids) (fuel : Nat) (name : Bytes) (w : World) (g : GWr) :
    Except Fail (List Call × GWr) := do
  let (cs, g) ← w.save c H kids fuel ⟨g.index + 1, g.cache⟩
  return (.begin name className versionId :: (cs ++ [.finish]), g)

/-! ### The mesh -/

/-- What depends on the environment when a mesh is saved: see `Verif.WholeMesh.save`. -/
structure MeshEnv where
  start : Ar.Env
  finish : Ar.Env
  order : List (Option Nat)

/-- The content of the section of the mesh (`src/World.cc:180-192`). The position of its size is kept in 32 bits. -/
def _root_.Verif.Level.save (g : Game) (e : MeshEnv) (l : Level) (w : Ws) : Except Fail Ws := do
  let w := w.u32 (if g = .g1 then 0x2090000 else 0x4090000)
  let sizeOff : Nat := w.pos % 2 ^ 32
  let w := w.u32 0
  let w ← l.mesh.save g e.start e.finish e.order w
  let w ← l.bsp.save (g = .g1) w
  let size := BitVec.ofInt 32 ((w.pos : Int) - sizeOff - 4)
  let w := w.seek sizeOff .beg
  let w := w.u32 size
  return w.seek size.toNat .cur

/-- A writer of archives that gives access to its stream (`include/zenkit/Archive.hh:300`). -/
structure Writer (ω : Type) where
  call : ω → Call → Except Fail ω
  stream : (Ws → Except Fail Ws) → ω → Except Fail ω

def binWriter : Writer Bin.Wr where
  call a c := match Bin.call a c with
    | some a => .ok a
    | none => .error .ub
  stream p a := do return { a with ws := ← p a.ws }

def bsWriter : Writer Bs.Wr where
  call a c := .ok (Bs.call a c)
  stream p a := do return { a with ws := ← p a.ws }

def ascWriter : Writer Asc.Wr where
  call a c := .ok (Asc.call a c)
  stream p a := do return { a with ws := ← p a.ws }

/-- `WriteArchive::write_object` (`src/Archive.cc:576-591`) for a world that is not part of a saved game: `World::save`
(`src/World.cc:176-247`) with the mesh. -/
def savePlain {ω : Type} (W : Writer ω) (c : Ctx) (e : MeshEnv) (H : GHeap) (kids : Kids) (fuel : Nat) (name : Bytes) (l : Level) (w : World)
    (g : GWr) (x : ω) : Except Fail (ω × GWr) := do
  let x ← W.call x (.begin name className versionId)
  let x ← W.call x (.begin b!"MeshAndBsp" [] 0)
  let x ← W.stream (l.save c.game e) x
  let x ← W.call x .finish
  let (cs, g) ← w.save c H kids fuel ⟨g.index + 1, g.cache⟩
  let x ← cs.foldlM W.call x
  let x ← W.call x .finish
  return (x, g)

/-! ## Loading -/

/-- A reader that gives access to its stream, as `get_stream` does (`include/zenkit/Archive.hh:240-242`). -/
structure RawReader (σ : Type) extends Reader σ where
  stream : {α : Type} → Rd α → σ → Except Fail (α × σ)

def binReader : RawReader Bin.Rr := { Bin.reader with stream := Bin.lift }

def bsReader : RawReader Rs := { Bs.reader with stream := fun p => p }

def ascReader : RawReader Rs := { Asc.reader with stream := fun p => p }

/-- The loop that looks for the end of the mesh (`src/World.cc:98-101`). At the end of the file all reads give 0. -/
def scanMesh : Nat → Rd Unit
  | 0 => Rd.fail .hang
  | fuel + 1 => do
    let type ← Rd.u16
    let size ← Rd.u32
    Rd.seek size.toNat .cur
    if type != 0xB060 then scanMesh fuel else return ()

/-- `triangulate` of the mesh (`src/Mesh.cc:33-36`). -/
def _root_.Verif.WholeMesh.fan (m : WholeMesh) (leaf : List (BitVec 32)) : Rd WholeMesh :=
  match m.core.triangulate leaf with
  | .ok core => return { m with core }
  | .error e => Rd.fail e

/-- The section of the mesh (`src/World.cc:89-114`); `wide`: the user is `XZEN`. -/
def _root_.Verif.Level.load (wide : Bool) (fuel : Nat) (l : Level) : Rd Level := do
  let version ← Rd.u32
  let _ ← Rd.u32
  let off ← Rd.tell
  scanMesh fuel
  let bsp ← Bsp.load (version = 0x2090000) l.bsp
  let end_ ← Rd.tell
  Rd.seek off .beg
  let mesh ← WholeMesh.load wide l.mesh
  let mesh ← mesh.fan bsp.leafPolygons
  Rd.seek end_ .beg
  return ⟨mesh, bsp⟩

/-! ### The sections -/

variable {σ : Type}

/-- The state of `World::load`: the archive, the objects it has made, who got which child, the world and its mesh. -/
structure Load (σ : Type) where
  s : σ
  g : GRd
  kids : Pushes
  w : World
  level : Level

/-- The loop over the roots (`src/World.cc:117-127`). -/
def loadRoots (r : Reader σ) (S : Schema) (fuel : Nat) : Nat → Load σ → Except Fail (Load σ)
  | 0, x => .ok x
  | n + 1, x => do
    let (p, s, g, kids) ← parse r S fuel fuel x.s x.g x.kids
    let w := match p with
      | none => x.w
      | some a => { x.w with vobs := x.w.vobs ++ [some a] }
    loadRoots r S fuel n { x with s, g, kids, w }

/-- The content of a section (`src/World.cc:89-133`), depending on its name. -/
def loadSection (r : RawReader σ) (S : Schema) (wide : Bool) (fuel : Nat) (name : Bytes) (x : Load σ) : Except Fail (Load σ) :=
  if name = b!"MeshAndBsp" then do
    let (level, s) ← r.stream (Level.load wide fuel x.level) x.s
    return { x with s, level }
  else if name = b!"VobTree" then do
    let (n, s) ← readInt r.toReader x.s
    loadRoots r.toReader S fuel (if n.toInt < 0 then 0 else n.toNat) { x with s }
  else if name = b!"WayNet" then do
    let (p, s, g) ← readObjectOf r.toReader S .zCWayNet fuel x.s x.g
    return { x with s, g, w := { x.w with wayNet := p } }
  else if name = b!"CutscenePlayer" then do
    let (p, s, g) ← readObjectOf r.toReader S .oCCSPlayer fuel x.s x.g
    return { x with s, g, w := { x.w with player := p } }
  else if name = b!"SkyCtrl" then do
    let (p, s, g) ← readObjectOf r.toReader S .zCSkyControler_Outdoor fuel x.s x.g
    return { x with s, g, w := { x.w with sky := p } }
  else return x

/-- The loop over the sections (`src/World.cc:76-148`). -/
def loadSections (r : RawReader σ) (S : Schema) (wide : Bool) (fuel : Nat) : Nat → Load σ → Except Fail (Load σ)
  | 0, _ => .error .hang
  | n + 1, x => do
    let (e, s) ← r.objEnd x.s
    if e then return { x with s }
    else
      match ← r.objBegin s with
      | (none, _) => .error (.throw .parser)
      | (some h, s) =>
        if h.name = b!"EndMarker" then do
          let (_, s) ← r.objEnd s
          return { x with s }
        else do
          let x ← loadSection r S wide fuel h.name { x with s }
          let (_, s) ← endOrSkip r.toReader x.s
          loadSections r S wide fuel n { x with s }

/-- The loop over the NPCs (`src/World.cc:154-156`). -/
def loadNpcs (r : Reader σ) (S : Schema) (fuel : Nat) : Nat → σ → GRd → Except Fail (List (Option Nat) × σ × GRd)
  | 0, s, g => .ok ([], s, g)
  | n + 1, s, g => do
    let (p, s, g) ← readObjectOf r S .oCNpc fuel s g
    let (ps, s, g) ← loadNpcs r S fuel n s g
    return (p :: ps, s, g)

/-- `read_vec3`. The case of another value does not occur. -/
def readVec3 (r : Reader σ) (s : σ) : Except Fail (Vec3 × σ) := do
  match ← r.val .vec3 s with
  | (.vec3 v, s) => return (v, s)
  | _ => .error .ub

/-- `read_float`. -/
def readFloat (r : Reader σ) (s : σ) : Except Fail (F32 × σ) := do
  match ← r.val .float s with
  | (.float v, s) => return (v, s)
  | _ => .error .ub

/-- `read_bool`. -/
def readBool (r : Reader σ) (s : σ) : Except Fail (Bool × σ) := do
  match ← r.val .bool s with
  | (.bool v, s) => return (v, s)
  | _ => .error .ub

/-- The loop over the spawn locations (`src/World.cc:162-166`). -/
def loadSpawns (r : Reader σ) (S : Schema) (fuel : Nat) : Nat → σ → GRd → Except Fail (List Spawn × σ × GRd)
  | 0, s, g => .ok ([], s, g)
  | n + 1, s, g => do
    let (npc, s, g) ← readObjectOf r S .oCNpc fuel s g
    let (position, s) ← readVec3 r s
    let (timer, s) ← readFloat r s
    let (l, s, g) ← loadSpawns r S fuel n s g
    return (⟨npc, position, timer⟩ :: l, s, g)

/-- The NPCs and spawn locations of a saved game (`src/World.cc:151-168`). `resize` with a negative number fails. -/
def loadTail (r : Reader σ) (S : Schema) (fuel : Nat) (x : Load σ) : Except Fail (Load σ) := do
  let (n, s) ← readInt r x.s
  let n ← reserve n
  let (npcs, s, g) ← loadNpcs r S fuel n s x.g
  let (k, s) ← readInt r s
  let k ← reserve k
  let (spawns, s, g) ← loadSpawns r S fuel k s g
  let (spawnEnabled, s) ← readBool r s
  return { x with s, g, w := { x.w with npcs, spawns, spawnEnabled } }

/-- The flags of Gothic 2 (`src/World.cc:170-172`). -/
def loadFlags (r : Reader σ) (x : Load σ) : Except Fail (Load σ) := do
  let (spawnFlags, s) ← readInt r x.s
  return { x with s, w := { x.w with spawnFlags } }

/-- `World::load(ReadArchive&, GameVersion)` (`src/World.cc:73-174`). Fuel: the number of sections, and what the functions called
need. -/
def load (r : RawReader σ) (S : Schema) (c : Ctx) (wide : Bool) (fuel : Nat) (x : Load σ) : Except Fail (Load σ) := do
  let x ← loadSections r S wide fuel fuel x
  if c.save then do
    let x ← loadTail r.toReader S fuel x
    if c.g2 then loadFlags r.toReader x else return x
  else return x

/-- `World::load(Read*, GameVersion)` (`src/World.cc:56-71`) from the first object on. `read_object` does the same for objects of
this class, but for the exception. -/
def loadObject (r : RawReader σ) (S : Schema) (c : Ctx) (wide : Bool) (fuel : Nat) (x : Load σ) : Except Fail (Load σ) := do
  match ← r.objBegin x.s with
  | (none, _) => .error (.throw .parser)
  | (some h, s) =>
    if h.cls = className then do
      let x ← load r S c wide fuel { x with s }
      let (_, s) ← endOrSkip r.toReader x.s
      return { x with s }
    else .error (.throw .parser)

/-! ### The version of a world -/

/-- `enum class GameVersion` as found in the section of the mesh (`src/World.cc:35-37`). -/
def gameOf (version : BitVec 32) : Game := if version = 0x4090000 then .g2 else .g1

/-- The loop of `determine_world_version` (`src/World.cc:32-45`). When `read_object_begin` fails, the name is that of the object
before. -/
def findVersion (r : RawReader σ) : Nat → Bytes → σ → Except Fail Game
  | 0, _, _ => .error .hang
  | fuel + 1, name, s => do
    let (e, s) ← r.objEnd s
    if e then return .g1
    else do
      let (h, s) ← r.objBegin s
      let name := match h with
        | some h => h.name
        | none => name
      if name = b!"MeshAndBsp" then do
        let (v, _) ← r.stream Rd.u32 s
        return gameOf v
      else do
        let (_, s) ← r.skipObj true s
        findVersion r fuel name s

/-- `determine_world_version` (`src/World.cc:23-46`) behind the header. -/
def determineVersion (r : RawReader σ) (save : Bool) (fuel : Nat) (s : σ) : Except Fail Game :=
  if save then .error (.throw .parser)
  else do
    let (h, s) ← r.objBegin s
    findVersion r fuel (match h with
      | some h => h.name
      | none => []) s

end World

end Verif
