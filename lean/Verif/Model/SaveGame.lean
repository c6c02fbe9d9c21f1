import Verif.Model.ObjAny
import Verif.Model.ArchiveAscii
import Verif.Model.ArchiveBinary
import Verif.Model.ArchiveBinsafe
import Verif.Model.ArchiveHeader
import Verif.Model.Texture
import Verif.Model.Vfs
import Verif.Spec.ObjAny

/-!
# Saved games: `src/SaveGame.cc`

A saved game is a directory with some files. The world is written to an archive of its own; here its content is a given sequence of bytes.
-/

namespace Verif.SaveGame

open Verif.Ar Verif.Obj

/-! ### Directories

The file system has directories, and directories have files; file names are case-sensitive. A path is given by its components, as the
iterator of `std::filesystem::path` gives them: `a/` has the components `a` and the empty one. Simplification: there are no symbolic
links, and no path has the component `..`. -/

abbrev Path := List Bytes

/-- The files of a directory: names and contents. The order has no meaning. -/
abbrev Dir := List (Bytes × Bytes)

/-- The directories, by their resolved paths. -/
abbrev Fs := List Bytes → Option Dir

/-- Which directory a path denotes: the components `.` and the empty one do not count. -/
def resolve (p : Path) : List Bytes := p.filter fun c => c ≠ [] ∧ c ≠ b!"."

/-- Creating or replacing a file. -/
def Dir.put (d : Dir) (n c : Bytes) : Dir := (n, c) :: d.filter fun f => f.1 ≠ n

/-- The content of the file with exactly this name. -/
def Dir.get (d : Dir) (n : Bytes) : Option Bytes := d.lookup n

/-- Steps of the library and the operating system that change the file system. -/
inductive Op where
  /-- `std::filesystem::remove_all`. -/
  | removeAll (p : Path)
  /-- `std::filesystem::copy` with `recursive`. -/
  | copy (src dst : Path)
  /-- `std::filesystem::create_directories`. -/
  | mkdirs (p : Path)
  /-- Opening a file for writing; it is empty afterwards. -/
  | create (p : Path) (n : Bytes)
  /-- Writing the content and closing the file. -/
  | fill (p : Path) (n c : Bytes)
  deriving DecidableEq, Repr

/-- Writing to a file in a directory; without the directory nothing happens. -/
def Fs.setFile (fs : Fs) (p : Path) (n c : Bytes) : Fs := fun q => if q = resolve p then (fs q).map (Dir.put · n c) else fs q

/-- The file system after a step. Simplification: the target of a copy is neither inside of the source nor around it. -/
def Op.after : Op → Fs → Fs
  | .removeAll p, fs => fun q => if resolve p <+: q then none else fs q
  | .copy src dst, fs => fun q => if resolve dst <+: q then fs (resolve src ++ q.drop (resolve dst).length) else fs q
  | .mkdirs p, fs => fun q => if q <+: resolve p then some ((fs q).getD []) else fs q
  | .create p n, fs => fs.setFile p n []
  | .fill p n c, fs => fs.setFile p n c

/-- The file systems that can be found when the process stops while it is at a step. -/
def Op.during : Op → Fs → Fs → Prop
  | .removeAll p, fs, fs' => ∀ q, fs' q = fs q ∨ resolve p <+: q
  | .copy _ dst, fs, fs' => ∀ q, fs' q = fs q ∨ resolve dst <+: q
  | .mkdirs p, fs, fs' => ∀ q, fs' q = fs q ∨ (q <+: resolve p ∧ fs q = none ∧ fs' q = some [])
  | .create p n, fs, fs' => fs' = fs ∨ fs' = fs.setFile p n []
  | .fill p n _, fs, fs' => ∃ x, fs' = fs.setFile p n x

def runOps (ops : List Op) (fs : Fs) : Fs := ops.foldl (fun fs op => op.after fs) fs

/-- `operator<` of file names: `std::string_view::compare`. -/
def nameLt : Bytes → Bytes → Bool
  | [], [] => false
  | [], _ :: _ => true
  | _ :: _, [] => false
  | a :: as, b :: bs => a < b || (a = b && nameLt as bs)

/-- The lesser of two files, for the order of `std::set`. -/
def firstOf (a : Bytes × Bytes) : Option (Bytes × Bytes) → Bytes × Bytes
  | none => a
  | some b => if nameLt b.1 a.1 then b else a

/-- `find_file_matching` (`src/SaveGame.cc:253-264`): the first of the files whose name matches, in the order of names, which is the
order of the set filled by `src/SaveGame.cc:284-287`. -/
def findMatching (d : Dir) (name : Bytes) : Option (Bytes × Bytes) :=
  (d.filter fun f => Vfs.iequals f.1 name).foldr (fun f r => some (firstOf f r)) none

/-! ### Archives -/

/-- What the content of an archive depends on besides the calls: the date and the user when it is opened and when `write_header` is
called at the end, and what `std::to_chars` leaves in a buffer that is too small. -/
structure Clock where
  start : Ar.Env
  finish : Ar.Env
  junk : Bytes

/-- The content of an ASCII archive: the constructor writes a header, `write_header` replaces it
(`src/Archive.cc:543-561`, `src/SaveGame.cc:345-348, 367-370`). The constructor has not been told yet that this is a saved game. -/
def asciiFile (save : Bool) (k : Clock) (cs : List Call) : Bytes :=
  let w1 := Asc.writeHeader 0 false k.start 0 ⟨[], 0⟩
  let w2 := Asc.calls ⟨w1, 0, 0, k.junk⟩ cs
  (Asc.writeHeader 0 save k.finish w2.index w2.ws).data

/-- What `save` writes for the objects in memory. Objects that cannot be saved are missing. -/
def saved (c : Ctx) (T : Heap) : GHeap := fun a =>
  match T a with
  | none => none
  | some n =>
    match n.obj.save T.flag c with
    | .ok fs => some ⟨n.type, n.version, fs⟩
    | .error _ => none

/-- The content of an archive for some calls of `write_*` and `write_object`. Fuel: the number of objects, and one. -/
def archiveFile (c : Ctx) (k : Clock) (T : Heap) (fuel : Nat) (fs : List Field) : Except Fail Bytes := do
  let (cs, _) ← writeFields (writePtr (saved c T) fuel) fs ⟨0, []⟩
  return asciiFile c.save k cs

/-- The answers about objects that are needed to know which calls a program makes. -/
def anyEnv : Obj.Env Unit := ⟨fun _ _ => true, fun _ => true, fun _ => none, fun _ => false, ()⟩

/-- An object as `load` has left it. Objects of classes without a model have no members here. -/
def loadObject (c : Ctx) (heap : List (ObjectType × List Got)) (o : ObjectType × List Got) : Except Fail (Any Nat) :=
  match clsOf o.1 with
  | none => .ok .Visual
  | some k => (·.1) <$> (k.blank.load c (readEnv heap)).run (readEnv heap) (o.2.map Got.item)

/-- Running a `load` function on an archive, and the `load` functions of the objects in it. Simplification: the members of the objects
are set when everything has been read. -/
def readFrom {σ} {τ : Type → Type} (r : Reader σ) (c : Ctx) (p : (P : Type) → Obj.Env P → Ld P (τ P)) (fuel : Nat) (s : σ) :
    Except Fail (τ Nat × List (Any Nat)) := do
  let (gs, _, g) ← readFields r (readPtr r (schema c) fuel) (p Unit anyEnv).want fuel [] s ⟨[], []⟩
  let objs ← g.heap.mapM (loadObject c g.heap)
  let (x, _) ← (p Nat (readEnv g.heap)).run (readEnv g.heap) (gs.map Got.item)
  return (x, objs)

/-- Opening an archive and running a `load` function on it: `ReadArchive::from` chooses the reader (`src/Archive.cc:234-253`). -/
def readFile {τ : Type → Type} (game : Game) (p : Ctx → (P : Type) → Obj.Env P → Ld P (τ P)) (fuel : Nat) (data : Bytes) :
    Except Fail (τ Nat × List (Any Nat)) := do
  let (o, s) ← openArchive ⟨data, 0⟩
  let c : Ctx := ⟨game, o.header.save, true⟩
  match o.header.format with
  | .ascii => readFrom Asc.reader c (p c) fuel s
  | .binary => readFrom Bin.reader c (p c) fuel ⟨s, []⟩
  | .binsafe => readFrom Bs.reader c (p c) fuel s

/-! ### Saved games -/

/-- `SaveGame` (`include/zenkit/SaveGame.hh:129-146`). `heap` has the objects that the state has pointers to. -/
structure Game where
  version : Obj.Game
  info : SaveMetadata := {}
  state : SaveState Nat := {}
  heap : Heap := fun _ => none
  thumbnail : Option Tex.Texture := none
  path : Path := []

/-- The context of an archive that is not a saved game, and of one that is. -/
def Game.ctx (g : Game) (save : Bool) : Ctx := ⟨g.version, save, true⟩

/-- The metadata is an object with no pointers to it. -/
def infoHeap (m : SaveMetadata) : Heap := fun a => if a = 0 then some ⟨.oCSavegameInfo, 0, .SaveMetadata m⟩ else none

/-- SAVEINFO.SAV (`src/SaveGame.cc:343-349`). -/
def Game.infoFile (g : Game) (k : Clock) : Except Fail Bytes :=
  archiveFile (g.ctx false) k (infoHeap g.info) 2 [.ptr b!"%" (some 0)]

/-- SAVEDAT.SAV (`src/SaveGame.cc:365-371`). -/
def Game.dataFile (g : Game) (k : Clock) (fuel : Nat) : Except Fail Bytes := do
  archiveFile (g.ctx true) k g.heap fuel (← g.state.save (g.ctx true))

/-- THUMB.SAV (`src/SaveGame.cc:351-357`). -/
def Game.thumbFile (g : Game) : Bytes :=
  match g.thumbnail with
  | none => []
  | some t => (t.save ⟨[], 0⟩).data

/-- SAVEHDR.SAV (`src/SaveGame.cc:359-363`). -/
def headerFile (world : Bytes) : Bytes := world ++ b!".ZEN\n"

/-- Copying the game that was loaded before (`src/SaveGame.cc:330-341`). -/
def Game.prepare (g : Game) (path : Path) (fs : Fs) : List Op :=
  if g.path ≠ path then
    (if (fs (resolve path)).isSome then [.removeAll path] else []) ++
    (if g.path ≠ [] ∧ ((if (fs (resolve path)).isSome then (Op.removeAll path).after fs else fs) (resolve g.path)).isSome then
      [.copy g.path path] else [.mkdirs path])
  else []

def writeFile (path : Path) (n c : Bytes) : List Op := [.create path n, .fill path n c]

/-- The steps of `SaveGame::save` (`src/SaveGame.cc:329-379`); `content` is the archive with the world. Simplification: the contents of
the files are determined in advance, so that there is no step when saving fails. -/
def Game.steps (g : Game) (path : Path) (world content : Bytes) (k k' : Clock) (fuel : Nat) (fs : Fs) : Except Fail (List Op) := do
  let info ← g.infoFile k
  let data ← g.dataFile k' fuel
  return g.prepare path fs ++ (writeFile path b!"SAVEINFO.SAV" info ++ (writeFile path b!"THUMB.SAV" g.thumbFile ++
    (writeFile path b!"SAVEHDR.SAV" (headerFile world) ++ (writeFile path b!"SAVEDAT.SAV" data ++
    writeFile path (world ++ b!".SAV") content))))

/-- `SaveGame::save` (`src/SaveGame.cc:329-382`). -/
def Game.save (g : Game) (path : Path) (world content : Bytes) (k k' : Clock) (fuel : Nat) (fs : Fs) : Except Fail (Game × Fs) := do
  let ops ← g.steps path world content k k' fuel fs
  return ({ g with path }, runOps ops fs)

/-- `*ar->read_object<SaveMetadata>(_m_version)` (`src/SaveGame.cc:300`): using a null pointer is undefined behaviour. -/
def loadInfo (game : Obj.Game) (fuel : Nat) (data : Bytes) : Except Fail SaveMetadata := do
  let (p, objs) ← readFile (τ := Option) game (fun _ _ _ => Ld.objAs .oCSavegameInfo) fuel data
  match p.bind fun n => objs[n]? with
  | some (.SaveMetadata m) => return m
  | _ => .error .ub

/-- What `SaveState::load` leaves in a state that had content before: `missions` and the values of symbols are not emptied first
(`src/SaveGame.cc:102, 145, 152-157`). -/
def mergeState (old new : SaveState Nat) : SaveState Nat :=
  { new with
    missions := old.missions ++ new.missions
    symbols := new.symbols.mapIdx fun i s => { s with values := ((old.symbols[i]?).map SymbolState.values).getD [] ++ s.values } }

/-- The thumbnail (`src/SaveGame.cc:303-312`): without a file it stays as it was. -/
def thumbOf (old : Option Tex.Texture) (d : Dir) : Except Fail (Option Tex.Texture) :=
  match findMatching d b!"THUMB.SAV" with
  | none => .ok old
  | some f2 => (fun x => some x.1) <$> Tex.Texture.load {} ⟨f2.2, 0⟩

/-- `SaveGame::load` (`src/SaveGame.cc:277-327`). The result has the objects made from SAVEDAT.SAV, which the state of
the game points to, besides the game; `heap` is not changed. Simplification:
nothing is said about the game when there is an exception. -/
def Game.load (g : Game) (path : Path) (fuel : Nat) (fs : Fs) : Except Fail (Game × List (Any Nat)) := do
  match fs (resolve path) with
  | none => .error (.throw .parser)
  | some d =>
    match findMatching d b!"SAVEINFO.SAV" with
    | none => .error (.throw .parser)
    | some f1 =>
      let info ← loadInfo g.version fuel f1.2
      let thumbnail ← thumbOf g.thumbnail d
      match findMatching d b!"SAVEDAT.SAV" with
      | none => .error (.throw .parser)
      | some f3 =>
        let (state, objs) ← readFile (τ := SaveState) g.version (fun c _ _ => SaveState.load c) fuel f3.2
        return ({ g with info, thumbnail, path, state := mergeState g.state state }, objs)

/-- `std::filesystem::path::replace_extension("SAV")` of a file name: the extension starts at the last dot, unless that is the first
character. -/
def replaceExtension (n : Bytes) : Bytes :=
  let ext := n.reverse.takeWhile (· ≠ 46)
  let stem := n.take (n.length - ext.length - 1)
  (if ext.length < n.length ∧ stem ≠ [] then stem else n) ++ b!".SAV"

/-- `SaveGame::load_world(world_name)` (`src/SaveGame.cc:266-275`), up to the archive that it opens: none if there is none. -/
def Game.worldFile (g : Game) (name : Bytes) (fs : Fs) : Option Bytes :=
  (fs (resolve g.path)).bind fun d => d.get (replaceExtension name)

/-- `SaveGame::load_world()` (`src/SaveGame.cc:384-386`). -/
def Game.ownWorldFile (g : Game) (fs : Fs) : Option Bytes := g.worldFile (g.info.world ++ b!".ZEN") fs

end Verif.SaveGame
