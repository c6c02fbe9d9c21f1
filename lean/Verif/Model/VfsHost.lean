import Verif.Model.VfsDisk

/-!
# Mounting directories of the host

`Vfs::mount_host` of `src/Vfs.cc`. A directory of the host is the list of its entries in the order in which
`std::filesystem::directory_iterator` visits them, which is not specified. Simplifications: files can be read and do
not change meanwhile, there are no links, pipes or devices, and the time of an entry is a whole number of seconds.
-/

namespace Verif.Vfs

/-- An entry of a directory of the host; `time` is the time of its last change in seconds since 1970. -/
inductive Host where
  | file (name : Bytes) (time : Int) (content : Bytes)
  | dir (name : Bytes) (time : Int) (entries : List Host)

/-- `path.filename().string()`. -/
def Host.name : Host → Bytes
  | .file n _ _ => n
  | .dir n _ _ => n

/-- Does `load_directory` call `create` for the entry (`src/Vfs.cc:552-555`)? -/
def Host.creates : Host → Bool
  | .file _ _ c => !c.isEmpty
  | .dir .. => true

mutual
/-- The body of the loop of `load_directory` (`src/Vfs.cc:547-574`) for one entry: the children of `parent`
afterwards. `clock` is the number of seconds from the start of 1970 to the epoch of `std::chrono::file_clock`. -/
def hostOne (clock : Int) : Host → List Node → Except Fail (List Node)
  | .file n t c, cs =>
    if c.isEmpty then .ok cs
    else .ok (createIn (.file n (t - clock) (Desc.make c 0 c.length false 0)) cs).1
  | .dir n t es, cs =>
    match createIn (.dir n (t - clock) []) cs with
    | (cs, .file ..) => if es.any Host.creates then .error (.throw .badVariantAccess) else .ok cs
    | (cs, .dir n t kids) =>
      match hostAll clock es kids with
      | .error e => .error e
      | .ok kids => .ok (setReplace (.dir n t kids) cs)
/-- `load_directory` (`src/Vfs.cc:545-575`): the children of `parent` afterwards. -/
def hostAll (clock : Int) : List Host → List Node → Except Fail (List Node)
  | [], cs => .ok cs
  | h :: hs, cs =>
    match hostOne clock h cs with
    | .error e => .error e
    | .ok cs => hostAll clock hs cs
end

/-- The loop at the end of `mount_host` (`src/Vfs.cc:579-581`): the tree afterwards and how it ended. -/
def mountEach (parent : Bytes) (o : Overwrite) : List Node → Node → Node × Except Fail Unit
  | [], root => (root, .ok ())
  | x :: xs, root =>
    match mount x parent o root with
    | .error e => (root, .error e)
    | .ok root => mountEach parent o xs root

/-- `Vfs::mount_host` (`src/Vfs.cc:540-582`) for a directory with the entries `hs`. -/
def mountHost (clock : Int) (hs : List Host) (parent : Bytes) (o : Overwrite) (root : Node) : Node × Except Fail Unit :=
  match hostAll clock hs [] with
  | .error e => (root, .error e)
  | .ok cs => mountEach parent o cs root

/-- `Vfs::mount_host` (`src/Vfs.cc:540-582`) for a path at which `host` is found, if anything:
`std::filesystem::directory_iterator` throws for everything that is no directory. -/
def mountPath (clock : Int) (host : Option Host) (parent : Bytes) (o : Overwrite) (root : Node) : Node × Except Fail Unit :=
  match host with
  | some (.dir _ _ hs) => mountHost clock hs parent o root
  | _ => (root, .error (.throw .filesystem))

end Verif.Vfs
