import Verif.Model.VfsHost

/-!
# The memory behind the files of a Vfs

`Vfs::mount_disk` for paths and readers, with the blocks of memory that a `Vfs` keeps (`_m_data` and `_m_data_mapped`,
`include/zenkit/Vfs.hh:213-218`) until it is destroyed. Simplifications: blocks are told apart by their bytes; that mapped files stay where
they are when `_m_data_mapped` grows is in `Verif.Model.Mmap`; the file system is not copied or moved.
-/

namespace Verif.Vfs

/-- A `Vfs`: its tree and the blocks of memory that it keeps. -/
structure Fs where
  root : Node := empty
  owned : List Bytes := []

/-- `Vfs::mount_disk(path, overwrite)` (`src/Vfs.cc:406-419`): the file is mapped, or read into memory, before it is mounted.
`content` is `none` for a file that cannot be opened; without memory mapping it is assumed to exist. -/
def Fs.mountPath (unixTime : BitVec 32 → Int) (fuel : Nat) (content : Option Bytes) (o : Overwrite) (fs : Fs) : Fs × Except Fail Unit :=
  match content with
  | none => (fs, .error (.throw .filesystem))
  | some b =>
    let (root, r) := mountDisk unixTime fuel b o fs.root
    (⟨root, fs.owned ++ [b]⟩, r)

/-- `Vfs::mount_disk(Read*, overwrite)` (`src/Vfs.cc:434-443`): the block that the reader's bytes are copied to becomes part of the `Vfs`
behind the mount. When an exception leaves the mount it is freed. -/
def Fs.mountRead (unixTime : BitVec 32 → Int) (fuel : Nat) (content : Bytes) (o : Overwrite) (fs : Fs) : Fs × Except Fail Unit :=
  match mountDisk unixTime fuel content o fs.root with
  | (root, .ok _) => (⟨root, fs.owned ++ [content]⟩, .ok ())
  | (root, .error e) => (⟨root, fs.owned⟩, .error e)

mutual
/-- The files that `load_directory` maps or reads (`src/Vfs.cc:555-573`). -/
def Host.blocks : Host → List Bytes
  | .file _ _ c => if c.isEmpty then [] else [c]
  | .dir _ _ es => Host.blocksAll es
def Host.blocksAll : List Host → List Bytes
  | [] => []
  | h :: hs => h.blocks ++ Host.blocksAll hs
end

/-- `Vfs::mount_host` (`src/Vfs.cc:540-582`) for a directory with the entries `hs`. When `load_directory` fails, the blocks of the files in
front are kept as well; they are left out. -/
def Fs.mountHost (clock : Int) (hs : List Host) (parent : Bytes) (o : Overwrite) (fs : Fs) : Fs × Except Fail Unit :=
  match hostAll clock hs [] with
  | .error e => (fs, .error e)
  | .ok cs =>
    let (root, r) := mountEach parent o cs fs.root
    (⟨root, fs.owned ++ Host.blocksAll hs⟩, r)

/-- A change of the tree that keeps no memory: `mkdir`, `remove`, `mount` of a node, `mount_disk` of memory, `create` and `remove` of nodes. -/
def Fs.onRoot (f : Node → Node × Except Fail Unit) (fs : Fs) : Fs × Except Fail Unit :=
  let (root, r) := f fs.root
  (⟨root, fs.owned⟩, r)

end Verif.Vfs
