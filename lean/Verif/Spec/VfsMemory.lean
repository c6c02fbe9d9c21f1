import Verif.Model.VfsMemory
import Verif.Spec.VfsDisk

/-!
# Specification: what was done to a file system, and the memory it rests on
-/

namespace Verif.Spec

open Verif.Vfs

/-- Calls that change a file system. The nodes that `mount` and `create` get were built by the caller, as was the memory that
`mountMemory` gets. -/
inductive FsOp where
  | mkdir (now : Int) (path : Bytes)
  | remove (path : Bytes)
  | mount (node : Node) (parent : Bytes) (o : Overwrite)
  /-- `resolve(path)->create(node)` -/
  | create (path : Bytes) (node : Node)
  /-- `resolve(path)->remove(name)` -/
  | removeAt (path name : Bytes)
  | mountMemory (fuel : Nat) (image : Bytes) (o : Overwrite)
  | mountRead (fuel : Nat) (image : Bytes) (o : Overwrite)
  | mountPath (fuel : Nat) (image : Option Bytes) (o : Overwrite)
  | mountHost (clock : Int) (entries : List Host) (parent : Bytes) (o : Overwrite)

/-- The call and how it ends. -/
def FsOp.run (unixTime : BitVec 32 → Int) (fs : Fs) : FsOp → Fs × Except Fail Unit
  | .mkdir now path => fs.onRoot fun r => match Vfs.mkdir now path r with | .ok (r, _) => (r, .ok ()) | .error e => (r, .error e)
  | .remove path => fs.onRoot fun r => match Vfs.remove path r with | .ok (r, _) => (r, .ok ()) | .error e => (r, .error e)
  | .mount node parent o => fs.onRoot fun r => match Vfs.mount node parent o r with | .ok r => (r, .ok ()) | .error e => (r, .error e)
  | .create path node => fs.onRoot fun r =>
    match resolveWith (Node.create node) (path.length + 1) r path with
    | .ok (some (r, _)) => (r, .ok ())
    | .ok none => (r, .ok ())
    | .error e => (r, .error e)
  | .removeAt path name => fs.onRoot fun r =>
    match resolveWith (Node.remove name) (path.length + 1) r path with
    | .ok (some (r, _)) => (r, .ok ())
    | .ok none => (r, .ok ())
    | .error e => (r, .error e)
  | .mountMemory fuel image o => fs.onRoot (mountDisk unixTime fuel image o)
  | .mountRead fuel image o => fs.mountRead unixTime fuel image o
  | .mountPath fuel image o => fs.mountPath unixTime fuel image o
  | .mountHost clock entries parent o => fs.mountHost clock entries parent o

/-- The memory that the caller hands over with a call and has to keep satisfies `lent`. -/
def FsOp.Lends (lent : Bytes → Prop) : FsOp → Prop
  | .mount node _ _ => Built node ∧ ∀ n t d, Inside node (.file n t d) → lent d.mem
  | .create _ node => Built node ∧ ∀ n t d, Inside node (.file n t d) → lent d.mem
  | .mountMemory _ image _ => lent image
  | _ => True

/-- A history of a file system. `failed` are the images that were mounted from a reader with an exception in the end. -/
inductive FsHistory (unixTime : BitVec 32 → Int) (lent : Bytes → Prop) : Fs → List Bytes → Prop
  | new : FsHistory unixTime lent {} []
  | step {fs : Fs} {failed : List Bytes} (op : FsOp) : FsHistory unixTime lent fs failed → op.Lends lent →
      (∀ fuel image o e, op = .mountRead fuel image o → (op.run unixTime fs).2 ≠ .error e) →
      FsHistory unixTime lent (op.run unixTime fs).1 failed
  | half {fs : Fs} {failed : List Bytes} (fuel : Nat) (image : Bytes) (o : Overwrite) (e : Fail) : FsHistory unixTime lent fs failed →
      ((FsOp.mountRead fuel image o).run unixTime fs).2 = .error e →
      FsHistory unixTime lent ((FsOp.mountRead fuel image o).run unixTime fs).1 (failed ++ [image])

end Verif.Spec
