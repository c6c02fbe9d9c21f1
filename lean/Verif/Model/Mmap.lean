import Verif.Base.Result

/-!
# Files that are mapped into memory

Model of `zenkit::Mmap` (`include/zenkit/Mmap.hh:7-32`, `src/MmapPosix.cc:11-50`) and of what the operating system does for it.
Simplifications: a file does not change while it is mapped; `std::runtime_error` is written as `Exc.filesystem`, one of the classes derived
from it; `close` does not fail; `_m_platform_handle`, which nothing reads, is left out. The implementation for Windows
(`src/MmapWin32.cc`) is not modelled.
-/

namespace Verif.Mmap

/-- What the system says about a path: whether it can be opened, the size of `fstat` (`none` if it fails) and the bytes that can be
mapped (`none` for what cannot be mapped, like a directory). -/
structure Path where
  opens : Bool
  stat : Option Nat
  bytes : Option Bytes
  deriving DecidableEq, Repr

/-- `nullptr`, `MAP_FAILED` or the address of a mapping. -/
inductive Ptr where
  | null
  | failed
  | at (id : Nat)
  deriving DecidableEq, Repr

/-- `_m_data` and `_m_size`; also what is kept of them by a reader or a file of a `Vfs`. -/
structure Obj where
  data : Ptr
  size : Nat
  deriving DecidableEq, Repr

/-- The mappings (`none` when unmapped), the number of open file descriptors, the variables of class `Mmap` (`none` when destroyed) and
the copies of `data()` and `size()` that were taken. -/
structure World where
  maps : List (Option Bytes) := []
  fds : Nat := 0
  vars : List (Option Obj) := []
  ptrs : List Obj := []
  deriving DecidableEq, Repr

inductive Op where
  /-- `Mmap v {path};` -/
  | new (p : Path)
  /-- `Mmap v {std::move(vars[i])};` -/
  | move (i : Nat)
  | destroy (i : Nat)
  /-- Copies of `vars[i].data()` and `vars[i].size()`. -/
  | take (i : Nat)
  /-- All bytes are read through `ptrs[k]`. -/
  | read (k : Nat)
  deriving DecidableEq, Repr

/-- `Mmap::Mmap(path)` (`src/MmapPosix.cc:12-34`). `mmap` refuses the length 0 and what is no file; it says so with `MAP_FAILED`, but the
code compares with `nullptr`. -/
def World.new (w : World) (p : Path) : World × Except Fail Obj :=
  if p.opens = false then (w, .error (.throw .filesystem))
  else
    let w := { w with fds := w.fds + 1 }
    match p.stat with
    | none => (w, .error (.throw .filesystem))
    | some size =>
      match p.bytes with
      | none => ({ w with fds := w.fds - 1 }, .ok ⟨.failed, size⟩)
      | some b =>
        if size = 0 then ({ w with fds := w.fds - 1 }, .ok ⟨.failed, size⟩)
        else ({ w with fds := w.fds - 1, maps := w.maps ++ [some (b.take size)] }, .ok ⟨.at w.maps.length, size⟩)

/-- A living variable. -/
def World.get (w : World) (i : Nat) : Except Fail Obj :=
  match w.vars[i]? with
  | some (some o) => .ok o
  | _ => .error .ub

/-- `Mmap::~Mmap()` (`src/MmapPosix.cc:44-50`). `munmap` of `MAP_FAILED` fails and changes nothing; to unmap what is not mapped, or
only a part of a mapping, is outside of the model. -/
def World.unmap (w : World) (o : Obj) : Except Fail World :=
  match o.data with
  | .at id =>
    match w.maps[id]? with
    | some (some b) => if b.length = o.size then .ok { w with maps := w.maps.set id none } else .error .ub
    | _ => .error .ub
  | _ => .ok w

/-- The bytes from `data` to `data + size`. -/
def World.bytes (w : World) (o : Obj) : Except Fail Bytes :=
  match o.data with
  | .at id =>
    match w.maps[id]? with
    | some (some b) => if o.size ≤ b.length then .ok (b.take o.size) else .error .ub
    | _ => .error .ub
  | _ => if o.size = 0 then .ok [] else .error .ub

/-- One operation: the state afterwards and the bytes that were read, or how it failed. Move construction is
`src/MmapPosix.cc:36-42`. -/
def World.step (w : World) : Op → World × Except Fail Bytes
  | .new p =>
    match w.new p with
    | (w, .ok o) => ({ w with vars := w.vars ++ [some o] }, .ok [])
    | (w, .error e) => (w, .error e)
  | .move i =>
    match w.get i with
    | .ok o => ({ w with vars := w.vars.set i (some ⟨.null, 0⟩) ++ [some o] }, .ok [])
    | .error e => (w, .error e)
  | .destroy i =>
    match w.get i with
    | .ok o =>
      match w.unmap o with
      | .ok w => ({ w with vars := w.vars.set i none }, .ok [])
      | .error e => (w, .error e)
    | .error e => (w, .error e)
  | .take i =>
    match w.get i with
    | .ok o => ({ w with ptrs := w.ptrs ++ [o] }, .ok [])
    | .error e => (w, .error e)
  | .read k =>
    match w.ptrs[k]? with
    | some o => (w, w.bytes o)
    | none => (w, .error .ub)

/-- A history: the state at its end and what every operation gave; it stops at the first failure. -/
def World.run (w : World) : List Op → World × Except Fail (List Bytes)
  | [] => (w, .ok [])
  | o :: os =>
    match w.step o with
    | (w, .error e) => (w, .error e)
    | (w, .ok b) =>
      match World.run w os with
      | (w, .error e) => (w, .error e)
      | (w, .ok bs) => (w, .ok (b :: bs))

/-- `ReadMmap` (`src/Stream.cc:304-312`): the object that is made from the path is the argument of the second constructor, which copies its
address and size, moves it into the member, and destroys it. `n` is the number of variables and `k` the number of copies before. -/
def readerOps (n : Nat) (p : Path) : List Op := [.new p, .take n, .move n, .destroy n]

/-- `_m_data_mapped.emplace_back(path)` (`src/Vfs.cc:408, 556`) when the vector has to grow and holds the variables `vs`: the new object is
made, the others are moved one by one and destroyed. -/
def growOps (p : Path) (vs : List Nat) : List Op := .new p :: (vs.map Op.move ++ vs.map Op.destroy)

end Verif.Mmap
