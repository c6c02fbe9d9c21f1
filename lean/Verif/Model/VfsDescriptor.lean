import Verif.Base.Result

/-!
# Ownership of file descriptors

Model of the reference count of `VfsFileDescriptor` (`include/zenkit/Vfs.hh:39-51`, `src/Vfs.cc:41-58`) and of the readers that
`VfsNode::open_read` makes from it (`src/Vfs.cc:126-148`). Simplifications: a counter is a natural number; the bytes, sizes and
flags are in `Verif.Model.Vfs`.
-/

namespace Verif.VfsDescriptor

/-- A descriptor: `memory` and `refcnt` (null or a pointer to a counter). -/
structure Desc where
  memory : Nat
  refcnt : Option Nat
  deriving DecidableEq, Repr

/-- What was allocated: buffers (`true` while not freed), counters (`none` when freed); the variables that hold descriptors
(`none` when destroyed) and the buffers that readers read. -/
structure State where
  buffers : List Bool := []
  counters : List (Option Nat) := []
  descs : List (Option Desc) := []
  readers : List Nat := []
  deriving DecidableEq, Repr

inductive Op where
  /-- A new buffer and a descriptor for it, `del` or not. -/
  | make (del : Bool)
  /-- Copy construction. -/
  | copy (i : Nat)
  | destroy (i : Nat)
  /-- Copy assignment: `descs[i] = descs[j]`. -/
  | assign (i j : Nat)
  /-- `open_read` on a node that holds `descs[i]`. -/
  | open_ (i : Nat)
  /-- A byte is read through a reader. -/
  | read (r : Nat)
  deriving DecidableEq, Repr

/-- A living variable. -/
def State.get (s : State) (i : Nat) : Except Fail Desc :=
  match s.descs[i]? with
  | some (some d) => .ok d
  | _ => .error .ub

/-- `VfsFileDescriptor(mem, len, del, ...)` (`src/Vfs.cc:41-42`) with a buffer made for it. -/
def State.make (s : State) (del : Bool) : State :=
  { s with
    buffers := s.buffers ++ [true]
    counters := if del then s.counters ++ [some 1] else s.counters
    descs := s.descs ++ [some ⟨s.buffers.length, if del then some s.counters.length else none⟩] }

/-- `VfsFileDescriptor(VfsFileDescriptor const&)` (`src/Vfs.cc:44-48`). -/
def State.copyOf (s : State) (d : Desc) : Except Fail State :=
  match d.refcnt with
  | none => .ok { s with descs := s.descs ++ [some d] }
  | some c =>
    match s.counters[c]? with
    | some (some n) => .ok { s with counters := s.counters.set c (some (n + 1)), descs := s.descs ++ [some d] }
    | _ => .error .ub

/-- `~VfsFileDescriptor()` (`src/Vfs.cc:50-58`); `delete[]` of a freed buffer is undefined. -/
def State.release (s : State) (d : Desc) : Except Fail State :=
  match d.refcnt with
  | none => .ok s
  | some c =>
    match s.counters[c]? with
    | some (some n) =>
      if n - 1 = 0 then
        if s.buffers[d.memory]? = some true then
          .ok { s with buffers := s.buffers.set d.memory false, counters := s.counters.set c none }
        else .error .ub
      else .ok { s with counters := s.counters.set c (some (n - 1)) }
    | _ => .error .ub

/-- One operation. There is no assignment operator in `include/zenkit/Vfs.hh:39-51`, so the compiler's copies the members.
`open_read` (`src/Vfs.cc:126-148`) copies the descriptor, makes a reader of its memory and destroys the copy. -/
def State.step (s : State) : Op → Except Fail State
  | .make del => .ok (s.make del)
  | .copy i => do s.copyOf (← s.get i)
  | .destroy i => do
    let d ← s.get i
    State.release { s with descs := s.descs.set i none } d
  | .assign i j => do
    let _ ← s.get i
    let d ← s.get j
    return { s with descs := s.descs.set i (some d) }
  | .open_ i => do
    let d ← s.get i
    let s ← s.copyOf d
    State.release { s with descs := s.descs.dropLast, readers := s.readers ++ [d.memory] } d
  | .read r =>
    match s.readers[r]? with
    | some m => if s.buffers[m]? = some true then .ok s else .error .ub
    | none => .error .ub

def State.run (s : State) : List Op → Except Fail State
  | [] => .ok s
  | o :: os => do State.run (← s.step o) os

end Verif.VfsDescriptor
