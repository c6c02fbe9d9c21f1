import Verif.Model.ObjAny
import Verif.Model.Cutscene

/-! # Messages of cutscene libraries: `src/CutsceneLibrary.cc` -/

namespace Verif.Obj

open Verif.Ar

/-- The objects in memory, by address. -/
abbrev Mem := Nat → Option (Any Nat)

/-- The `CutsceneBlock` a pointer leads to; `Cutscene` and `CutsceneContext` are derived from it
(`include/zenkit/CutsceneLibrary.hh:112-138`). -/
def Mem.block (M : Mem) (a : Nat) : Option (Block Nat) :=
  match M a with
  | some (.Block b) => some b
  | some (.Context x) => some x.base
  | _ => none

/-- The `CutsceneAtomicBlock` a pointer leads to. -/
def Mem.atomic (M : Mem) (a : Nat) : Option (AtomicBlock Nat) :=
  match M a with
  | some (.AtomicBlock b) => some b
  | _ => none

/-- How the loop of `get_message` and `set_message` ends: with a null pointer to a block, or at the pointer to an atomic block. -/
inductive Inner where
  | nowhere
  | at (p : Option Nat)
  deriving DecidableEq, Repr

/-- The loop of `get_message` and `set_message` (`src/CutsceneLibrary.cc:48-54, 60-66`). Fuel: its rounds. -/
def innermost (M : Mem) : Nat → Nat → Except Fail Inner
  | 0, _ => .error .hang
  | fuel + 1, a =>
    match M.block a with
    | none => .error .ub
    | some b =>
      if b.atomic then .ok (.at b.block)
      else match b.block with
        | none => .ok .nowhere
        | some a => innermost M fuel a

/-- `CutsceneBlock::get_message` (`src/CutsceneLibrary.cc:47-57`). -/
def getMessage (M : Mem) (fuel : Nat) (a : Nat) : Except Fail (Option Nat) := do
  match ← innermost M fuel a with
  | .nowhere => return none
  | .at none => .error .ub
  | .at (some p) =>
    match M.atomic p with
    | some x => return x.message
    | none => .error .ub

/-- `CutsceneBlock::set_message` (`src/CutsceneLibrary.cc:59-69`). -/
def setMessage (M : Mem) (fuel : Nat) (a : Nat) (msg : Option Nat) : Except Fail Mem := do
  match ← innermost M fuel a with
  | .nowhere => return M
  | .at none => .error .ub
  | .at (some p) =>
    match M.atomic p with
    | some x => return fun q => if q = p then some (.AtomicBlock { x with message := msg }) else M q
    | none => .error .ub

/-- A pointer of the list of a library, as the lookup sees it: the name of the block, and its address. -/
def Mem.entry (M : Mem) : Option Nat → Except Fail (Option CsBlock)
  | none => .ok none
  | some a =>
    match M.block a with
    | some b => .ok (some ⟨b.name, a⟩)
    | none => .error .ub

/-- The `std::sort` at the end of `CutsceneLibrary::load` (`src/CutsceneLibrary.cc:127-130`), in the memory that there is when
everything has been loaded: the names of the blocks do not change after the `load` of the block. -/
def Library.sort (M : Mem) (x : Library Nat) : Except Fail (Library Nat) := do
  let l ← x.blocks.mapM M.entry
  let l ← sortBlocks l
  return ⟨l.map (Option.map CsBlock.val)⟩

/-- `CutsceneLibrary::block_by_name` (`src/CutsceneLibrary.cc:106-117`). -/
def Library.blockByName (M : Mem) (x : Library Nat) (n : Bytes) : Except Fail (Option Nat) := do
  let l ← x.blocks.mapM M.entry
  let b ← Verif.blockByName l n
  return b.map CsBlock.val

/-- What a call of `load` gave, for its program. -/
def itemOf : Got → Item Nat
  | .val v => .val v
  | .ptr p => .ptr p

/-- What `load` has left in memory for the objects that the reader has made. -/
def memOf (c : Ctx) (env : Env Nat) (heap : List (ObjectType × List Got)) : Mem := fun a =>
  match heap[a]? with
  | none => none
  | some (t, gs) =>
    match clsOf t with
    | none => none
    | some k =>
      match (k.blank.load c env).run env (gs.map itemOf) with
      | .ok (x, _) => some x
      | .error _ => none

end Verif.Obj
