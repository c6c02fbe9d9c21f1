import Verif.Base.Bytes
import Verif.Base.Result

/-! # Lookup in cutscene libraries: `src/CutsceneLibrary.cc` -/

namespace Verif

/-- `std::lower_bound` on a random access range with a predicate that may fail: the search in `[first, first + len)`. Fuel: `len`. -/
def lowerBoundBy {α} (less : α → Except Fail Bool) (l : List α) : Nat → Nat → Nat → Except Fail Nat
  | 0, first, _ => .ok first
  | fuel + 1, first, len =>
    if len = 0 then .ok first
    else match l[first + len / 2]? with
      | some y => do
        if ← less y then lowerBoundBy less l fuel (first + len / 2 + 1) (len - len / 2 - 1)
        else lowerBoundBy less l fuel first (len / 2)
      | none => .error .ub

/-- A block as far as the lookup is concerned: its name (`include/zenkit/CutsceneLibrary.hh:47-52`) and `val` for everything else. -/
structure CsBlock where
  name : Bytes
  val : Nat
  deriving DecidableEq, Repr

/-- `it->name < n` (`src/CutsceneLibrary.cc:108-110`); the pointer may be null. -/
def CsBlock.less (n : Bytes) (b : Option CsBlock) : Except Fail Bool :=
  match b with
  | some b => .ok (b.name < n)
  | none => .error .ub

/-- `CutsceneLibrary::block_by_name` (`src/CutsceneLibrary.cc:106-117`). -/
def blockByName (blocks : List (Option CsBlock)) (n : Bytes) : Except Fail (Option CsBlock) := do
  let i ← lowerBoundBy (CsBlock.less n) blocks blocks.length 0 blocks.length
  match blocks[i]? with
  | some b => .ok b
  | none => .ok none

/-- The `std::sort` at the end of `CutsceneLibrary::load` (`src/CutsceneLibrary.cc:128-130`). The comparison reads through both
pointers. The order of blocks with equal names is not specified; the model keeps them in order. -/
def sortBlocks (blocks : List (Option CsBlock)) : Except Fail (List (Option CsBlock)) :=
  if blocks.length ≤ 1 then .ok blocks
  else if blocks.all Option.isSome then
    .ok (blocks.mergeSort fun a b => match a, b with
      | some a, some b => a.name ≤ b.name
      | _, _ => true)
  else .error .ub

end Verif
