import Verif.Model.DaedalusVm

/-!
# What a host can look at in a machine

`instruction_at` and `size` are members of `DaedalusScript`, which `DaedalusVm` inherits; a host calls them to print or to check code. They
use the reader the interpreter itself uses.
-/

namespace Verif.Daedalus

/-- `DaedalusScript::instruction_at` (`src/DaedalusScript.cc:121-124`) called by the host. -/
def look (address : BitVec 32) : M Instr := fun v =>
  match instructionAt v.text v.textPos address.toNat with
  | .ok (i, pos) => (.ok i, { v with textPos := pos })
  | .error e => (.error e, v)

/-- The body of `DaedalusScript::size` on the reader of the code (`src/DaedalusScript.cc:281-287`). -/
def measure : Rd Nat := do
  let off ← Rd.tell
  Rd.seek 0 .end_
  let size ← Rd.tell
  Rd.seek off .beg
  return size

/-- `DaedalusScript::size` (`src/DaedalusScript.cc:281-287`) called by the host. -/
def codeSize : M (BitVec 32) := fun v =>
  match measure ⟨v.text, v.textPos⟩ with
  | .ok (n, s) => (.ok (BitVec.ofNat 32 n), { v with textPos := s.pos })
  | .error e => (.error e, v)

/-- A host all of whose functions look at the instruction at an address before they do their work. -/
def lookingHost (address : BitVec 32) (h : Host) : Host where
  external y := (h.external y).map fun p => do let _ ← look address; p
  override_ a := (h.override_ a).map fun p => do let _ ← look address; p
  default_ := h.default_.map fun d y => do let _ ← look address; d y
  trap := h.trap.map fun d y => do let _ ← look address; d y
  handler := h.handler

end Verif.Daedalus
