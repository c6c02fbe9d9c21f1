import Verif.Model.DaedalusLoad
import Verif.Model.DaedalusVm

/-!
# A machine for a loaded script

Model of the constructor of `DaedalusVm` (`src/DaedalusVm.cc:78-86`) and of `DaedalusScript::add_temporary_strings_symbol`
(`src/DaedalusScript.cc:269-279`). The pointers to `SELF` and the other global instances are lookups by name (`Verif.Daedalus.findByName`)
and not kept.
-/

namespace Verif.Daedalus

/-- `add_temporary_strings_symbol` (`src/DaedalusScript.cc:269-279`): the symbol at the end of a table of `n` symbols. -/
def tempSym (n : Nat) : Sym :=
  { name := b!"$PHOENIX_FAKE_STRINGS", generated := true, type := .string, count := 1, value := .strs [[]], index := BitVec.ofNat 32 n }

/-- `DaedalusVm::DaedalusVm` (`src/DaedalusVm.cc:78-86`); the flags are `DaedalusVmExecutionFlag` (`include/zenkit/DaedalusVm.hh:87-91`).
A script that was not loaded has no code, which the model takes for empty code. -/
def Script.machine (sc : Script) (nullOk ignoreConst : Bool) : Vm :=
  { syms := sc.syms.map LSym.sym ++ [tempSym sc.syms.length], text := sc.text.getD [], tmp := sc.syms.length, nullOk := nullOk,
    ignoreConst := ignoreConst }

end Verif.Daedalus
