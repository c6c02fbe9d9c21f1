import Verif.Model.Daedalus

/-!
# Flags of symbols the host may set
-/

namespace Verif.Daedalus

/-- `DaedalusSymbol::set_access_trap_enable` (`src/DaedalusScript.cc:608-613`). -/
def Sym.setAccessTrap (enable : Bool) (s : Sym) : Sym :=
  { s with flags := if enable then s.flags ||| 64#32 else s.flags &&& ~~~64#32 }

/-- `DaedalusSymbol::set_local_variables_enable` (`src/DaedalusScript.cc:615-620`). -/
def Sym.setLocals (enable : Bool) (s : Sym) : Sym :=
  { s with flags := if enable then s.flags ||| 128#32 else s.flags &&& ~~~128#32 }

end Verif.Daedalus
