import Verif.Model.ScriptClasses
import Verif.Spec.DaedalusMember

/-!
# What the classes of the game scripts are bound to (C92)
-/

namespace Verif.Spec.ScriptClasses

open Verif.Daedalus Verif.ScriptClasses Verif.Spec.Daedalus

/-- A name without underscores, in capital letters. -/
def squash (name : Bytes) : Bytes := (name.map toupper).filter (· ≠ 95)

/-- The members whose field has another name: the class, the member and the field. -/
def renamed : List (Bytes × Bytes × Bytes) :=
  [(b!"C_NPC", b!"NPCTYPE", b!"type"), (b!"C_ITEM", b!"SCEMENAME", b!"scheme_name"),
   (b!"C_SVM", b!"DOESNTWORK", b!"doesnt_mork"), (b!"C_SVM", b!"stolefrommage", b!"stole_urom_mage")]

/-- The arrays of the classes of the games: as many elements as there are guilds (`GIL_MAX`), attributes, kinds of damage, lines of
text of an item and so on. -/
def arrays : List (Bytes × Bytes × Nat) :=
  [(b!"C_NPC", b!"name", 5), (b!"C_NPC", b!"attribute", 8), (b!"C_NPC", b!"hitchance", 5), (b!"C_NPC", b!"protection", 8),
   (b!"C_NPC", b!"damage", 8), (b!"C_NPC", b!"mission", 5), (b!"C_NPC", b!"aivar", 100),
   (b!"C_ITEM", b!"damage", 8), (b!"C_ITEM", b!"protection", 8), (b!"C_ITEM", b!"cond_atr", 3), (b!"C_ITEM", b!"cond_value", 3),
   (b!"C_ITEM", b!"change_atr", 3), (b!"C_ITEM", b!"change_value", 3), (b!"C_ITEM", b!"on_state", 4), (b!"C_ITEM", b!"text", 6),
   (b!"C_ITEM", b!"count", 6), (b!"C_MENU", b!"items", 150), (b!"C_MENU_ITEM", b!"text", 10),
   (b!"C_MENU_ITEM", b!"on_sel_action", 5), (b!"C_MENU_ITEM", b!"on_sel_action_s", 5), (b!"C_MENU_ITEM", b!"on_event_action", 10),
   (b!"C_MENU_ITEM", b!"user_float", 4), (b!"C_MENU_ITEM", b!"user_string", 4), (b!"CFX_BASE", b!"user_string", 5),
   (b!"C_FIGHTAI", b!"move", 6)]

/-- The number of elements of a field. -/
def elements (symbol field : Bytes) : Nat :=
  if symbol = b!"C_GILVALUES" then 66
  else match arrays.find? fun a => a.1 == symbol && a.2.1 == field with
    | some a => a.2.2
    | none => 1

/-- The `i`-th class is `c`, it is in the script, `r` is one of its members, and the script is one of those that have the member. -/
def Asked (syms : List Sym) (i : Nat) (c : ScriptClass) (r : Reg) : Prop :=
  scriptClasses[i]? = some c ∧ (findByName syms c.symbol).isSome ∧ r ∈ c.regs ∧
    ∀ g, r.guard = some g → (findByName syms (c.symbol ++ b!"." ++ g)).isSome

/-- The `k`-th field of the `i`-th class is `d`, and `f` is what the compiler makes of it. -/
def Compiled (place : Nat → Nat → Nat) (i : Nat) (c : ScriptClass) (name : Bytes) (f : Field) : Prop :=
  ∃ (k : Nat) (d : FieldDecl), c.fields[k]? = some d ∧ d.name = name ∧ f = ⟨i, d.type, d.elems, place i k⟩

/-- The script declares the members of its classes as the classes need it: each belongs to the symbol of its class, has no more
elements than its field and the same type. -/
def WellDeclared (syms : List Sym) : Prop :=
  ∀ i c r, Asked syms i c r → ∃ (y q : Nat) (s : Sym) (d : FieldDecl), findByName syms (c.symbol ++ b!"." ++ r.member) = some y ∧
    findByName syms c.symbol = some q ∧ d ∈ c.fields ∧ d.name = r.field ∧ syms[y]? = some s ∧ s.isMember = true ∧
    s.parent.toNat = q ∧ s.count.toNat ≤ d.elems ∧
    (match d.type with
      | .string => s.type = .string
      | .float => s.type = .float
      | .int => s.type = .int ∨ s.type = .function)

end Verif.Spec.ScriptClasses
