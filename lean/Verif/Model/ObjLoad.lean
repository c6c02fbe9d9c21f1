import Verif.Model.ArchiveGraph

/-!
# The `load` and `save` functions of object classes

`save` makes calls of the archive one after the other (`Field`, see `Verif.Model.ArchiveGraph`). `load` is a program whose steps are
calls of the archive: what it gets decides how it continues. Programs are generic in the type of pointers, so that a program
cannot compare pointers or compute with them.
-/

namespace Verif.Obj

open Verif.Ar

/-- `GameVersion` (`include/zenkit/Misc.hh`). -/
inductive Game where
  | g1 | g2
  deriving DecidableEq, Repr

/-- What `load` and `save` get besides the object: the game, `is_save_game()` of the archive, and the setting of
`VirtualObject::enable_packed_save` (`src/vobs/VirtualObject.cc:12, 322-324`). -/
structure Ctx where
  game : Game
  save : Bool
  pack : Bool := true
  deriving DecidableEq, Repr

def Ctx.g2 (c : Ctx) : Bool := c.game = .g2

/-- What a program can ask about an object it has a pointer to. -/
structure Env (P : Type) where
  /-- `get_object_type() == t`. -/
  is : ObjectType → P → Bool
  /-- Whether the object is a `VirtualObject`: the result of `std::dynamic_pointer_cast<VirtualObject>` is not null. -/
  vob : P → Bool
  /-- Whether the object is a `Visual`, and the entry of `visual_type_map` for its type. -/
  visual : P → Option (BitVec 8)
  /-- `s_flags & 0x200` of an item (`src/vobs/Misc.cc:379, 541`). -/
  flag : P → Bool
  /-- `DEFAULT_VISUAL` (`src/vobs/VirtualObject.cc:11`). -/
  dflt : P

/-- What a call of the archive gave. -/
inductive Item (P : Type) where
  | val (v : Val)
  | ptr (p : Option P)
  deriving DecidableEq, Repr

/-- A field as it is read when objects have got other addresses. -/
def Field.item {P} (φ : Nat → P) : Field → Item P
  | .val _ v => .val v
  | .ptr _ p => .ptr (p.map φ)

/-- A program: it returns, fails, calls a `read_*` function, calls `read_object`, or calls `read_object<T>`, which throws
a `ParserError` unless the object is null or of type `t` (`include/zenkit/Archive.hh:135-143`). -/
inductive Ld (P : Type) (α : Type) where
  | ret (a : α)
  | fail (e : Fail)
  | val (k : Kind) (f : Val → Ld P α)
  | ptr (f : Option P → Ld P α)
  | ptrAs (t : ObjectType) (f : Option P → Ld P α)
  | skip (p : Ld P α)

namespace Ld

variable {P α β : Type}

def bind : Ld P α → (α → Ld P β) → Ld P β
  | .ret a, g => g a
  | .fail e, _ => .fail e
  | .val k f, g => .val k fun v => (f v).bind g
  | .ptr f, g => .ptr fun p => (f p).bind g
  | .ptrAs t f, g => .ptrAs t fun p => (f p).bind g
  | .skip p, g => .skip (p.bind g)

instance : Monad (Ld P) where
  pure := .ret
  bind := bind

/-- Running a program on what the calls give. A call that does not belong to the next item is not described here (`ub`); what the
formats do then is described by `Verif.Ar.readFields`. Skipping objects is described by `Verif.Obj.Ld.runOn` only. -/
def run (env : Env P) : Ld P α → List (Item P) → Except Fail (α × List (Item P))
  | .ret a, l => .ok (a, l)
  | .fail e, _ => .error e
  | .val k f, .val v :: l => if v.kind = k then run env (f v) l else .error .ub
  | .ptr f, .ptr p :: l => run env (f p) l
  | .ptrAs t f, .ptr p :: l =>
    match p with
    | none => run env (f none) l
    | some a => if env.is t a then run env (f (some a)) l else .error (.throw .parser)
  | _, _ => .error .ub

/-- The next call of a program that has seen some values: what `Verif.Ar.readFields` needs. -/
def want : Ld Unit α → List Seen → Option Want
  | .ret _, _ => none
  | .fail _, _ => none
  | .val k _, [] => some (.val k)
  | .ptr _, [] => some .ptr
  | .ptrAs _ _, [] => some .ptr
  | .val _ f, .val v :: l => want (f v) l
  | .ptr f, .null :: l => want (f none) l
  | .ptr f, .object :: l => want (f (some ())) l
  | .ptrAs _ f, .null :: l => want (f none) l
  | .ptrAs _ f, .object :: l => want (f (some ())) l
  | _, _ => none

/-! ### The calls -/

/-- `read_string()`; the result is the string of the value. The other functions are similar. -/
def str : Ld P Bytes := .val .string fun | .string v => .ret v | _ => .fail .ub
def int : Ld P (BitVec 32) := .val .int fun | .int v => .ret v | _ => .fail .ub
def float : Ld P F32 := .val .float fun | .float v => .ret v | _ => .fail .ub
def byte : Ld P (BitVec 8) := .val .byte fun | .byte v => .ret v | _ => .fail .ub
def word : Ld P (BitVec 16) := .val .word fun | .word v => .ret v | _ => .fail .ub
def enum : Ld P (BitVec 32) := .val .enum fun | .enum v => .ret v | _ => .fail .ub
def bool : Ld P Bool := .val .bool fun | .bool v => .ret v | _ => .fail .ub
def color : Ld P Color := .val .color fun | .color v => .ret v | _ => .fail .ub
def vec3 : Ld P Vec3 := .val .vec3 fun | .vec3 v => .ret v | _ => .fail .ub
def vec2 : Ld P Vec2 := .val .vec2 fun | .vec2 v => .ret v | _ => .fail .ub
def bbox : Ld P Aabb := .val .bbox fun | .bbox v => .ret v | _ => .fail .ub
def mat3 : Ld P Mat3 := .val .mat3 fun | .mat3 v => .ret v | _ => .fail .ub
/-- `read_raw(n)` and what is then read from the stream it returns. -/
def raw (n : Nat) (p : Rd α) : Ld P α := .val (.raw n) fun
  | .raw v => match p ⟨v, 0⟩ with
    | .ok (a, _) => .ret a
    | .error e => .fail e
  | _ => .fail .ub
/-- `read_object()`. -/
def obj : Ld P (Option P) := .ptr .ret
/-- `read_object<T>()`. -/
def objAs (t : ObjectType) : Ld P (Option P) := .ptrAs t .ret

/-- `skip_object(false)`. -/
def skipNext : Ld P Unit := .skip (.ret ())

/-- `std::dynamic_pointer_cast<VirtualObject>(r.read_object())`. -/
def objVob (env : Env P) : Ld P (Option P) := .ptr fun p => .ret (p.filter env.vob)

/-- A member that is only read on a condition, and else keeps its value. -/
def opt (b : Bool) (old : α) (p : Ld P α) : Ld P α := if b then p else .ret old

/-- `n` times the same. -/
def times : Nat → Ld P α → Ld P (List α)
  | 0, _ => .ret []
  | n + 1, p => p.bind fun a => (times n p).bind fun l => .ret (a :: l)

/-- The number of rounds of `for (auto i = 0; i < count; ++i)` with an `int` count: none if it is negative. -/
def rounds (n : BitVec 32) : Nat := if n.msb then 0 else n.toNat

/-- `resize(static_cast<size_t>(count))` and reading so many: a negative count is a size that no vector can have, and
`std::length_error` is thrown. Simplification: memory is unlimited. -/
def sized (n : BitVec 32) (p : Ld P α) : Ld P (List α) := if n.msb then .fail (.throw .lengthError) else times n.toNat p

end Ld

/-! ### The calls of `save` -/

section
open Field

def fStr (n v : Bytes) : Field := .val n (.string v)
def fInt (n : Bytes) (v : BitVec 32) : Field := .val n (.int v)
def fFloat (n : Bytes) (v : F32) : Field := .val n (.float v)
def fByte (n : Bytes) (v : BitVec 8) : Field := .val n (.byte v)
def fWord (n : Bytes) (v : BitVec 16) : Field := .val n (.word v)
def fEnum (n : Bytes) (v : BitVec 32) : Field := .val n (.enum v)
def fBool (n : Bytes) (v : Bool) : Field := .val n (.bool v)
def fColor (n : Bytes) (v : Color) : Field := .val n (.color v)
def fVec3 (n : Bytes) (v : Vec3) : Field := .val n (.vec3 v)
def fVec2 (n : Bytes) (v : Vec2) : Field := .val n (.vec2 v)
def fBbox (n : Bytes) (v : Aabb) : Field := .val n (.bbox v)
def fMat3 (n : Bytes) (v : Mat3) : Field := .val n (.mat3 v)
def fRaw (n v : Bytes) : Field := .val n (.raw v)
def fObj (n : Bytes) (p : Option Nat) : Field := .ptr n p

/-- Calls made on a condition. -/
def fIf (b : Bool) (l : List Field) : List Field := if b then l else []

/-- `size()` as an argument of `write_int`. -/
def size32 {α} (l : List α) : BitVec 32 := BitVec.ofNat 32 l.length

end

end Verif.Obj
