import Verif.Spec.ObjAny
import Verif.Model.CutsceneMessage

/-! # Which message a block has -/

namespace Verif.Obj

open Verif.Ar

/-- The members of the objects in memory. -/
def Heap.mem (T : Heap) : Mem := fun a => (T a).map Node.obj

/-- The block at `a` contains, inside of finitely many blocks, the atomic block at `p`. -/
inductive Contains (M : Mem) : Nat → Nat → Prop where
  | here {a p : Nat} {b : Block Nat} {x : AtomicBlock Nat} : M.block a = some b → b.atomic = true → b.block = some p →
      M.atomic p = some x → Contains M a p
  | inside {a a' p : Nat} {b : Block Nat} : M.block a = some b → b.atomic = false → b.block = some a' → Contains M a' p →
      Contains M a p

/-- The block at `a` contains the message `m`. -/
def Says (M : Mem) (a : Nat) (m : ConversationMessage) : Prop :=
  ∃ p x q, Contains M a p ∧ M.atomic p = some x ∧ x.message = some q ∧ M q = some (.ConversationMessage m)

/-- A block of a library with a name. -/
def Library.Has (M : Mem) (x : Library Nat) (n : Bytes) (a : Nat) : Prop :=
  some a ∈ x.blocks ∧ ∃ b, M.block a = some b ∧ b.name = n

/-- The application asks a library for the message of a name: it finds a block, and in it a message with this text and this name of a
sound. -/
def Library.Answers (M : Mem) (x : Library Nat) (n : Bytes) (m : ConversationMessage) : Prop :=
  ∃ a, x.blockByName M n = .ok (some a) ∧ ∃ N, ∀ fuel ≥ N, ∃ q m', getMessage M fuel a = .ok (some q) ∧
    M q = some (.ConversationMessage m') ∧ m'.text = m.text ∧ m'.name = m.name ∧ m'.type = m.type

/-- A library `x` in the memory `T` was saved, and in the memory `M` there is what was loaded at `l`: a library that has, once sorted,
the copies of all blocks, finds a block of every name, and answers with the messages it had if the name is that of one block. -/
def Library.Kept (T : Mem) (x : Library Nat) (M : Mem) (l : Nat) (φ : Nat → Nat) : Prop :=
  ∃ y y', M l = some (.Library y) ∧ y.sort M = .ok y' ∧ y'.blocks.Perm (x.blocks.map (Option.map φ)) ∧
    (∀ n a, x.Has T n a → ∃ a', x.Has T n a' ∧ y'.blockByName M n = .ok (some (φ a'))) ∧
    ∀ n a m, x.Has T n a → (∀ a', x.Has T n a' → a' = a) → Says T a m → y'.Answers M n m

end Verif.Obj
