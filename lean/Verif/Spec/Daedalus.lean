import Verif.Model.DaedalusVm

/-!
# Specifications for Daedalus scripts

Only the data types of the model are used here (`Op`, `Instr`, `DType`, `Frame`).
-/

namespace Verif.Daedalus

/-- The frames on the stack, bottom first. -/
def Stk (v : Vm) (fs : List Frame) : Prop :=
  v.sp.toNat = fs.length ∧ fs.length ≤ stackSize ∧ v.stack.take fs.length = fs.map some

end Verif.Daedalus

namespace Verif.Spec.Daedalus

open Verif.Daedalus

/-! ## The instruction set (C30) -/

/-- Number of an opcode in compiled scripts. -/
def number : Op → Nat
  | .add => 0 | .sub => 1 | .mul => 2 | .div => 3 | .mod => 4 | .or => 5 | .andb => 6 | .lt => 7 | .gt => 8 | .movi => 9
  | .orr => 11 | .and => 12 | .lsl => 13 | .lsr => 14 | .lte => 15 | .eq => 16 | .neq => 17 | .gte => 18
  | .addmovi => 19 | .submovi => 20 | .mulmovi => 21 | .divmovi => 22 | .plus => 30 | .negate => 31 | .not => 32
  | .cmpl => 33 | .nop => 45 | .rsr => 60 | .bl => 61 | .be => 62 | .pushi => 64 | .pushv => 65 | .pushvi => 67
  | .movs => 70 | .movss => 71 | .movvf => 72 | .movf => 73 | .movvi => 74 | .b => 75 | .bz => 76 | .gmovi => 80
  | .pushvv => 245
  | .unknown b => b.toNat

/-- Opcodes followed by a 32-bit operand. -/
def wordOps : List Nat := [61, 62, 64, 65, 67, 75, 76, 80]

/-- Length of the instruction that starts with a byte: `PUSHVV` has a 32-bit and an 8-bit operand. -/
def instrLen (op : Nat) : Nat :=
  if op ∈ wordOps then 5 else if op = 245 then 6 else 1

/-- Bytes of an instruction in a compiled script. -/
def assemble (i : Instr) : Bytes :=
  UInt8.ofNat (number i.op) ::
    match i.op with
    | .bl | .bz | .b => encW 4 i.address
    | .pushi => encW 4 i.immediate
    | .be | .pushv | .pushvi | .gmovi => encW 4 i.symbol
    | .pushvv => encW 4 i.symbol ++ [i.index]
    | _ => []

/-- An instruction whose unused fields are zero; bytes with a name are not `unknown`. -/
def Canonical (i : Instr) : Prop :=
  i.size = instrLen (number i.op) ∧
  (i.op ∉ [Op.bl, .bz, .b] → i.address = 0) ∧
  (i.op ≠ .pushi → i.immediate = 0) ∧
  (i.op ∉ [Op.be, .pushv, .pushvi, .gmovi, .pushvv] → i.symbol = 0) ∧
  (i.op ≠ .pushvv → i.index = 0) ∧
  (∀ b o, i.op = .unknown b → (∀ c, o ≠ Op.unknown c) → number o ≠ b.toNat)

/-! ## Integers (C32) -/

/-- The values of a 32-bit `int`. -/
def InInt (x : Int) : Prop := -2147483648 ≤ x ∧ x ≤ 2147483647

instance (x : Int) : Decidable (InInt x) := by unfold InInt; infer_instance

/-- Truth values are one and zero. -/
def truth (p : Prop) [Decidable p] : Int := if p then 1 else 0

/-- The value of 32 bits as a signed number. -/
def signed (n : Nat) : Int := if n < 2147483648 then n else (n : Int) - 4294967296

/-- The 32 bits of a number. -/
def bits (x : Int) : Nat := (x % 4294967296).toNat

/-- The value an operator gives for two numbers, the topmost one being the left operand. Division and remainder round
towards zero. -/
def opValue (op : Op) (a b : Int) : Int :=
  match op with
  | .add => a + b
  | .sub => a - b
  | .mul => a * b
  | .div => a.tdiv b
  | .mod => a.tmod b
  | .or => signed (bits a ||| bits b)
  | .andb => signed (bits a &&& bits b)
  | .lt => truth (a < b)
  | .gt => truth (a > b)
  | .lte => truth (a ≤ b)
  | .gte => truth (a ≥ b)
  | .eq => truth (a = b)
  | .neq => truth (a ≠ b)
  | .orr => truth (a ≠ 0 ∨ b ≠ 0)
  | .and => truth (a ≠ 0 ∧ b ≠ 0)
  | .lsl => signed (bits (a * 2 ^ b.toNat))
  | .lsr => a / 2 ^ b.toNat
  | .plus => a
  | .negate => -a
  | .not => truth (a = 0)
  | .cmpl => -a - 1
  | _ => 0

/-- The operators with two operands and with one. -/
def binaryOps : List Op :=
  [.add, .sub, .mul, .div, .mod, .or, .andb, .lt, .gt, .lte, .gte, .eq, .neq, .orr, .and, .lsl, .lsr]
def unaryOps : List Op := [.plus, .negate, .not, .cmpl]

/-- Whether C++ defines the result: no overflow, no division by zero, shifts by 0 to 31. -/
def OpDefined (op : Op) (a b : Int) : Prop :=
  match op with
  | .add | .sub | .mul | .negate => InInt (opValue op a b)
  | .div | .mod => b ≠ 0 ∧ ¬ (a = -2147483648 ∧ b = -1)
  | .lsl | .lsr => 0 ≤ b ∧ b < 32
  | _ => True

/-! ## The stack (C31) -/

/-- Requests to the stack. -/
inductive StackOp where
  | pushInt (x : BitVec 32)
  | pushFloat (x : BitVec 32)
  | pushInst (p : Option Nat)
  | pushVar (sym : Nat) (index : Byte)
  | popInt
  | popFloat
  | popInst
  | popVar
  deriving DecidableEq, Repr

/-- What a request gives. -/
inductive Answer where
  | done
  | bits (x : BitVec 32)
  | inst (p : Option Nat)
  | var (sym : Nat) (index : Byte) (ctx : Option Nat)
  deriving DecidableEq, Repr

/-- What the values of variables are at the moment, and the current instance. -/
structure Env where
  int : Nat → Byte → Option Nat → Except Fail (BitVec 32)
  float : Nat → Byte → Option Nat → Except Fail (BitVec 32)
  inst : Nat → Except Fail (Option Nat)
  current : Option Nat

/-- A push: refused when 2048 values are on the stack. -/
def pushSpec (f : Frame) (items : List Frame) : Except Fail Answer × List Frame :=
  if items.length = 2048 then (.error (.throw .daedalusVm), items) else (.ok .done, f :: items)

/-- One request to a last-in-first-out list, top first. -/
def stackStep (env : Env) (items : List Frame) : StackOp → Except Fail Answer × List Frame
  | .pushInt x => pushSpec (.int x) items
  | .pushFloat x => pushSpec (.float x) items
  | .pushInst p => pushSpec (.inst p) items
  | .pushVar y i => pushSpec (.ref y i env.current) items
  | .popInt =>
    match items with
    | [] => (.ok (.bits 0), [])
    | .int x :: rest => (.ok (.bits x), rest)
    | .ref y i p :: rest => ((env.int y i p).map .bits, rest)
    | _ :: rest => (.error (.throw .daedalusVm), rest)
  | .popFloat =>
    match items with
    | [] => (.ok (.bits 0), [])
    | .float x :: rest => (.ok (.bits x), rest)
    | .int x :: rest => (.ok (.bits x), rest)
    | .ref y i p :: rest => ((env.float y i p).map .bits, rest)
    | .inst _ :: rest => (.error (.throw .daedalusVm), rest)
  | .popInst =>
    match items with
    | [] => (.error (.throw .daedalusVm), [])
    | .inst p :: rest => (.ok (.inst p), rest)
    | .ref y _ _ :: rest => ((env.inst y).map .inst, rest)
    | _ :: rest => (.error (.throw .daedalusVm), rest)
  | .popVar =>
    match items with
    | [] => (.error (.throw .daedalusVm), [])
    | .ref y i p :: rest => (.ok (.var y i p), rest)
    | _ :: rest => (.error (.throw .daedalusVm), rest)

/-- A history of requests: all answers, and what is left. -/
def stackRun (env : Env) : List Frame → List StackOp → List (Except Fail Answer) × List Frame
  | items, [] => ([], items)
  | items, o :: os =>
    let (a, items) := stackStep env items o
    let (as, items) := stackRun env items os
    (a :: as, items)

end Verif.Spec.Daedalus
