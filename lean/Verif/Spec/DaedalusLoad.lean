import Verif.Model.DaedalusLoad
import Verif.Lemmas.Line

/-!
# Files with compiled scripts (C67, C68, C78, C80)
-/

namespace Verif.Spec.Daedalus

open Verif.Daedalus

/-- What a file stores behind the location of a symbol. -/
inductive Body where
  | none
  | word (w : BitVec 32)
  | words (ws : List (BitVec 32))
  | texts (ls : List Bytes)
  deriving DecidableEq, Repr

def Body.bytes : Body → Bytes
  | .none => []
  | .word w => encW 4 w
  | .words ws => (ws.map (encW 4)).flatten
  | .texts ls => (ls.map (· ++ [10])).flatten

/-- A symbol in a file. `spare` are the ten bits without a meaning. -/
structure Entry where
  name : Option Bytes
  vary : BitVec 32
  count : Nat
  type : Nat
  flags : Nat
  spare : Nat
  file : BitVec 32
  line : BitVec 32
  lines : BitVec 32
  char : BitVec 32
  chars : BitVec 32
  body : Body
  parent : BitVec 32
  deriving DecidableEq, Repr

namespace Entry

def const (e : Entry) : Bool := e.flags.testBit 0
def member (e : Entry) : Bool := e.flags.testBit 2

/-- The body has the shape the type asks for. -/
def BodyOk (e : Entry) : Prop :=
  if e.member then e.body = .none
  else match e.type with
    | 1 | 2 => ∃ ws, e.body = .words ws ∧ ws.length = e.count
    | 3 => ∃ ls, e.body = .texts ls ∧ ls.length = e.count ∧ ∀ l ∈ ls, NoEol l
    | 4 | 5 | 6 | 7 => ∃ w, e.body = .word w
    | _ => e.body = .none

/-- What a compiler writes. -/
structure Ok (e : Entry) : Prop where
  name : ∀ n, e.name = some n → NoEol n
  count : e.count < 2 ^ 12
  type : e.type < 2 ^ 4
  flags : e.flags < 2 ^ 6
  spare : e.spare < 2 ^ 10
  body : e.BodyOk

def nameBytes (e : Entry) : Bytes :=
  match e.name with
  | none => encW 4 (0 : BitVec 32)
  | some n => encW 4 (1 : BitVec 32) ++ (n ++ [10])

def props (e : Entry) : BitVec 32 :=
  BitVec.ofNat 32 (e.count + 2 ^ 12 * e.type + 2 ^ 16 * e.flags + 2 ^ 22 * e.spare)

/-- The symbol up to its parent. -/
def head (e : Entry) : Bytes :=
  e.nameBytes ++ encW 4 e.vary ++ encW 4 e.props ++ encW 4 e.file ++ encW 4 e.line ++ encW 4 e.lines ++ encW 4 e.char ++
    encW 4 e.chars ++ e.body.bytes

def bytes (e : Entry) : Bytes := e.head ++ encW 4 e.parent

/-- The name as scripts and hosts see it: a leading 0xFF marks generated symbols and is shown as `$`. -/
def shownName (e : Entry) : Bytes :=
  match e.name with
  | none => []
  | some (255 :: r) => 36 :: r
  | some n => n

def isGenerated (e : Entry) : Bool :=
  match e.name with
  | some (255 :: _) => true
  | _ => false

/-- The loader takes a constant string whose parent has one of these low bytes for damaged. -/
def Suspicious (e : Entry) : Prop :=
  e.type = 3 ∧ e.member = false ∧ e.const = true ∧ (e.parent.toNat % 256 = 32 ∨ 9 ≤ e.parent.toNat % 256 ∧ e.parent.toNat % 256 ≤ 13)

instance (e : Entry) : Decidable e.Suspicious := by unfold Suspicious; infer_instance

end Entry

/-- `\n` and `\t` in a text stand for the control characters, every other byte for itself. -/
inductive Unescapes : Bytes → Bytes → Prop
  | nil : Unescapes [] []
  | newline {r o} (h : Unescapes r o) : Unescapes (92 :: 110 :: r) (10 :: o)
  | tab {r o} (h : Unescapes r o) : Unescapes (92 :: 116 :: r) (9 :: o)
  | other {c r o} (hc : c = 92 → ∀ d q, r = d :: q → d ≠ 110 ∧ d ≠ 116) (h : Unescapes r o) : Unescapes (c :: r) (c :: o)

/-- How a text is written: line feeds and tabs as `\n` and `\t`. -/
def escape : Bytes → Bytes
  | [] => []
  | c :: r => (if c = 10 then [92, 110] else if c = 9 then [92, 116] else [c]) ++ escape r

/-- The accessors of a loaded symbol tell what the file says. -/
structure Shows (e : Entry) (i : Nat) (s : LSym) : Prop where
  name : s.sym.name = e.shownName
  generated : s.sym.generated = e.isGenerated
  count : s.sym.count.toNat = e.count
  type : s.sym.type = DType.ofCode e.type
  const : s.sym.isConst = e.flags.testBit 0
  returns : s.sym.hasReturn = e.flags.testBit 1
  member : s.sym.isMember = e.flags.testBit 2
  external : s.sym.isExternal = e.flags.testBit 3
  trap : s.sym.hasAccessTrap = false
  locals : s.sym.hasLocals = false
  index : s.sym.index = BitVec.ofNat 32 i
  parent : s.sym.parent = e.parent
  file : s.fileIndex.toNat = e.file.toNat % 2 ^ 19
  line : s.lineStart.toNat = e.line.toNat % 2 ^ 19
  lines : s.lineCount.toNat = e.lines.toNat % 2 ^ 19
  char : s.charStart.toNat = e.char.toNat % 2 ^ 24
  chars : s.charCount.toNat = e.chars.toNat % 2 ^ 24
  ints : e.member = false → e.type = 2 → ∀ ws, e.body = .words ws → ∀ (k : Nat) w, ws[k]? = some w → s.sym.getInt k none = .ok w
  floats : e.member = false → e.type = 1 → ∀ ws, e.body = .words ws → ∀ (k : Nat) w, ws[k]? = some w → s.sym.getFloat k none = .ok w
  strings : e.member = false → e.type = 3 → ∀ ls, e.body = .texts ls → ∀ (k : Nat) l, ls[k]? = some l →
    ∃ o, Unescapes l o ∧ s.sym.getString k none = .ok o
  address : e.member = false → e.type = 5 ∨ e.type = 6 ∨ e.type = 7 → ∀ w, e.body = .word w → s.sym.address = w
  inst : e.member = false → e.type = 7 → s.sym.getInstance = .ok none
  classOffset : e.member = false → e.type = 4 → ∀ w, e.body = .word w → s.classOffset = w
  memberOffset : e.member = true → s.sym.memberOffset = e.vary
  classSize : e.member = false → e.type = 4 → s.sym.classSize = e.vary
  rtype : e.member = false → e.type = 5 → s.sym.rtype = DType.ofCode e.vary.toNat

/-- A file: version, symbols, sort table and code. -/
structure File where
  version : BitVec 8
  sort : List (BitVec 32)
  entries : List Entry
  code : Bytes
  deriving DecidableEq, Repr

def File.bytes (f : File) : Bytes :=
  encW 1 f.version ++ encW 4 (BitVec.ofNat 32 f.entries.length) ++ (f.sort.map (encW 4)).flatten ++
    (f.entries.map Entry.bytes).flatten ++ encW 4 (BitVec.ofNat 32 f.code.length) ++ f.code

structure File.Ok (f : File) : Prop where
  sort : f.sort.length = f.entries.length
  entries : ∀ e ∈ f.entries, e.Ok
  size : f.entries.length < 2 ^ 32
  code : f.code.length < 2 ^ 32

/-- Names that differ in the case of letters at most. -/
def sameLetters (a b : Bytes) : Prop :=
  a.length = b.length ∧ ∀ (i : Nat) (x y : Byte), a[i]? = some x → b[i]? = some y →
    x = y ∨ (97 ≤ x.toNat ∧ x.toNat ≤ 122 ∧ y.toNat + 32 = x.toNat) ∨ (97 ≤ y.toNat ∧ y.toNat ≤ 122 ∧ x.toNat + 32 = y.toNat)

/-- No lower case letters. -/
def Upper (n : Bytes) : Prop := ∀ c ∈ n, ¬ (97 ≤ c.toNat ∧ c.toNat ≤ 122)

instance (n : Bytes) : Decidable (Upper n) := inferInstanceAs (Decidable (∀ c ∈ n, _))

/-- A symbol derives from the one at `c`: its parent is `c` itself or a prototype that derives from it. -/
inductive Derives (syms : List LSym) (c : Nat) : LSym → Prop
  | direct {s} (h : s.sym.parent.toNat = c) : Derives syms c s
  | through {s p} (h : syms[s.sym.parent.toNat]? = some p) (hp : p.sym.type = .prototype) (hd : Derives syms c p) :
    Derives syms c s

/-- An instance of the class at `c`. -/
def InstanceOf (syms : List LSym) (c : Nat) (s : LSym) : Prop :=
  s.sym.type = .instance ∧ s.sym.isConst = true ∧ Derives syms c s

/-- A name of a local variable of the function `f`: the name of the function, a dot, and more. -/
def LocalName (f n : Bytes) : Prop := ∃ r, n = f ++ 46 :: r

end Verif.Spec.Daedalus
