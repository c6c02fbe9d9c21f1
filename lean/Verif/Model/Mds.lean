import Verif.Base.Text
import Verif.Model.Stream

/-!
# The tokenizer of model scripts: `src/ModelScriptDsl.cc:29-172`

Simplification: the line and column counters, which only occur in messages, are left out. The loops that read characters have fuel,
`2 + ` the number of characters left; they do not end (`hang`) if it does not suffice, because `read_char` gives NUL at the end.
-/

namespace Verif.Mds

/-- `enum class MdsToken` (`src/ModelScriptDsl.hh:12-22`). -/
inductive Token where
  | keyword | integer | float | string | rbrace | lbrace | colon | endOfFile | nothing
  deriving DecidableEq, Repr

/-- `std::isalpha` in the "C" locale. -/
def isAlpha (c : Byte) : Bool := (65 ≤ c && c ≤ 90) || (97 ≤ c && c ≤ 122)

/-- Characters without meaning (`src/ModelScriptDsl.cc:41`): spaces, `(`, `)` and `;`. -/
def isIgnored (c : Byte) : Bool := isSpace c || c == 40 || c == 41 || c == 59

/-- The first character of a keyword (`src/ModelScriptDsl.cc:66`): a letter, `*`, `_`, `.`. -/
def isKwFirst (c : Byte) : Bool := isAlpha c || c == 42 || c == 95 || c == 46

/-- The other characters of a keyword (`src/ModelScriptDsl.cc:71`): letters, digits, `_`, `-`, `.`. -/
def isKwRest (c : Byte) : Bool := isAlpha c || isDigit c || c == 95 || c == 45 || c == 46

/-- `while (read_char() != '\n')` (`src/ModelScriptDsl.cc:57-58`), also `MdsTokenizer::next_line` (`src/ModelScriptDsl.cc:158-160`). -/
def lineLoop : Nat → Rd Unit
  | 0 => Rd.fail .hang
  | fuel + 1 => do
    let c ← Rd.char
    if c == 10 then return () else lineLoop fuel

/-- The loop over a keyword (`src/ModelScriptDsl.cc:67-71`). -/
def kwLoop : Nat → Byte → Bytes → Rd Bytes
  | 0, _, _ => Rd.fail .hang
  | fuel + 1, chr, value => do
    let c ← Rd.char
    if isKwRest c then kwLoop fuel c (value ++ [chr]) else return value ++ [chr]

/-- The loop over a string (`src/ModelScriptDsl.cc:92-98`): the last character, `prev` and the value. -/
def strLoop : Nat → Byte → Byte → Bytes → Rd (Byte × Byte × Bytes)
  | 0, _, _, _ => Rd.fail .hang
  | fuel + 1, chr, prev, value =>
    if chr != 34 && chr != 10 then do
      let c ← Rd.char
      strLoop fuel c (if isSpace chr then prev else chr) (value ++ [chr])
    else return (chr, prev, value)

/-- The loop over a number (`src/ModelScriptDsl.cc:114-127`): whether it has a dot, and the value. -/
def numLoop : Nat → Byte → Bool → Bytes → Rd (Bool × Bytes)
  | 0, _, _, _ => Rd.fail .hang
  | fuel + 1, chr, dot, value => do
    let c ← Rd.char
    if c == 46 then do
      let d ← Rd.char
      if isDigit d then numLoop fuel d true (value ++ [chr, c]) else return (true, value ++ [chr, c])
    else if isDigit c then numLoop fuel c dot (value ++ [chr]) else return (dot, value ++ [chr])

/-- The rest of `MdsTokenizer::next` after a character that is not ignored and no `/` (`src/ModelScriptDsl.cc:65-148`):
the token and `_m_value`. -/
def token (fuel : Nat) (chr : Byte) : Rd (Token × Bytes) :=
  if isKwFirst chr then do
    let v ← kwLoop fuel chr []
    Rd.seek (-1) .cur
    return (.keyword, v)
  else if chr == 34 then do
    let c ← Rd.char
    let (c, prev, v) ← strLoop fuel c 0 []
    (if c != 34 then Rd.seek (-1) .cur else return () : Rd Unit)
    return (.string, if prev == 41 then v.dropLast else v)
  else if isDigit chr || chr == 45 then do
    let (dot, v) ← numLoop fuel chr false []
    Rd.seek (-1) .cur
    return (if dot then .float else .integer, v)
  else if chr == 123 then return (.lbrace, [])
  else if chr == 125 then return (.rbrace, [])
  else if chr == 58 then return (.colon, [])
  else return (.nothing, [])

/-- The state of the tokenizer: the stream, `_m_mark` and `_m_value`. -/
structure Tk where
  rs : Rs
  mark : Nat
  value : Bytes
  deriving DecidableEq, Repr

/-- A comment behind its first slash (`src/ModelScriptDsl.cc:52-58`). -/
def comment (fuel : Nat) : Rd Unit := do
  let _ ← Rd.char
  lineLoop fuel

/-- The loop of `MdsTokenizer::next` (`src/ModelScriptDsl.cc:33-151`). -/
def nextLoop : Nat → Tk → Except Fail (Token × Tk)
  | 0, _ => .error .hang
  | fuel + 1, t =>
    if t.rs.pos ≥ t.rs.data.length then .ok (.endOfFile, t)
    else
      match Rd.char t.rs with
      | .error e => .error e
      | .ok (chr, s) =>
        if isIgnored chr then nextLoop fuel ⟨s, t.rs.pos, t.value⟩
        else if chr == 47 then
          match comment (t.rs.data.length + 2) s with
          | .error e => .error e
          | .ok (_, s) => nextLoop fuel ⟨s, t.rs.pos, t.value⟩
        else
          match token (t.rs.data.length + 2) chr s with
          | .error e => .error e
          | .ok ((k, v), s) => .ok (k, ⟨s, t.rs.pos, v⟩)

/-- `MdsTokenizer::next` (`src/ModelScriptDsl.cc:31-152`). -/
def next (t : Tk) : Except Fail (Token × Tk) := nextLoop (t.rs.data.length + 2) { t with value := [] }

/-- `MdsTokenizer::backtrack` (`src/ModelScriptDsl.cc:162-164`). -/
def backtrack (t : Tk) : Except Fail Tk :=
  match Rd.seek t.mark .beg t.rs with
  | .error e => .error e
  | .ok (_, s) => .ok { t with rs := s }

/-- `MdsTokenizer::next_line` (`src/ModelScriptDsl.cc:158-160`). -/
def nextLine (t : Tk) : Except Fail Tk :=
  match lineLoop (t.rs.data.length + 2) t.rs with
  | .error e => .error e
  | .ok (_, s) => .ok { t with rs := s }

/-- `MdsParser::ignore_block` (`src/ModelScriptDsl.cc:412-414`). -/
def ignoreBlock : Nat → Tk → Except Fail Tk
  | 0, _ => .error .hang
  | fuel + 1, t =>
    match next t with
    | .error e => .error e
    | .ok (k, t) => if k = .rbrace then .ok t else ignoreBlock fuel t

end Verif.Mds
