import Verif.Model.Mds

/-!
# The tokens of a model script, on the text as a list
-/

namespace Verif.Mds

/-- White space, parentheses and semicolons mean nothing. -/
def isBlank (c : Byte) : Bool := [9, 10, 11, 12, 13, 32, 40, 41, 59].contains c

/-- The text from the next character on that is neither ignored nor in a comment. `inside` tells whether the text
starts in a comment. A comment is a slash, any one character, and the text up to the next end of line. -/
def strip (inside : Bool) : Bytes → Bytes
  | [] => []
  | [c] => if inside || isBlank c || c == 47 then [] else [c]
  | c :: d :: r =>
    if inside then strip (c != 10) (d :: r)
    else if isBlank c then strip false (d :: r)
    else if c == 47 then strip true r
    else c :: d :: r

/-- What follows the first character of a number and belongs to it. -/
def numRest : Bytes → Bytes
  | [] => []
  | [c] => if isDigit c || c == 46 then [c] else []
  | c :: d :: r =>
    if c == 46 then if isDigit d then c :: d :: numRest r else [c]
    else if isDigit c then c :: numRest (d :: r) else []

/-- The content of a string: up to the quotation mark, or to the end of the line. -/
def strBody (r : Bytes) : Bytes := r.takeWhile (fun c => c != 34 && c != 10)

/-- The letters. -/
def letters : Bytes := b!"ABCDEFGHIJKLMNOPQRSTUVWXYZabcdefghijklmnopqrstuvwxyz"

/-- Words start with a letter, an asterisk, an underscore or a dot. -/
def wordStart (c : Byte) : Bool := (letters ++ b!"*_.").contains c

/-- They go on with letters, digits, underscores, hyphens and dots. -/
def wordRest (c : Byte) : Bool := (letters ++ b!"0123456789_-.").contains c

/-- The token that starts with `c`, its text, and what follows. -/
def lexTok (c : Byte) (r : Bytes) : (Token × Bytes) × Bytes :=
  if wordStart c then ((.keyword, c :: r.takeWhile wordRest), r.dropWhile wordRest)
  else if c == 34 then
    ((.string, if (((strBody r).filter (fun x => !isSpace x)).getLast? == some 41) then (strBody r).dropLast else strBody r),
      match r.drop (strBody r).length with
      | 34 :: q => q
      | q => q)
  else if isDigit c || c == 45 then
    ((if 46 ∈ numRest r then .float else .integer, c :: numRest r), r.drop (numRest r).length)
  else if c == 123 then ((.lbrace, []), r)
  else if c == 125 then ((.rbrace, []), r)
  else if c == 58 then ((.colon, []), r)
  else ((.nothing, []), r)

/-- The first token of a text, and what follows. -/
def lexOne (s : Bytes) : (Token × Bytes) × Bytes :=
  match strip false s with
  | [] => ((.endOfFile, []), [])
  | c :: r => lexTok c r

/-- All tokens of a text, at most `n`. -/
def lexN : Nat → Bytes → List (Token × Bytes)
  | 0, _ => []
  | n + 1, s => if (lexOne s).1.1 = .endOfFile then [] else (lexOne s).1 :: lexN n (lexOne s).2

/-- The tokens of a text. -/
def lex (s : Bytes) : List (Token × Bytes) := lexN s.length s

/-- A text of whole lines whose last line does not end with a slash. -/
def Ended (s : Bytes) : Prop := s = [] ∨ s = [10] ∨ ∃ body c, c ≠ 47 ∧ s = body ++ [c, 10]

/-- Asking for tokens again and again gives these, and then the end of the file. -/
inductive Runs : Tk → List (Token × Bytes) → Prop
  | stop {t t' : Tk} : next t = .ok (.endOfFile, t') → Runs t []
  | step {t t' : Tk} {k : Token} {l : List (Token × Bytes)} :
    next t = .ok (k, t') → k ≠ .endOfFile → Runs t' l → Runs t ((k, t'.value) :: l)

/-- The tokenizer of a text that was just opened. -/
def start (s : Bytes) : Tk := ⟨⟨s, 0⟩, 0, []⟩

end Verif.Mds
