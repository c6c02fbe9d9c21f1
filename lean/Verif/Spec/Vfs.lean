import Verif.Model.Vfs

/-!
# Specification: file trees

Names are compared ignoring the case of ASCII letters; the name asked for is compared without trailing
whitespace. A path is a list of names.
-/

namespace Verif.Spec

open Verif.Vfs (Node Overwrite)

/-- ASCII lower case. -/
def foldByte (c : Byte) : Byte := if 65 ≤ c ∧ c ≤ 90 then c + 32 else c

/-- A name without the distinction of case. -/
def fold (s : Bytes) : Bytes := s.map foldByte

/-- A name without the whitespace (space, tab, line feed, vertical tab, form feed, carriage return) at its end. -/
def rtrim : Bytes → Bytes
  | [] => []
  | c :: cs =>
    match rtrim cs with
    | [] => if c ∈ [32, 9, 10, 11, 12, 13] then [] else [c]
    | r => c :: r

/-- What a name asked for stands for. -/
def key (s : Bytes) : Bytes := fold (rtrim s)

/-- No whitespace at the end. -/
def Clean (s : Bytes) : Prop := rtrim s = s

instance (s : Bytes) : Decidable (Clean s) := inferInstanceAs (Decidable (_ = _))

/-- The entry of a directory with the given name. -/
def entry (cs : List Node) (n : Bytes) : Option Node := cs.find? (fun x => fold x.name == key n)

/-- The node at a path. -/
def lookup : Node → List Bytes → Option Node
  | n, [] => some n
  | .file _ _ _, _ :: _ => none
  | .dir _ _ cs, p :: ps =>
    match entry cs p with
    | none => none
    | some c => lookup c ps

/-- The parts of a string between slashes. -/
def split : Bytes → List Bytes
  | [] => [[]]
  | c :: cs => if c = 47 then [] :: split cs else
    match split cs with
    | [] => [[c]]
    | h :: t => (c :: h) :: t

/-- The names in a path: the parts between slashes that are not empty. -/
def comps (path : Bytes) : List Bytes := (split path).filter (fun x => !x.isEmpty)

/-- A directory: its entries are in strictly ascending order, so that no two of them have the same name. -/
def Ordered (cs : List Node) : Prop := cs.Pairwise (fun a b => Verif.Vfs.icompare a.name b.name = true)

/-- All directories of a tree are ordered. -/
inductive Wf : Node → Prop
  | file (n t d) : Wf (.file n t d)
  | dir (n t cs) : Ordered cs → (∀ c ∈ cs, Wf c) → Wf (.dir n t cs)

/-- What can be seen of a node itself. -/
inductive Info where
  | file (name : Bytes) (time : Int) (desc : Vfs.Desc)
  | dir (name : Bytes) (time : Int)
  deriving DecidableEq, Repr

def info : Node → Info
  | .file n t d => .file n t d
  | .dir n t _ => .dir n t

/-- What is found at a path below a set of entries. -/
def at? (cs : List Node) (p : List Bytes) : Option Info := (lookup (.dir [] 0 cs) p).map info

/-- The overwrite policies as documented (`include/zenkit/Vfs.hh:99-104`): does a new node with time `new` take the
place of an existing one with time `old`? -/
def takesPlace (o : Overwrite) (old new : Int) : Prop :=
  match o with
  | .none => False
  | .all => True
  | .newer => old > new
  | .older => old < new

instance (o : Overwrite) (old new : Int) : Decidable (takesPlace o old new) := by
  cases o <;> unfold takesPlace <;> infer_instance

/-- What is at a path after the entries `new` were merged into the entries `old`. -/
def merged (o : Overwrite) : List Node → List Node → List Bytes → Option Info
  | _, _, [] => some (.dir [] 0)
  | old, new, p :: ps =>
    match entry old p, entry new p with
    | none, none => none
    | some x, none => (lookup x ps).map info
    | none, some y => (lookup y ps).map info
    | some (.dir n t kids), some (.dir _ _ kids') => if ps = [] then some (.dir n t) else merged o kids kids' ps
    | some x, some y =>
      if takesPlace o x.time y.time then (lookup y ps).map info else (lookup x ps).map info

/-- The rest of the path `q` behind `p`, when `q` leads through the node `p` leads to. -/
def strip : List Bytes → List Bytes → Option (List Bytes)
  | [], q => some q
  | _ :: _, [] => none
  | a :: p, b :: q => if key a = key b then strip p q else none

/-- The nodes of a tree. -/
inductive Inside : Node → Node → Prop
  | self (n) : Inside n n
  | kid {n t cs c x} : c ∈ cs → Inside c x → Inside (.dir n t cs) x

/-- All names in a tree are free of trailing whitespace. -/
inductive CleanTree : Node → Prop
  | file (n t d) : Clean n → CleanTree (.file n t d)
  | dir (n t cs) : Clean n → (∀ c ∈ cs, CleanTree c) → CleanTree (.dir n t cs)

end Verif.Spec
