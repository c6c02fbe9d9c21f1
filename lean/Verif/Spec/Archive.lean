import Verif.Model.Archive

/-!
# What an archive holds

A document is the sequence of entries and objects written to an archive, in first-child/next-sibling form.
A client that reads a document back makes the same calls in the same order; `readShape` is that client.
-/

namespace Verif.Ar

/-- Entries and objects in the order of writing. -/
inductive Doc where
  | nil
  | val (name : Bytes) (v : Val) (rest : Doc)
  /-- An object with its content `ch`, followed by `rest`. -/
  | obj (name cls : Bytes) (version : BitVec 16) (index : BitVec 32) (ch rest : Doc)
  /-- A reference to the object numbered `index`. -/
  | ref (name : Bytes) (index : BitVec 32) (rest : Doc)
  deriving DecidableEq, Repr

namespace Doc

/-- The calls that write a document. -/
def calls : Doc → List Call
  | nil => []
  | val n v rest => .val n v :: rest.calls
  | obj n c ver _ ch rest => .begin n c ver :: (ch.calls ++ .finish :: rest.calls)
  | ref n i rest => .ref n i :: rest.calls

/-- The number the next object gets after the document was written. -/
def next : Doc → BitVec 32 → BitVec 32
  | nil, i => i
  | val _ _ rest, i => rest.next i
  | obj _ c _ _ ch rest, i => rest.next (ch.next (if emptyClass c then i else i + 1))
  | ref _ _ rest, i => rest.next i

/-- Objects are numbered consecutively in the order in which they begin; null objects have number 0. -/
def Numbered : Doc → BitVec 32 → Prop
  | nil, _ => True
  | val _ _ rest, i => rest.Numbered i
  | obj _ c _ ix ch rest, i =>
    ix = (if emptyClass c then 0 else i) ∧ ch.Numbered (if emptyClass c then i else i + 1) ∧
      rest.Numbered (ch.next (if emptyClass c then i else i + 1))
  | ref _ _ rest, i => rest.Numbered i

instance decNumbered : (d : Doc) → (i : BitVec 32) → Decidable (d.Numbered i)
  | nil, _ => isTrue trivial
  | val _ _ rest, i => decNumbered rest i
  | obj _ _ _ _ ch rest, _ =>
    have := decNumbered ch; have := decNumbered rest; inferInstanceAs (Decidable (_ ∧ _ ∧ _))
  | ref _ _ rest, i => decNumbered rest i

/-- A property of all entries, object headers and references of a document. -/
def All (pv : Bytes → Val → Prop) (po : Bytes → Bytes → BitVec 16 → BitVec 32 → Prop) : Doc → Prop
  | nil => True
  | val n v rest => pv n v ∧ rest.All pv po
  | obj n c ver ix ch rest => po n c ver ix ∧ ch.All pv po ∧ rest.All pv po
  | ref n ix rest => po n refClass 0 ix ∧ rest.All pv po

instance decAll {pv po} [∀ n v, Decidable (pv n v)] [∀ a b c d, Decidable (po a b c d)] :
    (d : Doc) → Decidable (d.All pv po)
  | nil => isTrue trivial
  | val _ _ rest => have := decAll (pv := pv) (po := po) rest; inferInstanceAs (Decidable (_ ∧ _))
  | obj _ _ _ _ ch rest =>
    have := decAll (pv := pv) (po := po) ch; have := decAll (pv := pv) (po := po) rest
    inferInstanceAs (Decidable (_ ∧ _ ∧ _))
  | ref _ _ rest => have := decAll (pv := pv) (po := po) rest; inferInstanceAs (Decidable (_ ∧ _))

/-- One document behind the other. -/
def app : Doc → Doc → Doc
  | nil, e => e
  | val n v rest, e => val n v (rest.app e)
  | obj n c ver ix ch rest, e => obj n c ver ix ch (rest.app e)
  | ref n ix rest, e => ref n ix (rest.app e)

end Doc

/-- The calls a client makes to read a document: one typed read per entry, begin and end per object. -/
inductive Shape where
  | nil
  | val (k : Kind) (rest : Shape)
  | obj (ch rest : Shape)
  deriving DecidableEq, Repr

/-- What a client gets back. -/
inductive Tree where
  | nil
  | val (v : Val) (rest : Tree)
  | obj (h : Hdr) (ch rest : Tree)
  deriving DecidableEq, Repr

namespace Doc

def shape : Doc → Shape
  | nil => .nil
  | val _ v rest => .val v.kind rest.shape
  | obj _ _ _ _ ch rest => .obj ch.shape rest.shape
  | ref _ _ rest => .obj .nil rest.shape

def tree : Doc → Tree
  | nil => .nil
  | val _ v rest => .val v rest.tree
  | obj n c ver ix ch rest => .obj ⟨n, c, ver, ix⟩ ch.tree rest.tree
  | ref n ix rest => .obj ⟨n, refClass, 0, ix⟩ .nil rest.tree

end Doc

/-- The client: reads the given shape and gives up (`parser`) when an object does not begin or end where it
expects that. -/
def readShape {σ} (r : Reader σ) : Shape → σ → Except Fail (Tree × σ)
  | .nil, s => .ok (.nil, s)
  | .val k rest, s =>
    match r.val k s with
    | .error e => .error e
    | .ok (v, s) =>
      match readShape r rest s with
      | .error e => .error e
      | .ok (t, s) => .ok (.val v t, s)
  | .obj ch rest, s =>
    match r.objBegin s with
    | .error e => .error e
    | .ok (none, _) => .error (.throw .parser)
    | .ok (some h, s) =>
      match readShape r ch s with
      | .error e => .error e
      | .ok (tc, s) =>
        match r.objEnd s with
        | .error e => .error e
        | .ok (false, _) => .error (.throw .parser)
        | .ok (true, s) =>
          match readShape r rest s with
          | .error e => .error e
          | .ok (t, s) => .ok (.obj h tc t, s)

end Verif.Ar
