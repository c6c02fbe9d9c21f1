import Verif.Model.Archive
import Verif.Model.ArchiveClasses

/-!
# Object graphs in archives: `WriteArchive::write_object` and `ReadArchive::read_object`

What a class writes in `save` and reads in `load` is a parameter: the fields of an object are the calls its `save` makes, in order,
and a `Schema` says which call its `load` makes next. The formats are those of `Verif.Model.ArchiveBinary` and so on.
-/

namespace Verif.Ar

/-- One call of `save`: a value, or a call of `write_object` with a pointer. -/
inductive Field where
  | val (name : Bytes) (v : Val)
  | ptr (name : Bytes) (p : Option Nat)
  deriving DecidableEq, Repr

/-- An object: what `get_object_type` and `get_version_identifier` return, and the calls its `save` makes. -/
structure GObj where
  type : ObjectType
  version : BitVec 16
  fields : List Field
  deriving DecidableEq, Repr

/-- The objects in memory, by address. -/
abbrev GHeap := Nat → Option GObj

/-- The state of the writer that `write_object` uses: the number of the next object (`_m_index` of the formats) and `_m_cache`. -/
structure GWr where
  index : BitVec 32
  cache : List (Nat × BitVec 32)
  deriving DecidableEq, Repr

/-- `save`: the calls one after the other; `ptr` is `write_object`. -/
def writeFields (ptr : Bytes → Option Nat → GWr → Except Fail (List Call × GWr)) :
    List Field → GWr → Except Fail (List Call × GWr)
  | [], w => .ok ([], w)
  | .val n v :: rest, w => do
    let (cs, w) ← writeFields ptr rest w
    return (.val n v :: cs, w)
  | .ptr n p :: rest, w => do
    let (c, w) ← ptr n p w
    let (cs, w) ← writeFields ptr rest w
    return (c ++ cs, w)

/-- `WriteArchive::write_object` (`src/Archive.cc:567-591`), as the calls of the virtual functions it makes.
`write_object_begin` returns the current number, and counts, since no class name of the table is empty or `"%"`
(`c18_names`); the name is looked up with `at`. A pointer to no object is undefined behaviour. Fuel: the depth of the recursion.
Simplification: the stack of the program has no limit. -/
def writePtr (H : GHeap) : Nat → Bytes → Option Nat → GWr → Except Fail (List Call × GWr)
  | 0, _, _, _ => .error .hang
  | _ + 1, n, none, w => .ok ([.begin n nullClass 0, .finish], w)
  | fuel + 1, n, some a, w =>
    match w.cache.lookup a with
    | some i => .ok ([.ref n i], w)
    | none =>
      match H a with
      | none => .error .ub
      | some o =>
        match tableFind classNamesTable o.type with
        | none => .error (.throw .outOfRange)
        | some cls => do
          let (cs, w) ← writeFields (writePtr H fuel) o.fields ⟨w.index + 1, w.cache ++ [(a, w.index)]⟩
          return (.begin n cls o.version :: (cs ++ [.finish]), w)

/-- What `load` has got from one of its calls; pointers are numbers of objects made by the reader. -/
inductive Got where
  | val (v : Val)
  | ptr (p : Option Nat)
  deriving DecidableEq, Repr

/-- What `load` may look at to decide what it reads next: values, and whether a pointer is null. -/
inductive Seen where
  | val (v : Val)
  | null
  | object
  deriving DecidableEq, Repr

/-- A call that `load` makes. -/
inductive Want where
  | val (k : Kind)
  | ptr
  deriving DecidableEq, Repr

/-- The `load` functions: the next call for an object of a type that has already read something; none when it returns. -/
abbrev Schema := ObjectType → List Seen → Option Want

def Got.seen : Got → Seen
  | .val v => .val v
  | .ptr none => .null
  | .ptr (some _) => .object

/-- The objects made by the reader, in the order they were made, and `_m_cache`. -/
structure GRd where
  heap : List (ObjectType × List Got)
  cache : List (BitVec 32 × Nat)
  deriving DecidableEq, Repr

/-- `insert_or_assign` of an `unordered_map`. -/
def insertOrAssign {α β} [DecidableEq α] (c : List (α × β)) (k : α) (v : β) : List (α × β) := c.filter (fun p => p.1 ≠ k) ++ [(k, v)]

/-- `if (!this->read_object_end()) this->skip_object(true)` (`src/Archive.cc:263-266, 521-524`). -/
def endOrSkip {σ} (r : Reader σ) (s : σ) : Except Fail (Unit × σ) := do
  let (b, s) ← r.objEnd s
  if b then return ((), s) else r.skipObj true s

/-- `load`: the calls the schema asks for, until it asks for no more. Fuel: their number. -/
def readFields {σ} (r : Reader σ) (ptr : σ → GRd → Except Fail (Option Nat × σ × GRd)) (S : List Seen → Option Want) :
    Nat → List Got → σ → GRd → Except Fail (List Got × σ × GRd)
  | 0, _, _, _ => .error .hang
  | fuel + 1, acc, s, g =>
    match S (acc.map Got.seen) with
    | none => .ok (acc, s, g)
    | some (.val k) => do
      let (v, s) ← r.val k s
      readFields r ptr S fuel (acc ++ [.val v]) s g
    | some .ptr => do
      let (p, s, g) ← ptr s g
      readFields r ptr S fuel (acc ++ [.ptr p]) s g

/-- `ReadArchive::read_object` (`src/Archive.cc:255-527`). The result is a pointer. The object goes to the cache before its
content is loaded. Simplifications: the content of the object is stored when `load` returns, and the id that virtual objects get is
not kept. -/
def readPtr {σ} (r : Reader σ) (S : Schema) : Nat → σ → GRd → Except Fail (Option Nat × σ × GRd)
  | 0, _, _ => .error .hang
  | fuel + 1, s, g => do
    match ← r.objBegin s with
    | (none, s) => return (none, s, g)
    | (some h, s) =>
      if h.cls = refClass then do
        let (_, s) ← endOrSkip r s
        return (g.cache.lookup h.index, s, g)
      else if h.cls = nullClass then do
        let (_, s) ← r.skipObj true s
        return (none, s, g)
      else
        match classFor h.cls with
        | none => do
          let (_, s) ← endOrSkip r s
          return (none, s, g)
        | some c => do
          let n := g.heap.length
          let g := ⟨g.heap ++ [(c.type, [])], insertOrAssign g.cache h.index n⟩
          let (fs, s, g) ← readFields r (readPtr r S fuel) (S c.type) fuel [] s g
          let (_, s) ← endOrSkip r s
          return (some n, s, { g with heap := g.heap.set n (c.type, fs) })

end Verif.Ar
