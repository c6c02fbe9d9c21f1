import Verif.Model.Stream

/-!
# The virtual file system

Model of `src/Vfs.cc` (without the disk format, see `Verif.Model.VfsDisk`) and of the name comparison in
`src/Misc.cc`.
-/

namespace Verif.Vfs

/-! ## Names -/

/-- `std::tolower` applied to a (signed) `char` in the "C" locale. Simplification: a negative argument, which the
standard leaves undefined, is returned unchanged, as the common C libraries do. -/
def tolower (c : Byte) : Int :=
  let v : Int := if c.toNat < 128 then c.toNat else (c.toNat : Int) - 256
  if 65 ≤ v ∧ v ≤ 90 then v + 32 else v

/-- `iequals` (`src/Misc.cc:11-15`). -/
def iequals : Bytes → Bytes → Bool
  | [], [] => true
  | a :: as, b :: bs => tolower a == tolower b && iequals as bs
  | _, _ => false

/-- `icompare` (`src/Misc.cc:17-21`): `std::lexicographical_compare`. -/
def icompare : Bytes → Bytes → Bool
  | _, [] => false
  | [], _ :: _ => true
  | a :: as, b :: bs =>
    if tolower a < tolower b then true
    else if tolower b < tolower a then false
    else icompare as bs

/-- `std::isspace` in the "C" locale. -/
def isspace (c : Byte) : Bool := c == 32 || (9 ≤ c && c ≤ 13)

/-- `trim_trailing_whitespace` (`src/Vfs.cc:81-87`). -/
def trim (s : Bytes) : Bytes := (s.reverse.dropWhile isspace).reverse

/-! ## Nodes -/

/-- `VfsFileDescriptor` (`include/zenkit/Vfs.hh:39-51`): `memory` points to offset `off` of the buffer `mem`. The
reference count is left out. -/
structure Desc where
  mem : Bytes
  off : Nat
  size : Nat
  raw : Nat
  zipped : Bool
  deriving DecidableEq, Repr

/-- `VfsFileDescriptor(mem, len, del, zip, raw)` (`src/Vfs.cc:41-42`). -/
def Desc.make (mem : Bytes) (off len : Nat) (zip : Bool) (raw : Nat) : Desc :=
  ⟨mem, off, len, if raw = 0 then len else raw, zip⟩

/-- `VfsNode` (`include/zenkit/Vfs.hh:63-94`). The `std::set` of children is the list of its elements in order. -/
inductive Node where
  | file (name : Bytes) (time : Int) (desc : Desc)
  | dir (name : Bytes) (time : Int) (children : List Node)
  deriving Repr

mutual
/-- Decidable equality of nodes. -/
def Node.decEq : (a b : Node) → Decidable (a = b)
  | .file n t d, .file n' t' d' =>
    if h : n = n' ∧ t = t' ∧ d = d' then isTrue (by obtain ⟨h1, h2, h3⟩ := h; rw [h1, h2, h3])
    else isFalse (by intro e; injection e with h1 h2 h3; exact h ⟨h1, h2, h3⟩)
  | .dir n t cs, .dir n' t' cs' =>
    match Node.decEqAll cs cs' with
    | isTrue hc =>
      if h : n = n' ∧ t = t' then isTrue (by obtain ⟨h1, h2⟩ := h; rw [h1, h2, hc])
      else isFalse (by intro e; injection e with h1 h2 h3; exact h ⟨h1, h2⟩)
    | isFalse hc => isFalse (by intro e; injection e with h1 h2 h3; exact hc h3)
  | .file .., .dir .. => isFalse (by intro h; cases h)
  | .dir .., .file .. => isFalse (by intro h; cases h)
/-- Decidable equality of lists of nodes. -/
def Node.decEqAll : (as bs : List Node) → Decidable (as = bs)
  | [], [] => isTrue rfl
  | a :: as, b :: bs =>
    match Node.decEq a b, Node.decEqAll as bs with
    | isTrue h1, isTrue h2 => isTrue (by rw [h1, h2])
    | isFalse h1, _ => isFalse (by intro e; injection e with e1 e2; exact h1 e1)
    | _, isFalse h2 => isFalse (by intro e; injection e with e1 e2; exact h2 e2)
  | [], _ :: _ => isFalse (by intro h; cases h)
  | _ :: _, [] => isFalse (by intro h; cases h)
end

instance : DecidableEq Node := Node.decEq

namespace Node

/-- `VfsNode::name` (`src/Vfs.cc:170-172`). -/
def name : Node → Bytes
  | file n _ _ => n
  | dir n _ _ => n

/-- `VfsNode::time` (`src/Vfs.cc:166-168`). -/
def time : Node → Int
  | file _ t _ => t
  | dir _ t _ => t

/-- `type() == VfsNodeType::FILE` (`src/Vfs.cc:162-164`). -/
def isFile : Node → Bool
  | file _ _ _ => true
  | dir _ _ _ => false

/-- `VfsNode::children` (`src/Vfs.cc:77-79`): `std::get` throws for a file. -/
def children : Node → Except Fail (List Node)
  | file _ _ _ => .error (.throw .badVariantAccess)
  | dir _ _ cs => .ok cs

/-- Mutation of the set of children in place. -/
def withChildren (cs : List Node) : Node → Node
  | file n t d => file n t d
  | dir n t _ => dir n t cs

/-- `VfsFileDescriptor` of `open_read` (`src/Vfs.cc:126-144`). -/
def desc : Node → Except Fail Desc
  | file _ _ d => .ok d
  | dir _ _ _ => .error (.throw .badVariantAccess)

end Node

/-! ## `std::set<VfsNode, VfsNodeComparator>`

`lower_bound` of a search tree is the first element that is not less, which is what the functions below look for.
Simplification: on a set that is not ordered, which `c21_reachable` excludes, a search tree might answer differently. -/

/-- The elements in front of `lower_bound(name)`. -/
def below (name : Bytes) (cs : List Node) : List Node := cs.takeWhile (fun x => icompare x.name name)

/-- The elements from `lower_bound(name)` on. -/
def above (name : Bytes) (cs : List Node) : List Node := cs.dropWhile (fun x => icompare x.name name)

/-- `std::set::find`. -/
def setFind (name : Bytes) (cs : List Node) : Option Node :=
  match above name cs with
  | [] => none
  | x :: _ => if icompare name x.name then none else some x

/-- `std::set::erase` of the element found. -/
def setErase (name : Bytes) (cs : List Node) : List Node := below name cs ++ (above name cs).drop 1

/-- `std::set::insert`: the set and the element the iterator in the result points to. -/
def setInsert (n : Node) (cs : List Node) : List Node × Node :=
  match setFind n.name cs with
  | some x => (cs, x)
  | none => (below n.name cs ++ n :: above n.name cs, n)

/-- An element, reached through a pointer, is replaced by `n` (which has the same name). -/
def setReplace (n : Node) (cs : List Node) : List Node := below n.name cs ++ n :: (above n.name cs).drop 1

/-- `VfsNode::child` (`src/Vfs.cc:89-105`) on the set of children. -/
def childIn (name : Bytes) (cs : List Node) : Option Node :=
  match setFind (trim name) cs with
  | none => none
  | some x => if iequals x.name (trim name) then some x else none

/-- `VfsNode::remove` (`src/Vfs.cc:115-124`) on the set of children. -/
def removeIn (name : Bytes) (cs : List Node) : List Node × Bool :=
  match setFind (trim name) cs with
  | none => (cs, false)
  | some x => if iequals x.name (trim name) then (setErase (trim name) cs, true) else (cs, false)

/-- `VfsNode::create` (`src/Vfs.cc:107-113`) on the set of children: removes by the trimmed name, inserts under the
name as it is. -/
def createIn (n : Node) (cs : List Node) : List Node × Node := setInsert n (removeIn n.name cs).1

/-- `VfsNode::child` (`src/Vfs.cc:89-105`). -/
def Node.child (name : Bytes) (n : Node) : Except Fail (Option Node) := do
  return childIn name (← n.children)

/-- `VfsNode::create` (`src/Vfs.cc:107-113`). -/
def Node.create (c : Node) (n : Node) : Except Fail (Node × Node) := do
  let (cs, p) := createIn c (← n.children)
  return (n.withChildren cs, p)

/-- `VfsNode::remove` (`src/Vfs.cc:115-124`). -/
def Node.remove (name : Bytes) (n : Node) : Except Fail (Node × Bool) := do
  let (cs, b) := removeIn name (← n.children)
  return (n.withChildren cs, b)

/-! ## `Vfs` -/

/-- `path.find('/')` -/
def slash (path : Bytes) : Option Nat := path.findIdx? (· == 47)

/-- `Vfs::resolve` (`src/Vfs.cc:176-195, 217-219`) followed by a change `f` of the node it returns a pointer to. The
value is the changed tree with the result of `f`, `none` when the path does not resolve. `resolve` is `noexcept`,
so that an exception of `child` terminates. Every iteration consumes a character of the path. -/
def resolveWith {α} (f : Node → Except Fail (Node × α)) : Nat → Node → Bytes → Except Fail (Option (Node × α))
  | 0, _, _ => .error .hang
  | fuel + 1, ctx, path =>
    if path.isEmpty then (f ctx).map some
    else match slash path with
    | some 0 => resolveWith f fuel ctx (path.drop 1)
    | next =>
      match ctx.child (match next with | some i => path.take i | none => path) with
      | .error _ => .error .terminate
      | .ok none => .ok none
      | .ok (some c) =>
        match (match next with
          | none => (f c).map some
          | some i => resolveWith f fuel c (path.drop (i + 1))) with
        | .error e => .error e
        | .ok none => .ok none
        | .ok (some (c', a)) =>
          match ctx with
          | .file .. => .error .ub
          | .dir n t cs => .ok (some (.dir n t (setReplace c' cs), a))

/-- `Vfs::resolve` (`src/Vfs.cc:176-195`). -/
def resolve (path : Bytes) (root : Node) : Except Fail (Option Node) :=
  match resolveWith (fun n => .ok (n, n)) (path.length + 1) root path with
  | .error e => .error e
  | .ok none => .ok none
  | .ok (some (_, n)) => .ok (some n)

mutual
/-- `count_nodes` (`src/Vfs.cc:225-235`). -/
def count : Node → Nat
  | .file _ _ _ => 1
  | .dir _ _ cs => 1 + countAll cs
/-- The loop of `count_nodes`. -/
def countAll : List Node → Nat
  | [] => 0
  | x :: xs => count x + countAll xs
end

/-- `Vfs::find` (`src/Vfs.cc:197-215`); the stack is listed top first. Only directories are pushed. -/
def findLoop (name : Bytes) : Nat → List Node → Except Fail (Option Node)
  | 0, _ => .error .hang
  | _ + 1, [] => .ok none
  | fuel + 1, n :: stack =>
    match n.children with
    | .error _ => .error .terminate
    | .ok cs =>
      match childIn name cs with
      | some c => .ok (some c)
      | none => findLoop name fuel ((cs.filter (fun x => !x.isFile)).reverse ++ stack)

/-- `Vfs::find` (`src/Vfs.cc:197-215`). -/
def find (name : Bytes) (root : Node) : Except Fail (Option Node) := findLoop name (count root + 1) [root]

/-- `Vfs::mkdir` (`src/Vfs.cc:502-528`); `now` is the clock. The value is the changed tree and the directory that is
returned. A tree is changed only behind the last call that can throw: the parts in front of a file exist. -/
def mkdirLoop (now : Int) : Nat → Node → Bytes → Except Fail (Node × Node)
  | 0, _, _ => .error .hang
  | fuel + 1, ctx, path =>
    if path.isEmpty then .ok (ctx, ctx)
    else match slash path with
    | some 0 => mkdirLoop now fuel ctx (path.drop 1)
    | next =>
      let name := match next with | some i => path.take i | none => path
      let rest := match next with | some i => path.drop (i + 1) | none => []
      match ctx with
      | .file .. => .error (.throw .badVariantAccess)
      | .dir n t cs =>
        match childIn name cs with
        | none =>
          let (cs', c) := createIn (.dir name now []) cs
          match mkdirLoop now fuel c rest with
          | .error e => .error e
          | .ok (c', r) => .ok (.dir n t (setReplace c' cs'), r)
        | some c =>
          if c.isFile then .error (.throw .vfsFileExists)
          else match mkdirLoop now fuel c rest with
          | .error e => .error e
          | .ok (c', r) => .ok (.dir n t (setReplace c' cs), r)

/-- `Vfs::mkdir` (`src/Vfs.cc:502-528`). -/
def mkdir (now : Int) (path : Bytes) (root : Node) : Except Fail (Node × Node) :=
  mkdirLoop now (path.length + 1) root path

/-- `path.rfind('/')` -/
def rslash (path : Bytes) : Option Nat :=
  match path.reverse.findIdx? (· == 47) with
  | none => none
  | some i => some (path.length - 1 - i)

/-- `parentPath` of `Vfs::remove` (`src/Vfs.cc:531-532`). -/
def parentOf (path : Bytes) : Bytes :=
  match rslash path with
  | some i => path.take i
  | none => []

/-- `childName` of `Vfs::remove` (`src/Vfs.cc:533`); `npos + 1` is zero. -/
def nameOf (path : Bytes) : Bytes :=
  match rslash path with
  | some i => path.drop (i + 1)
  | none => path

/-- `Vfs::remove` (`src/Vfs.cc:530-538`). -/
def remove (path : Bytes) (root : Node) : Except Fail (Node × Bool) :=
  match resolveWith (Node.remove (nameOf path)) ((parentOf path).length + 1) root (parentOf path) with
  | .error e => .error e
  | .ok none => .ok (root, false)
  | .ok (some (root', b)) => .ok (root', b)

/-- `VfsOverwriteBehavior` (`include/zenkit/Vfs.hh:96-101`). -/
inductive Overwrite where
  | none | all | newer | older
  deriving DecidableEq, Repr

/-- The `switch` of `Vfs::mount` and of `mount_disk` (`src/Vfs.cc:477-488, 662-677, 697-712`): `true` when the existing
node, with time `ex`, is replaced by the new one, with time `src`. -/
def Overwrite.replaces (o : Overwrite) (ex src : Int) : Bool :=
  match o with
  | .none => false
  | .all => true
  | .newer => !(ex ≤ src)
  | .older => !(ex ≥ src)

mutual
/-- The loop of `Vfs::mount` (`src/Vfs.cc:460-499`) for one source node and everything that is pushed for it. The
stacks are last in first out, so that all nodes below `source` are finished before the loop goes on with the nodes
that were pushed earlier; the recursion replaces the stacks and the pointers into the destination. -/
def mountInto (o : Overwrite) : Node → List Node → List Node
  | source, dest =>
    match childIn source.name dest with
    | Option.none => (createIn source dest).1
    | some ex =>
      if ex.isFile || source.isFile then
        if o.replaces ex.time source.time then (createIn source (removeIn ex.name dest).1).1
        else dest
      else
        match source, ex with
        | .dir _ _ kids, .dir n t cs => setReplace (.dir n t (mountAll o kids cs)) dest
        | _, _ => dest
/-- The children of a source directory, the last one first: they were pushed in order. -/
def mountAll (o : Overwrite) : List Node → List Node → List Node
  | [], dest => dest
  | x :: xs, dest => mountInto o x (mountAll o xs dest)
end

/-- `Vfs::mount` (`src/Vfs.cc:450-500`). -/
def mount (node : Node) (parent : Bytes) (o : Overwrite) (root : Node) : Except Fail Node :=
  match resolveWith (fun p => match p with
      | .file .. => .error (.throw .vfsFileExists)
      | .dir n t cs => .ok (.dir n t (mountInto o node cs), ())) (parent.length + 1) root parent with
  | .error e => .error e
  | .ok Option.none => .error (.throw .vfsNotFound)
  | .ok (some (root', _)) => .ok root'

/-- `Vfs::Vfs` (`src/Vfs.cc:174`): an empty root directory. -/
def empty : Node := .dir b!"/" (-1) []

end Verif.Vfs
