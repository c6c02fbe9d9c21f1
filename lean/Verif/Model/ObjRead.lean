import Verif.Model.ObjAny
import Verif.Model.ArchiveBinary
import Verif.Model.ArchiveAscii
import Verif.Model.ArchiveHeader

/-!
# Reading objects with the exceptions of their classes

`Verif.Ar.readPtr` knows of a class only which calls its `load` makes. Here the `load` functions themselves run, so that everything
that goes wrong in them is seen: exceptions, and what a damaged file leads to.
-/

namespace Verif.Obj

open Verif.Ar

/-- The objects made by the reader with what `load` has made of them (none while `load` runs), and `_m_cache`
(`include/zenkit/Archive.hh:258`). -/
structure Made where
  heap : List (ObjectType × Option (Any Nat))
  cache : List (BitVec 32 × Nat)
  deriving DecidableEq, Repr

/-- Running a program: `ptr` is `read_object`. `read_object<T>` throws when the object has another type
(`include/zenkit/Archive.hh:135-143`). -/
def Ld.runOn {σ γ α} (r : Reader σ) (env : Env Nat) (ptr : σ → γ → Except Fail (Option Nat × σ × γ)) :
    Ld Nat α → σ → γ → Except Fail (α × σ × γ)
  | .ret a, s, g => .ok (a, s, g)
  | .fail e, _, _ => .error e
  | .val k f, s, g =>
    match r.val k s with
    | .ok (v, s) => (f v).runOn r env ptr s g
    | .error e => .error e
  | .ptr f, s, g =>
    match ptr s g with
    | .ok (p, s, g) => (f p).runOn r env ptr s g
    | .error e => .error e
  | .ptrAs t f, s, g =>
    match ptr s g with
    | .ok (none, s, g) => (f none).runOn r env ptr s g
    | .ok (some a, s, g) => if env.is t a then (f (some a)).runOn r env ptr s g else .error (.throw .parser)
    | .error e => .error e
  | .skip p, s, g =>
    match r.skipObj false s with
    | .ok (_, s) => p.runOn r env ptr s g
    | .error e => .error e

/-- `WayPoint::load` (`src/world/WayNet.cc:10-16`); the members are not kept here. -/
def wayPointLoad : Ld Nat Unit := do
  let _ ← Ld.str
  let _ ← Ld.int
  let _ ← Ld.bool
  let _ ← Ld.vec3
  let _ ← Ld.vec3
  return ()

/-- `load` of the object that is made for an object type. `WayNet` and `World` are described elsewhere (`Verif.Model.WayNet`,
`Verif.Model.World`); here they are undefined behaviour. -/
def loadFor (c : Ctx) (env : Env Nat) (t : ObjectType) : Ld Nat (Option (Any Nat)) :=
  match clsOf t with
  | some k => (k.blank.load c env).bind fun x => .ret (some x)
  | none => if t = .zCWaypoint then wayPointLoad.bind fun _ => .ret none else .fail .ub

/-- `ReadArchive::read_object` (`src/Archive.cc:255-527`). What is asked about objects is a parameter (`env`): the type of an object never
changes and its flags are asked for when it is complete, so that one set of answers belongs to every run. Fuel: the depth of the
recursion. Simplification: the stack of the program has no limit; the id that virtual objects get is not kept. -/
def readAny {σ} (r : Reader σ) (c : Ctx) (env : Env Nat) : Nat → σ → Made → Except Fail (Option Nat × σ × Made)
  | 0, _, _ => .error .hang
  | fuel + 1, s, g =>
    match r.objBegin s with
    | .error e => .error e
    | .ok (none, s) => .ok (none, s, g)
    | .ok (some h, s) =>
      if h.cls = refClass then
        match endOrSkip r s with
        | .error e => .error e
        | .ok (_, s) => .ok (g.cache.lookup h.index, s, g)
      else if h.cls = nullClass then
        match r.skipObj true s with
        | .error e => .error e
        | .ok (_, s) => .ok (none, s, g)
      else
        match classFor h.cls with
        | none =>
          match endOrSkip r s with
          | .error e => .error e
          | .ok (_, s) => .ok (none, s, g)
        | some k =>
          let n := g.heap.length
          match (loadFor c env k.type).runOn r env (readAny r c env fuel) s
              ⟨g.heap ++ [(k.type, none)], insertOrAssign g.cache h.index n⟩ with
          | .error e => .error e
          | .ok (x, s, g) =>
            match endOrSkip r s with
            | .error e => .error e
            | .ok (_, s) => .ok (some n, s, { g with heap := g.heap.set n (k.type, x) })

/-- `ReadArchive::from` (`src/Archive.cc:234-253`) and `read_object` (`src/Archive.cc:255-527`): the object that is first in a file. The
stream is what is left of it. -/
def readFirst (game : Game) (env : Env Nat) (fuel : Nat) (data : Bytes) : Except Fail (Option Nat × Rs × Made) :=
  match openArchive ⟨data, 0⟩ with
  | .error e => .error e
  | .ok (o, s) =>
    let c : Ctx := ⟨game, o.header.save, true⟩
    match o.header.format with
    | .ascii => readAny Asc.reader c env fuel s ⟨[], []⟩
    | .binary => (readAny Bin.reader c env fuel ⟨s, []⟩ ⟨[], []⟩).map fun x => (x.1, x.2.1.rs, x.2.2)
    | .binsafe => readAny Bs.reader c env fuel s ⟨[], []⟩

end Verif.Obj
