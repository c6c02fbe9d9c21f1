import Verif.Model.ArchiveGraph

/-! # Way nets: `src/world/WayNet.cc` -/

namespace Verif

open Ar

/-- `struct WayPoint` (`include/zenkit/world/WayNet.hh:16-28`). -/
structure WayPoint where
  name : Bytes
  waterDepth : BitVec 32
  underWater : Bool
  position : Vec3
  direction : Vec3
  freePoint : Bool
  deriving DecidableEq, Repr

/-- `WayPoint::save` (`src/world/WayNet.cc:18-24`): the calls it makes. -/
def WayPoint.fields (p : WayPoint) : List Field :=
  [.val b!"wpName" (.string p.name), .val b!"waterDepth" (.int p.waterDepth), .val b!"underWater" (.bool p.underWater),
    .val b!"position" (.vec3 p.position), .val b!"direction" (.vec3 p.direction)]

/-- `WayPoint::load` (`src/world/WayNet.cc:10-16`): the calls it makes. -/
def WayPoint.load (seen : List Seen) : Option Want := ([Kind.string, .int, .bool, .vec3, .vec3][seen.length]?).map .val

/-- The way points in memory, by address. -/
abbrev WpHeap := Nat → Option WayPoint

/-- The way points as objects: `ZK_OBJECT(ObjectType::zCWaypoint)` (`include/zenkit/world/WayNet.hh:17`), and the version of `Object`
(`src/Object.cc:8-10`). -/
def WpHeap.objects (P : WpHeap) : GHeap := fun a => (P a).map fun p => ⟨.zCWaypoint, 0, p.fields⟩

/-- `class WayNet` (`include/zenkit/world/WayNet.hh:33-44`). -/
structure WayNet where
  points : List (Option Nat)
  edges : List (Option Nat × Option Nat)
  deriving DecidableEq, Repr

/-- The points with `point->free_point` (`src/world/WayNet.cc:54-56, 60-65`). -/
def WayNet.freePoints (P : WpHeap) : List (Option Nat) → Except Fail (List Nat)
  | [] => .ok []
  | none :: _ => .error .ub
  | some a :: rest =>
    match P a with
    | none => .error .ub
    | some p => do
      let l ← freePoints P rest
      return if p.freePoint then a :: l else l

/-- Calls of `write_object` with numbered names. -/
def numberedPtrs (name : Bytes) (l : List (Option Nat)) : List Field :=
  l.zipIdx.map fun p => .ptr (name ++ dec (p.2 % 2 ^ 32)) p.1

/-- The calls of `write_object` for the edges (`src/world/WayNet.cc:68-72`). -/
def edgePtrs (l : List (Option Nat × Option Nat)) : List Field :=
  l.zipIdx.flatMap fun p => [.ptr (b!"wayl" ++ dec (p.2 % 2 ^ 32)) p.1.1, .ptr (b!"wayr" ++ dec (p.2 % 2 ^ 32)) p.1.2]

/-- `WayNet::save` (`src/world/WayNet.cc:50-73`): the calls it makes. Sizes are cut to 32 bits. -/
def WayNet.save (P : WpHeap) (net : WayNet) : Except Fail (List Field) := do
  let free ← freePoints P net.points
  return .val b!"waynetVersion" (.int 1) :: .val b!"numWaypoints" (.int (BitVec.ofNat 32 free.length)) ::
    (numberedPtrs b!"waypoint" (free.map some) ++ .val b!"numWays" (.int (BitVec.ofNat 32 net.edges.length)) :: edgePtrs net.edges)

/-- `read_int`. The case of another value does not occur. -/
def readInt {σ} (r : Reader σ) (s : σ) : Except Fail (BitVec 32 × σ) := do
  match ← r.val .int s with
  | (.int v, s) => return (v, s)
  | _ => .error .ub

/-- `reserve` with an `int`: a negative number is more than `max_size`. -/
def reserve (n : BitVec 32) : Except Fail Nat := if n.toInt < 0 then .error (.throw .lengthError) else .ok n.toNat

/-- `read_object<T>` (`include/zenkit/Archive.hh:133-143`). -/
def readObjectOf {σ} (r : Reader σ) (S : Schema) (t : ObjectType) (fuel : Nat) (s : σ) (g : GRd) :
    Except Fail (Option Nat × σ × GRd) := do
  let (p, s, g) ← readPtr r S fuel s g
  match p with
  | none => return (none, s, g)
  | some n => if (g.heap[n]?.map (·.1)) = some t then return (some n, s, g) else .error (.throw .parser)

/-- A loaded way net, and the objects whose `free_point` was set; in others it is `false` (`include/zenkit/world/WayNet.hh:24`). -/
structure LoadedNet extends WayNet where
  free : List Nat
  deriving DecidableEq, Repr

/-- The first loop of `WayNet::load` (`src/world/WayNet.cc:31-34`). -/
def WayNet.loadPoints {σ} (r : Reader σ) (S : Schema) (fuel : Nat) :
    Nat → LoadedNet → σ → GRd → Except Fail (LoadedNet × σ × GRd)
  | 0, net, s, g => .ok (net, s, g)
  | k + 1, net, s, g => do
    let (p, s, g) ← readObjectOf r S .zCWaypoint fuel s g
    match p with
    | none => .error .ub
    | some n => loadPoints r S fuel k { net with points := net.points ++ [some n], free := net.free ++ [n] } s g

/-- Owners of an object among the pointers in a list. -/
def ownersIn (n : Nat) (l : List (Option Nat)) : Nat := l.count (some n)

/-- Owners of an object among the edges. -/
def ownersEdges (n : Nat) (l : List (Option Nat × Option Nat)) : Nat :=
  ownersIn n (l.map (·.1)) + ownersIn n (l.map (·.2))

/-- Owners of an object among the loaded objects. -/
def ownersHeap (n : Nat) (heap : List (ObjectType × List Got)) : Nat := (heap.map fun o => o.2.count (.ptr (some n))).sum

/-- Owners of an object in the cache of the reader. -/
def ownersCache (n : Nat) (cache : List (BitVec 32 × Nat)) : Nat := cache.countP fun p => p.2 == n

/-- `use_count()`: owners are the cache of the reader, loaded objects, the way net and the given local variables. -/
def useCount (g : GRd) (net : WayNet) (vars : List (Option Nat)) : Option Nat → Nat
  | none => 0
  | some n => ownersCache n g.cache + ownersHeap n g.heap + ownersIn n net.points + ownersEdges n net.edges + ownersIn n vars

/-- The second loop of `WayNet::load` (`src/world/WayNet.cc:39-47`). -/
def WayNet.loadEdges {σ} (r : Reader σ) (S : Schema) (fuel : Nat) :
    Nat → LoadedNet → σ → GRd → Except Fail (LoadedNet × σ × GRd)
  | 0, net, s, g => .ok (net, s, g)
  | k + 1, net, s, g => do
    let (wayl, s, g) ← readObjectOf r S .zCWaypoint fuel s g
    let (wayr, s, g) ← readObjectOf r S .zCWaypoint fuel s g
    let net := if useCount g net.toWayNet [wayl, wayr] wayl < 3 then { net with points := net.points ++ [wayl] } else net
    let net := if useCount g net.toWayNet [wayl, wayr] wayr < 3 then { net with points := net.points ++ [wayr] } else net
    loadEdges r S fuel k { net with edges := net.edges ++ [(wayl, wayr)] } s g

/-- `WayNet::load` (`src/world/WayNet.cc:26-48`) into a new way net. `S` are the `load` functions of the objects, `fuel` is for
`read_object`. -/
def WayNet.load {σ} (r : Reader σ) (S : Schema) (fuel : Nat) (s : σ) (g : GRd) : Except Fail (LoadedNet × σ × GRd) := do
  let (_, s) ← readInt r s
  let (n, s) ← readInt r s
  let n ← reserve n
  let (net, s, g) ← loadPoints r S fuel n ⟨⟨[], []⟩, []⟩ s g
  let (n, s) ← readInt r s
  let n ← reserve n
  loadEdges r S fuel n net s g

end Verif
