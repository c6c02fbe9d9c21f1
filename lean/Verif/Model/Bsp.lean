import Verif.Model.Chunk

/-!
# BSP trees: `src/world/BspTree.cc`, `include/zenkit/world/BspTree.hh`

References into a vector are modelled by a generation number: every reallocation of the vector starts a new generation, and
an access through a reference of an older generation is undefined behaviour. Memory is unlimited (no `bad_alloc`) and so is
the call stack.
-/

namespace Verif

/-- `struct BspNode` (`include/zenkit/world/BspTree.hh:26-40`). -1 is `0xFFFFFFFF`. -/
structure BspNode where
  plane : Vec4
  bbox : Aabb
  polygonIndex : BitVec 32
  polygonCount : BitVec 32
  frontIndex : BitVec 32 := 0xFFFFFFFF
  backIndex : BitVec 32 := 0xFFFFFFFF
  parentIndex : BitVec 32 := 0xFFFFFFFF
  lod : BitVec 8 := 0
  deriving DecidableEq, Repr

/-- A value-initialised node (`nodes.emplace_back()`). -/
def BspNode.fresh : BspNode := { plane := ⟨0, 0, 0, 0⟩, bbox := ⟨⟨0, 0, 0⟩, ⟨0, 0, 0⟩⟩, polygonIndex := 0, polygonCount := 0 }

/-- `BspNode::is_leaf` (`include/zenkit/world/BspTree.hh:37-39`). -/
def BspNode.isLeaf (n : BspNode) : Bool := n.frontIndex == 0xFFFFFFFF && n.backIndex == 0xFFFFFFFF

/-- `struct BspSector` (`include/zenkit/world/BspTree.hh:43-47`). -/
structure BspSector where
  name : Bytes
  nodeIndices : List (BitVec 32)
  portalIndices : List (BitVec 32)
  deriving DecidableEq, Repr

/-- `class BspTree` (`include/zenkit/world/BspTree.hh:53-80`). -/
structure Bsp where
  mode : BitVec 32 := 0
  polygonIndices : List (BitVec 32) := []
  leafPolygons : List (BitVec 32) := []
  lightPoints : List Vec3 := []
  sectors : List BspSector := []
  portalIndices : List (BitVec 32) := []
  nodes : List BspNode := []
  leafNodes : List Nat := []
  deriving DecidableEq, Repr

/-- The vectors filled by `_parse_bsp_nodes`, with the capacity and the generation of the vector of nodes. -/
structure BspParse where
  nodes : List BspNode
  leaves : List Nat
  cap : Nat
  gen : Nat
  deriving DecidableEq, Repr

namespace BspParse

/-- `nodes.emplace_back()` as in libstdc++: a full vector doubles its capacity and moves its elements. -/
def emplace (st : BspParse) : BspParse :=
  if st.nodes.length < st.cap then { st with nodes := st.nodes ++ [BspNode.fresh] }
  else { st with nodes := st.nodes ++ [BspNode.fresh], cap := max 1 (2 * st.nodes.length), gen := st.gen + 1 }

/-- A write through a reference to the node `i` that was taken in generation `gen`. -/
def put (st : BspParse) (gen i : Nat) (f : BspNode → BspNode) : Except Fail BspParse :=
  if st.gen = gen then .ok { st with nodes := st.nodes.modify i f } else .error .ub

end BspParse

/-- The result of a computation without input. -/
def Rd.lift {α} (x : Except Fail α) : Rd α := fun s => x.map (·, s)

/-- `_parse_bsp_nodes` (`src/world/BspTree.cc:23-72`), with fuel for the depth of the recursion. -/
def Bsp.parse (g1 : Bool) : Nat → BspParse → BitVec 32 → Bool → Rd BspParse
  | 0, _, _, _ => Rd.fail .hang
  | fuel + 1, st, parent, leaf => do
    let self := st.nodes.length
    let st := st.emplace
    let gen := st.gen
    let bbox ← Aabb.load
    let polygonIndex ← Rd.u32
    let polygonCount ← Rd.u32
    let st ← Rd.lift (st.put gen self fun n => { n with parentIndex := parent, bbox, polygonIndex, polygonCount })
    if leaf then
      return { st with leaves := st.leaves ++ [self] }
    else do
      let flags ← Rd.u8
      let w ← Rd.f32
      let x ← Rd.f32
      let y ← Rd.f32
      let z ← Rd.f32
      let lod ← (if g1 then Rd.u8 else return 0)
      let st ← Rd.lift (st.put gen self fun n => { n with plane := ⟨x, y, z, w⟩, lod })
      let st ← (if flags &&& 1 ≠ 0 then do
          let st ← Rd.lift (st.put gen self fun n => { n with frontIndex := BitVec.ofNat 32 st.nodes.length })
          Bsp.parse g1 fuel st (BitVec.ofNat 32 self) (flags &&& 4 ≠ 0)
        else return st)
      (if flags &&& 2 ≠ 0 then do
          let st ← Rd.lift (st.put gen self fun n => { n with backIndex := BitVec.ofNat 32 st.nodes.length })
          Bsp.parse g1 fuel st (BitVec.ofNat 32 self) (flags &&& 8 ≠ 0)
        else return st)

/-- The polygons of one leaf (`src/world/BspTree.cc:103-105`). -/
def Bsp.leafGather (polygons : List (BitVec 32)) (n : BspNode) : Except Fail (List (BitVec 32)) :=
  (List.range n.polygonCount.toNat).mapM fun i =>
    match polygons[(n.polygonIndex + BitVec.ofNat 32 i).toNat]? with
    | some p => .ok p
    | none => .error .ub

/-- The loop over the leaves (`src/world/BspTree.cc:100-106`). -/
def Bsp.gather (polygons : List (BitVec 32)) (nodes : List BspNode) (leaves : List Nat) : Except Fail (List (BitVec 32)) := do
  let parts ← leaves.mapM fun i =>
    match nodes[i]? with
    | some n => Bsp.leafGather polygons n
    | none => .error .ub
  return parts.flatten

/-- `std::sort` of numbers. -/
def sortU32 (l : List (BitVec 32)) : List (BitVec 32) := l.mergeSort fun a b => a.toNat ≤ b.toNat

/-- The TREE chunk (`src/world/BspTree.cc:91-109`). The capacity of a vector that was not empty before is taken to be its
length. -/
def Bsp.onTree (g1 : Bool) (b : Bsp) : Rd Bsp := do
  let nodeCount ← Rd.u32
  let _leafCount ← Rd.u32
  let st ← (fun s => Bsp.parse g1 (s.data.length - s.pos + 1)
    { nodes := b.nodes, leaves := b.leafNodes, cap := max b.nodes.length nodeCount.toNat, gen := 0 } 0xFFFFFFFF
    (nodeCount == 1) s)
  let polys ← Rd.lift (Bsp.gather b.polygonIndices st.nodes st.leaves)
  return { b with nodes := st.nodes, leafNodes := st.leaves, leafPolygons := sortU32 (b.leafPolygons ++ polys) }

/-- One sector (`src/world/BspTree.cc:122-138`). -/
def BspSector.load : Rd BspSector := do
  let name ← Rd.line false
  let n ← Rd.u32
  let p ← Rd.u32
  let nodeIndices ← Rd.times Rd.u32 n.toNat
  let portalIndices ← Rd.times Rd.u32 p.toNat
  return { name, nodeIndices, portalIndices }

/-- The handler of `BspTree::load` (`src/world/BspTree.cc:75-157`). -/
def Bsp.onChunk (g1 : Bool) (b : Bsp) (type : BitVec 16) : Rd (Bsp × Bool) :=
  if type = 0xC000 then do
    let _ ← Rd.u16
    let mode ← Rd.u32
    return ({ b with mode }, false)
  else if type = 0xC010 then do
    let n ← Rd.u32
    let polygonIndices ← Rd.times Rd.u32 n.toNat
    return ({ b with polygonIndices }, false)
  else if type = 0xC040 then do
    let b ← Bsp.onTree g1 b
    return (b, false)
  else if type = 0xC045 then do
    let lightPoints ← Rd.times Rd.vec3 b.leafNodes.length
    return ({ b with lightPoints }, false)
  else if type = 0xC050 then do
    let n ← Rd.u32
    let sectors ← Rd.times BspSector.load n.toNat
    let k ← Rd.u32
    let portalIndices ← Rd.times Rd.u32 k.toNat
    return ({ b with sectors := b.sectors ++ sectors, portalIndices }, false)
  else if type = 0xC0FF then do
    let _ ← Rd.u8
    return (b, true)
  else return (b, false)

/-- `BspTree::load` (`src/world/BspTree.cc:74-158`); `g1`: the version is that of Gothic 1. -/
def Bsp.load (g1 : Bool) (b : Bsp) : Rd Bsp := readChunked (simpleCb (Bsp.onChunk g1)) b

/-- The bit for a child (`src/world/BspTree.cc:188-196`). -/
def Bsp.childFlags (nodes : List BspNode) (index present isLeaf : BitVec 32) : Except Fail (BitVec 32) :=
  if index ≠ 0xFFFFFFFF then
    match nodes[index.toNat]? with
    | some c => .ok (present ||| if c.isLeaf then isLeaf else 0)
    | none => .error .ub
  else .ok 0

/-- The flags of a node. -/
def Bsp.flags (nodes : List BspNode) (n : BspNode) : Except Fail (BitVec 8) := do
  let f ← Bsp.childFlags nodes n.frontIndex 1 4
  let b ← Bsp.childFlags nodes n.backIndex 2 8
  return (f ||| b).setWidth 8

/-- One node to a file (`src/world/BspTree.cc:181-207`); the flags have been computed. -/
def BspNode.save (g1 : Bool) (n : BspNode) (flags : BitVec 8) (w : Ws) : Ws :=
  let w := n.bbox.save w
  let w := w.u32 n.polygonIndex
  let w := w.u32 n.polygonCount
  if n.isLeaf then w
  else
    let w := w.u8 flags
    let w := w.f32 n.plane.w
    let w := w.f32 n.plane.x
    let w := w.f32 n.plane.y
    let w := w.f32 n.plane.z
    if g1 then w.u8 n.lod else w

/-- One sector to a file (`src/world/BspTree.cc:221-231`). -/
def BspSector.save (s : BspSector) (w : Ws) : Ws :=
  let w := w.line s.name
  let w := w.u32 (BitVec.ofNat 32 s.nodeIndices.length)
  let w := w.u32 (BitVec.ofNat 32 s.portalIndices.length)
  let w := s.nodeIndices.foldl (fun w i => w.u32 i) w
  s.portalIndices.foldl (fun w i => w.u32 i) w

/-- `BspTree::save` (`src/world/BspTree.cc:160-243`). The flags of all nodes are computed before the first write. -/
def Bsp.save (g1 : Bool) (b : Bsp) (w : Ws) : Except Fail Ws := do
  let flags ← b.nodes.mapM (Bsp.flags b.nodes)
  let w := writeChunk 0xC000 (fun w => (w.u16 2).u32 b.mode) w
  let w := writeChunk 0xC010 (fun w =>
    b.polygonIndices.foldl (fun w i => w.u32 i) (w.u32 (BitVec.ofNat 32 b.polygonIndices.length))) w
  let w := writeChunk 0xC040 (fun w =>
    let w := w.u32 (BitVec.ofNat 32 b.nodes.length)
    let w := w.u32 (BitVec.ofNat 32 b.leafNodes.length)
    (b.nodes.zip flags).foldl (fun w n => n.1.save g1 n.2 w) w) w
  let w := writeChunk 0xC045 (fun w => b.lightPoints.foldl (fun w p => w.vec3 p) w) w
  let w := writeChunk 0xC050 (fun w =>
    let w := w.u32 (BitVec.ofNat 32 b.sectors.length)
    let w := b.sectors.foldl (fun w s => s.save w) w
    let w := w.u32 (BitVec.ofNat 32 b.portalIndices.length)
    b.portalIndices.foldl (fun w i => w.u32 i) w) w
  return writeChunk 0xC0FF (fun w => w.u8 66) w

end Verif
