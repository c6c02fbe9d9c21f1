import Verif.Model.Vfs
import Verif.Model.Zipped
import Verif.Model.StreamTypes

/-!
# Disk archives (VDF)

`Vfs::save`, `Vfs::save_compressed` and `Vfs::mount_disk` (`src/Vfs.cc:251-404, 584-733`), built with
`_ZK_WITH_ZIPPED_VDF`. The compressor (`mz_compress`), the decompressor (`mz_uncompress`) and the conversion of DOS
times are parameters.
-/

namespace Verif.Vfs

open Zip (Unz)

/-! ## Reading a file -/

/-- `VfsNode::open_read` (`src/Vfs.cc:126-144`) followed by reading all of the stream: the size the stream reports
(`seek(0, END)` and `tell`) and the bytes `read` copies. A range that is not inside of the memory is undefined. -/
def readFile (unz : Unz) (d : Desc) : Except Fail (Nat × Bytes) :=
  if d.off + d.size > d.mem.length then .error .ub
  else if d.zipped then
    match Zip.fromZipped ⟨(d.mem.drop d.off).take d.size, 0⟩ with
    | .error e => .error e
    | .ok none =>
      if d.off + d.raw > d.mem.length then .error .ub
      else .ok (d.raw, (d.mem.drop d.off).take d.raw)
    | .ok (some z) =>
      match Zip.read unz z.length z with
      | .error e => .error e
      | .ok (out, _) => .ok (z.length, out)
  else .ok (d.size, (d.mem.drop d.off).take d.size)

/-! ## Saving -/

/-- The signatures (`src/Vfs.cc:23-25`). -/
def sigG1 : Bytes := b!"PSVDSC_V2.00\r\n\r\n"
def sigG2 : Bytes := b!"PSVDSC_V2.00\n\r\n\r"
def sigTool : Bytes := b!"PSVDSC_V2.00\x1A\x1A\x1A\x1A"

/-- The state of `save_internal` (`src/Vfs.cc:312-323`). -/
structure Save where
  /-- `write_catalog` -/
  cat : Ws
  /-- `w` -/
  out : Ws
  cache : Bytes
  index : BitVec 32
  files : BitVec 32
  deriving DecidableEq, Repr

/-- `VFS_ZIPPED_BLOCK_SIZE` (`src/Vfs.cc:253`). -/
def zippedBlock : Nat := 8192

/-- `vfs_is_wave_file` (`src/Vfs.cc:257-261`). -/
def isWave (name : Bytes) : Bool :=
  if name.length < 4 then false
  else iequals (name.drop (name.length - 4)) b!".wav" || iequals (name.drop (name.length - 4)) b!".ogg"

/-- The loop of `vfs_write_zipped` (`src/Vfs.cc:281-299`); `zip` is `mz_compress`. -/
def writeBlocks (zip : Bytes → Bytes) (data : Bytes) : List Nat → Ws → Ws
  | [], w => w
  | i :: is, w =>
    let src := (data.drop (i * zippedBlock)).take zippedBlock
    let w := ((w.u32 (BitVec.ofNat 32 src.length)).u32 (BitVec.ofNat 32 (zip src).length)).u32
      (BitVec.ofNat 32 zippedBlock)
    writeBlocks zip data is (w.write (zip src))

/-- `vfs_write_zipped` (`src/Vfs.cc:270-300`). -/
def writeZipped (zip : Bytes → Bytes) (data : Bytes) (w : Ws) : Ws :=
  let count : BitVec 32 := BitVec.ofNat 32 ((data.length + zippedBlock - 1) / zippedBlock)
  let w := ((w.u32 (BitVec.ofNat 32 data.length)).u32 (BitVec.ofNat 32 zippedBlock)).u32 count
  writeBlocks zip data (List.range count.toNat) w

/-- `name.resize(64, ' ')` (`src/Vfs.cc:330-331`). -/
def padName (name : Bytes) : Bytes := name.take 64 ++ List.replicate (64 - name.length) 32

/-- The first loop of `write_node` (`src/Vfs.cc:329-370`): writes the entries of a directory and the contents of its
files. The value is the list of the catalog positions at which the offsets of the directories are stored; the nodes
that go with them in `dirs` are the directories of the list in order. `i + 1 == size` holds for the last one. -/
def writeEntries (unz : Unz) (zip : Bytes → Bytes) (compressed : Bool) :
    List Node → Save → Except Fail (List Nat × Save)
  | [], s => .ok ([], s)
  | .file n _ d :: rest, s =>
    let cat := s.cat.string (padName n)
    match readFile unz d with
    | .error e => .error e
    | .ok (sz, bytes) =>
      let cache := bytes ++ (Zip.resize s.cache sz).drop bytes.length
      let cat := (cat.u32 (BitVec.ofNat 32 s.out.pos)).u32 (BitVec.ofNat 32 sz)
      let cat := cat.u32 (if rest.isEmpty then 0x40000000 else 0)
      let out := if compressed && !isWave n then writeZipped zip cache s.out else s.out.write cache
      let cat := cat.u32 0
      match writeEntries unz zip compressed rest
          { cat := cat, out := out, cache := cache, index := s.index + 1, files := s.files + 1 } with
      | .error e => .error e
      | .ok r => .ok r
  | .dir n _ _ :: rest, s =>
    let cat := s.cat.string (padName n)
    let here := cat.pos
    let cat := (cat.u32 0).u32 0
    let cat := cat.u32 (if rest.isEmpty then 0xC0000000 else 0x80000000)
    let cat := cat.u32 0
    match writeEntries unz zip compressed rest { s with cat := cat, index := s.index + 1 } with
    | .error e => .error e
    | .ok (offs, s) => .ok (here :: offs, s)

mutual
/-- `write_node` (`src/Vfs.cc:325-380`) on the children of a node. -/
def writeNode (unz : Unz) (zip : Bytes → Bytes) (compressed : Bool) : Node → Save → Except Fail Save
  | .file .., _ => .error (.throw .badVariantAccess)
  | .dir _ _ cs, s =>
    match writeEntries unz zip compressed cs s with
    | .error e => .error e
    | .ok (offs, s) => writeDirs unz zip compressed cs offs s
/-- The second loop of `write_node` (`src/Vfs.cc:372-379`). -/
def writeDirs (unz : Unz) (zip : Bytes → Bytes) (compressed : Bool) : List Node → List Nat → Save → Except Fail Save
  | [], _, s => .ok s
  | .file .. :: rest, offs, s => writeDirs unz zip compressed rest offs s
  | .dir n t cs :: rest, offs, s =>
    match offs with
    | [] => .error .ub
    | off :: offs =>
      let here := s.cat.pos
      let cat := ((s.cat.seek off .beg).u32 s.index).seek here .beg
      match writeNode unz zip compressed (.dir n t cs) { s with cat := cat } with
      | .error e => .error e
      | .ok s => writeDirs unz zip compressed rest offs s
end

/-- The size of the header (`src/Vfs.cc:316`). -/
def headerSize : Nat := 296

/-- `Vfs::save_internal` (`src/Vfs.cc:311-404`) into an empty file; `dos` is the DOS time, `g1` chooses the
signature. -/
def save (unz : Unz) (zip : Bytes → Bytes) (compressed g1 : Bool) (dos : BitVec 32) (root : Node) : Except Fail Bytes :=
  let catalogSize : BitVec 32 := (BitVec.ofNat 32 (count root) - 1) * 80
  let w := Ws.empty.seek (BitVec.ofNat 32 headerSize + catalogSize).toNat .beg
  match writeNode unz zip compressed root ⟨Ws.empty, w, [], 0, 0⟩ with
  | .error e => .error e
  | .ok s =>
    let off := s.out.pos
    let w := s.out.seek 0 .beg
    let w := w.string (b!"Created using ZenKit" ++ List.replicate 236 26)
    let w := w.string (if g1 then sigG1 else sigG2)
    let w := (((w.u32 s.index).u32 s.files).u32 dos).u32 (BitVec.ofNat 32 (off + s.cat.data.length))
    let w := w.u32 (BitVec.ofNat 32 headerSize)
    let w := w.u32 (if compressed then 0xA0 else 0x50)
    let w := w.seek headerSize .beg
    .ok (w.write s.cat.data).data

/-! ## Mounting -/

/-- An entry of the catalog. -/
structure Entry where
  name : Bytes
  offset : BitVec 32
  size : BitVec 32
  type : BitVec 32
  deriving DecidableEq, Repr

/-- The name without whitespace at its end, unless there is nothing else (`src/Vfs.cc:635-643`). -/
def entryName (s : Bytes) : Bytes := if (trim s).isEmpty then s else trim s

/-- The first part of `load_entry` (`src/Vfs.cc:629-645`). -/
def readEntry : Rd Entry := do
  let name ← Rd.string 64
  let offset ← Rd.u32
  let size ← Rd.u32
  let type ← Rd.u32
  let _ ← Rd.u32
  return ⟨entryName name, offset, size, type⟩

/-- What `load_entry` captures. -/
structure Disk where
  buf : Bytes
  catalog : BitVec 32
  time : Int
  zipped : Bool
  o : Overwrite
  deriving DecidableEq, Repr

/-- A directory entry gets its node (`src/Vfs.cc:659-681`): the children of the parent afterwards, with the node
`existing` points to; `none` when the policy keeps a file. -/
def enterDir (k : Disk) (name : Bytes) (cs : List Node) : List Node × Option Node :=
  match childIn name cs with
  | none => let (cs, n) := createIn (.dir name k.time []) cs; (cs, some n)
  | some ex =>
    if ex.isFile then
      if k.o.replaces ex.time k.time then
        let (cs, n) := createIn (.dir name k.time []) (removeIn name cs).1
        (cs, some n)
      else (cs, none)
    else (cs, some ex)

/-- The check of the range of a file (`src/Vfs.cc:692-694`); `e_offset + e_size` is 32 bits wide. -/
def outside (k : Disk) (e : Entry) : Bool :=
  if k.zipped then decide (e.offset.toNat ≥ k.buf.length) else decide ((e.offset + e.size).toNat > k.buf.length)

/-- The node of a file (`src/Vfs.cc:720-724`). -/
def fileNode (k : Disk) (e : Entry) : Node :=
  let size := if k.zipped then k.buf.length - e.offset.toNat else e.size.toNat
  .file e.name k.time (Desc.make k.buf e.offset.toNat size k.zipped e.size.toNat)

/-- A file entry (`src/Vfs.cc:692-724`): the children of the parent afterwards. -/
def enterFile (k : Disk) (e : Entry) (cs : List Node) : List Node :=
  if outside k e then cs
  else
    match childIn e.name cs with
    | none => (createIn (fileNode k e) cs).1
    | some ex =>
      if k.o.replaces ex.time k.time then (createIn (fileNode k e) (removeIn e.name cs).1).1 else cs

mutual
/-- `load_entry` (`src/Vfs.cc:627-728`) on the children of `parent`: the children afterwards, with `last` and the
reader. When it fails, the children are what they were at that moment. A node that is entered is always a directory,
except when `create` gave back a file that was there already (names of blanks only): then `child` throws. Without
fuel the recursion or the loop goes on forever. -/
def loadEntry (k : Disk) : Nat → List Node → Rs → List Node × Except Fail (Bool × Rs)
  | 0, cs, _ => (cs, .error .hang)
  | fuel + 1, cs, s =>
    match readEntry s with
    | .error e => (cs, .error e)
    | .ok (e, s) =>
      let last := e.type &&& 0x40000000 != 0
      if e.type &&& 0x80000000 != 0 then
        match enterDir k e.name cs with
        | (cs, none) => (cs, .ok (last, s))
        | (cs, some (.file ..)) => (cs, .error (.throw .badVariantAccess))
        | (cs, some (.dir n t kids)) =>
          let self := s.pos
          match Rd.seek (k.catalog + e.offset * 80).toNat .beg s with
          | .error x => (cs, .error x)
          | .ok (_, s) =>
            let (kids, r) := loadLoop k fuel kids s
            let cs := setReplace (.dir n t kids) cs
            match r with
            | .error x => (cs, .error x)
            | .ok s =>
              match Rd.seek self .beg s with
              | .error x => (cs, .error x)
              | .ok (_, s) => (cs, .ok (last, s))
      else (enterFile k e cs, .ok (last, s))
/-- `while (!load_entry(...));` (`src/Vfs.cc:685-686, 731-732`). -/
def loadLoop (k : Disk) : Nat → List Node → Rs → List Node × Except Fail Rs
  | 0, cs, _ => (cs, .error .hang)
  | fuel + 1, cs, s =>
    match loadEntry k fuel cs s with
    | (cs, .error e) => (cs, .error e)
    | (cs, .ok (true, s)) => (cs, .ok s)
    | (cs, .ok (false, s)) => loadLoop k fuel cs s
end

/-- The header of a disk (`src/Vfs.cc:585-625`): the catalog offset, the timestamp, and whether files are compressed. -/
def readDiskHeader : Rd (BitVec 32 × BitVec 32 × Bool) := do
  let _ ← Rd.string 256
  let signature ← Rd.string 16
  let _ ← Rd.u32
  let _ ← Rd.u32
  let dos ← Rd.u32
  let _ ← Rd.u32
  let catalog ← Rd.u32
  let flags ← Rd.u32
  if signature == sigTool || signature == sigG1 || signature == sigG2 then
    let pos ← Rd.tell
    return (if catalog == 0 then BitVec.ofNat 32 pos else catalog, dos, flags == 0xA0)
  else Rd.fail (.throw .vfsBrokenDisk)

/-- `Vfs::mount_disk(buf, size, overwrite)` (`src/Vfs.cc:584-733`): the tree afterwards and how the call ended.
`unixTime` is `vfs_dos_to_unix_time`. -/
def mountDisk (unixTime : BitVec 32 → Int) (fuel : Nat) (buf : Bytes) (o : Overwrite) (root : Node) :
    Node × Except Fail Unit :=
  match readDiskHeader ⟨buf, 0⟩ with
  | .error e => (root, .error e)
  | .ok ((catalog, dos, zipped), s) =>
    match root with
    | .file .. => (root, .error (.throw .badVariantAccess))
    | .dir n t cs =>
      match Rd.seek catalog.toNat .beg s with
      | .error e => (root, .error e)
      | .ok (_, s) =>
        let (cs, r) := loadLoop ⟨buf, catalog, unixTime dos, zipped, o⟩ fuel cs s
        (.dir n t cs, r.map fun _ => ())

end Verif.Vfs
