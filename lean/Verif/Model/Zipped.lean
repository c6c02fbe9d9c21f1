import Verif.Model.StreamMem

/-!
# Compressed file streams

`detail::ReadZipped` (`src/Stream.cc:501-668`). The zlib decompressor `mz_uncompress` is a parameter: from
the compressed bytes and the size of the output buffer to the bytes it wrote and whether it reported `MZ_OK`.
-/

namespace Verif.Zip

/-- `struct BlockInfo` (`src/Stream.cc:626-631`); `size_blk` is never used. -/
structure BlockInfo where
  lenSrc : Nat
  lenCmp : Nat
  offset : Nat
  deriving DecidableEq, Repr

/-- `mz_uncompress`: bytes written into the buffer, and success. -/
abbrev Unz := Bytes → Nat → Bytes × Bool

/-- The members of `ReadZipped` (`src/Stream.cc:617-640`). `cacheIdx` is `_m_cache_idx` when
`_m_cache_valid`. -/
structure Zip where
  stream : Rs
  length : Nat
  blockSize : Nat
  count : Nat
  blocks : List BlockInfo
  pos : Nat
  cur : Nat
  cache : Bytes
  cacheIdx : Option Nat
  deriving DecidableEq, Repr

/-- The scan over the interleaved block headers in `init` (`src/Stream.cc:603-609`). -/
def scan : Nat → Rd (List BlockInfo)
  | 0 => return []
  | n + 1 => do
    let lenSrc ← Rd.u32
    let lenCmp ← Rd.u32
    let _ ← Rd.u32
    let offset ← Rd.tell
    Rd.seek lenCmp.toNat .cur
    let rest ← scan n
    return ⟨lenSrc.toNat, lenCmp.toNat, offset⟩ :: rest

/-- `Read::from_zipped` with the constructor and `init` (`src/Stream.cc:503-505, 573-615, 664-668`); `none` is
`nullptr`. The expected block count is computed in `uint32_t` (line 591). -/
def fromZipped (stream : Rs) : Except Fail (Option Zip) :=
  (do
    Rd.seek 0 .beg
    let length ← Rd.u32
    let blockSize ← Rd.u32
    let count ← Rd.u32
    if count == 0 || blockSize == 0 || length == 0 then return none
    if count != (length + blockSize - 1) / blockSize then return none
    let blocks ← scan count.toNat
    return some (length, blockSize, count, blocks) : Rd _) stream |>.map fun
  | (none, _) => none
  | (some (length, blockSize, count, blocks), s) =>
    some ⟨s, length.toNat, blockSize.toNat, count.toNat, blocks, 0, 0, [], none⟩

/-- `std::vector::resize`. -/
def resize (v : Bytes) (n : Nat) : Bytes := v.take n ++ List.replicate (n - v.length) 0

/-- `cache_block` (`src/Stream.cc:642-660`). -/
def cacheBlock (unz : Unz) (idx : Nat) (z : Zip) : Except Fail (Bool × Zip) :=
  match z.blocks[idx]? with
  | none => .ok (false, z)
  | some blk =>
    match (do Rd.seek blk.offset .beg; Rd.read blk.lenCmp : Rd Bytes) z.stream with
    | .error e => .error e
    | .ok (cmp, s) =>
      if cmp.length ≠ blk.lenCmp then .ok (false, { z with stream := s })
      else
        let c := resize z.cache blk.lenSrc
        let (out, ok) := unz cmp blk.lenSrc
        let c := out.take blk.lenSrc ++ c.drop out.length
        if ok then .ok (true, { z with stream := s, cache := c, cacheIdx := some idx })
        else .ok (false, { z with stream := s, cache := c })

/-- The loop of `read` (`src/Stream.cc:514-539`). `_m_current_block * block_size` is 32-bit, the differences are
64-bit. Copying from outside of the cache is undefined. -/
def readLoop (unz : Unz) : Nat → Nat → Bytes → Zip → Except Fail (Bytes × Zip)
  | 0, _, _, _ => .error .hang
  | fuel + 1, len, out, z =>
    if len = 0 then .ok (out, z)
    else if z.cur ≥ z.count then .ok (out, z)
    else
      match (if z.cacheIdx = some z.cur then .ok (true, z) else cacheBlock unz z.cur z) with
      | .error e => .error e
      | .ok (false, z) => .ok (out, z)
      | .ok (true, z) =>
        match z.blocks[z.cur]? with
        | none => .error .ub
        | some blk =>
          let off := (z.pos + Mem.W - (z.cur * z.blockSize) % 2 ^ 32) % Mem.W
          let avail := (blk.lenSrc + Mem.W - off) % Mem.W
          let toCopy := min len avail
          if off + toCopy > z.cache.length then .error .ub
          else
            readLoop unz fuel (len - toCopy) (out ++ (z.cache.drop off).take toCopy)
              { z with pos := z.pos + toCopy, cur := if toCopy = avail then z.cur + 1 else z.cur }

/-- `read` (`src/Stream.cc:509-541`). Each iteration but the last one moves on to the next block. -/
def read (unz : Unz) (n : Nat) (z : Zip) : Except Fail (Bytes × Zip) :=
  readLoop unz (z.count - z.cur + 2) n [] z

/-- `seek` (`src/Stream.cc:543-560`): clamps. -/
def seek (off : Int) (w : Whence) (z : Zip) : Zip :=
  let t : Int := match w with
    | .beg => off
    | .cur => z.pos + off
    | .end_ => z.length + off
  let t := if t < 0 then 0 else t
  let t := if t.toNat > z.length then (z.length : Int) else t
  { z with pos := t.toNat, cur := if z.blockSize > 0 then t.toNat / z.blockSize else z.cur }

/-- One operation. -/
def step (unz : Unz) (z : Zip) : Mem.ROp → Except Fail (Bytes × Zip)
  | .read n => read unz n z
  | .seek off w => .ok ([], seek off w z)

/-- A whole history. -/
def run (unz : Unz) : Zip → List Mem.ROp → Except Fail (List Bytes × Zip)
  | z, [] => .ok ([], z)
  | z, op :: ops =>
    match step unz z op with
    | .error e => .error e
    | .ok (bs, z') =>
      match run unz z' ops with
      | .error e => .error e
      | .ok (bss, z'') => .ok (bs :: bss, z'')

end Verif.Zip
