import Verif.Model.StreamTypes

/-!
# Chunked files

`proto::read_chunked` and `proto::write_chunk` (`include/zenkit/Stream.hh:145-229`).
-/

namespace Verif

/-- A chunk handler: from the state of the loader, the chunk type and the end of the chunk to a new state, the
"done" flag and the (possibly changed) end of the chunk. The overload without `size_t& end`
(`include/zenkit/Stream.hh:148-178`) is the case where the end is returned unchanged. -/
abbrev ChunkCb (σ : Type) := σ → BitVec 16 → Nat → Rd (σ × Bool × Nat)

/-- `read_chunked` (`include/zenkit/Stream.hh:182-212`), with fuel for the `do … while (!r->eof())` loop.
The log messages (lines 190-203) are left out. -/
def readChunkedFuel {σ} (cb : ChunkCb σ) : Nat → σ → Rd σ
  | 0, _ => Rd.fail .hang
  | fuel + 1, s => do
    let type ← Rd.u16
    let size ← Rd.u32
    let here ← Rd.tell
    let target := here + size.toNat
    let (s', done, target') ← cb s type target
    Rd.seek target' .beg
    if done then return s'
    let e ← Rd.eof
    if e then return s' else readChunkedFuel cb fuel s'

/-- `read_chunked` with enough fuel for forward-only handlers: every iteration advances by at least one byte. -/
def readChunked {σ} (cb : ChunkCb σ) (s : σ) : Rd σ := fun st =>
  readChunkedFuel cb (st.data.length - st.pos + 1) s st

/-- A handler of the overload without `end` (`include/zenkit/Stream.hh:148`). -/
def simpleCb {σ} (cb : σ → BitVec 16 → Rd (σ × Bool)) : ChunkCb σ := fun s t target => do
  let (s', done) ← cb s t
  return (s', done, target)

/-- `write_chunk` (`include/zenkit/Stream.hh:214-228`). -/
def writeChunk (type : BitVec 16) (cb : Ws → Ws) (w : Ws) : Ws :=
  let w := w.u16 type
  let sizeOff := w.pos
  let w := w.u32 0
  let w := cb w
  let len : Int := (w.pos : Int) - sizeOff - 4
  let w := w.seek sizeOff .beg
  let w := w.u32 (BitVec.ofInt 32 len)
  w.seek len .cur

end Verif
