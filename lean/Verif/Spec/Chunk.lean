import Verif.Model.Chunk

/-!
# Specification of chunked files

A file is a list of chunks; the handler is called for each in turn, positioned at the start of its payload,
until it is done. Where the handler leaves the stream does not matter.
-/

namespace Verif.Spec

/-- A chunk: type and payload. -/
structure Chunk where
  type : BitVec 16
  payload : Bytes

/-- Size of a chunk in the file: type, size and payload. -/
def Chunk.size (c : Chunk) : Nat := 6 + c.payload.length

/-- The state after all handler calls, the offset behind the last chunk that was visited, and whether the
handler was done. `off` is the offset of the first chunk in `data`. -/
def visit {σ} (cb : σ → BitVec 16 → Rd (σ × Bool)) (data : Bytes) :
    Nat → σ → List Chunk → Except Fail (σ × Nat × Bool)
  | off, s, [] => .ok (s, off, false)
  | off, s, c :: cs =>
    match cb s c.type ⟨data, off + 6⟩ with
    | .error e => .error e
    | .ok ((s', true), _) => .ok (s', off + c.size, true)
    | .ok ((s', false), _) => visit cb data (off + c.size) s' cs

end Verif.Spec
