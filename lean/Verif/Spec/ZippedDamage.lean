import Verif.Spec.Zipped

/-!
# Compressed files with damaged blocks

Independent of `ReadZipped`: what reads of a file should give of which some blocks are damaged.
-/

namespace Verif.Spec

/-- How many bytes can be read from a position: at most `n`, up to the end of the file or the first byte of a damaged block. -/
def zipGives (good : Nat → Bool) (bs len : Nat) : Nat → Nat → Nat
  | _, 0 => 0
  | p, n + 1 => if p < len ∧ good (p / bs) = true then zipGives good bs len (p + 1) n + 1 else 0

/-- The position after an operation. -/
def damagedPosAfter (good : Nat → Bool) (bs len pos : Nat) : Mem.ROp → Nat
  | .read n => pos + zipGives good bs len pos n
  | .seek off w => zipPosAfter len pos (.seek off w)

/-- The bytes of an operation. -/
def damagedReturned (good : Nat → Bool) (bs : Nat) (content : Bytes) (pos : Nat) : Mem.ROp → Bytes
  | .read n => (content.drop pos).take (zipGives good bs content.length pos n)
  | .seek _ _ => []

/-- The results of a history and the final position: all that lies in blocks that are not damaged can be read. -/
def damagedRun (good : Nat → Bool) (bs : Nat) (content : Bytes) : Nat → List Mem.ROp → List Bytes × Nat
  | pos, [] => ([], pos)
  | pos, op :: ops =>
    let (rs, p) := damagedRun good bs content (damagedPosAfter good bs content.length pos op) ops
    (damagedReturned good bs content pos op :: rs, p)

/-- What there is to know about the past: whether a read has ended at a damaged block, and which block was the last to be read before
that. -/
structure Trail where
  pos : Nat := 0
  hurt : Bool := false
  last : List Nat := []
  deriving DecidableEq, Repr

/-- The past after one more operation. At the end of a file whose last block is not full, that block may be looked at again. -/
def Trail.after (good : Nat → Bool) (bs len : Nat) (s : Trail) (op : Mem.ROp) : Trail :=
  let p := damagedPosAfter good bs len s.pos op
  match op with
  | .seek _ _ => { s with pos := p }
  | .read n =>
    if n = 0 then s
    else if s.pos = len then
      if len % bs = 0 then s else { s with hurt := s.hurt || !good (len / bs), last := len / bs :: s.last }
    else if p = s.pos then { s with hurt := true }
    else ⟨p, decide (p < min (s.pos + n) len), [(p - 1) / bs]⟩

/-- A history in which, after a read that has ended at a damaged block, no read begins in the block that was the last to be read before,
unless other blocks have been read since. -/
def Heedful (good : Nat → Bool) (bs len : Nat) : Trail → List Mem.ROp → Prop
  | _, [] => True
  | s, op :: ops => (∀ n, op = .read (n + 1) → ¬ (s.hurt = true ∧ s.pos / bs ∈ s.last)) ∧ Heedful good bs len (s.after good bs len op) ops

end Verif.Spec
