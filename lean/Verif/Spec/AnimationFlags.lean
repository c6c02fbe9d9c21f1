import Verif.Base.Bytes

/-! # Letters of animation flags, as documented for model scripts -/

namespace Verif.Spec

/-- The flags of an animation. -/
inductive AniFlag | move | rotate | queue | fly | idle | inplace
  deriving DecidableEq, Repr

/-- The letter a script gives it by, in ASCII. -/
def AniFlag.letter : AniFlag → Byte
  | .move => 77 | .rotate => 82 | .queue => 69 | .fly => 70 | .idle => 73 | .inplace => 80

/-- The value of its enumerator. -/
def AniFlag.value : AniFlag → BitVec 8
  | .move => 1 | .rotate => 2 | .queue => 4 | .fly => 8 | .idle => 16 | .inplace => 32

/-- All of them. -/
def AniFlag.all : List AniFlag := [.move, .rotate, .queue, .fly, .idle, .inplace]

end Verif.Spec
