import Verif.Base.Bytes

/-! # Words that are found in every archive that is not safe to read -/

namespace Verif.Spec

/-- Parts of the class names of cutscene blocks, cutscenes, cutscene contexts, cutscene libraries, people, lights, way nets and worlds, as they are spelled in archives. -/
def perils : List Bytes :=
  [b!"zCCSBlock", b!"zCCSLib", b!"oCNpc:zCVob", b!"zCVobLight:zCVob", b!"zCWayNet", b!"oCWorld:zCWorld"]

/-- None of the words is anywhere in the file. -/
def Harmless (data : Bytes) : Prop := ∀ n ∈ perils, ¬ n <:+: data

end Verif.Spec
