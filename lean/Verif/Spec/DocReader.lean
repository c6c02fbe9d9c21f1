import Verif.Spec.Archive
import Verif.Model.ArchiveGraph

/-! # Reading a document directly -/

namespace Verif.Ar

/-- The reader of documents: what reading means in all formats. The state is the rest of the current object, the rest of the object
around it, and so on. Other calls are not specified (`ub`). -/
def docReader : Reader (List Doc) where
  objBegin
    | .obj n c ver ix ch rest :: L => .ok (some ⟨n, c, ver, ix⟩, ch :: rest :: L)
    | .ref n ix rest :: L => .ok (some ⟨n, refClass, 0, ix⟩, .nil :: rest :: L)
    | _ => .error .ub
  objEnd
    | .nil :: rest :: L => .ok (true, rest :: L)
    | d :: rest :: L => .ok (false, d :: rest :: L)
    | _ => .error .ub
  val k
    | .val _ v rest :: L => if v.kind = k then .ok (v, rest :: L) else .error .ub
    | _ => .error .ub
  skipObj cur L :=
    if cur then
      match L with
      | _ :: rest :: L => .ok ((), rest :: L)
      | _ => .error .ub
    else
      match L with
      | .obj _ _ _ _ _ rest :: L => .ok ((), rest :: L)
      | .ref _ _ rest :: L => .ok ((), rest :: L)
      | _ => .error .ub

end Verif.Ar
