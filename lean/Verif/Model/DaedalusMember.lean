import Verif.Model.Daedalus

/-!
# Registering the fields of C++ classes (`include/zenkit/DaedalusScript.hh:751-803`, `:911-953`)
-/

namespace Verif.Daedalus

/-- The types of fields `register_member` takes (`DaedalusValue`, `include/zenkit/DaedalusScript.hh:751-753`): `std::string`,
`float`, and `int32_t` or an enumeration of four bytes. -/
inductive FieldType where
  | string | float | int
  deriving DecidableEq, Repr

/-- What `register_member` is told by a pointer to a field (`include/zenkit/DaedalusScript.hh:772-803`): the
`std::type_info` of the class, the type, the number of elements (`N`, or 1) and the address of the field in an object at address
zero. -/
structure Field where
  cls : Nat
  type : FieldType
  elems : Nat
  addr : Nat
  deriving DecidableEq, Repr

/-- The types of symbols a field can stand for (`include/zenkit/DaedalusScript.hh:938-950`). -/
def FieldType.matches (t : FieldType) (d : DType) : Bool :=
  match t with
  | .string => d == .string
  | .float => d == .float
  | .int => d == .int || d == .function

/-- `_check_member` (`include/zenkit/DaedalusScript.hh:911-953`): the index of the symbol, and the table of symbols as it is left
behind, also by exceptions: the class is bound before the types are compared. -/
def checkMember (syms : List Sym) (name : Bytes) (f : Field) : Except Fail Nat × List Sym :=
  match findByName syms name with
  | none => (.error (.throw .daedalusNotFound), syms)
  | some y =>
    match syms[y]? with
    | none => (.error (.throw .daedalusNotFound), syms)
    | some s =>
      if !s.isMember then (.error (.throw .daedalusMember), syms)
      else if f.elems < s.count.toNat then (.error (.throw .daedalusMember), syms)
      else
        match syms[s.parent.toNat]? with
        | none => (.error (.throw .daedalusMember), syms)
        | some p =>
          if p.registeredTo ≠ none ∧ p.registeredTo ≠ some f.cls then (.error (.throw .daedalusMember), syms)
          else
            let syms := syms.modify s.parent.toNat fun p => { p with registeredTo := some f.cls }
            if f.type.matches s.type then (.ok y, syms) else (.error (.throw .daedalusMember), syms)

/-- `register_member` (`include/zenkit/DaedalusScript.hh:772-783`, `:792-803`); the address is cut to 32 bits. -/
def registerMember (syms : List Sym) (name : Bytes) (f : Field) : Except Fail Unit × List Sym :=
  match checkMember syms name f with
  | (.error e, syms) => (.error e, syms)
  | (.ok y, syms) =>
    (.ok (), syms.modify y fun s => { s with memberOffset := BitVec.ofNat 32 f.addr, registeredTo := some f.cls })

end Verif.Daedalus
