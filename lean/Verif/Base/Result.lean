import Verif.Base.Bytes

/-!
# Outcomes of modelled C++ functions
-/

namespace Verif

/-- Exceptions thrown by the modelled code, by C++ class. -/
inductive Exc where
  /-- `zenkit::ParserError` -/
  | parser
  /-- `zenkit::VfsBrokenDiskError` -/
  | vfsBrokenDisk
  /-- `zenkit::VfsFileExistsError` -/
  | vfsFileExists
  /-- `zenkit::VfsNotFoundError` -/
  | vfsNotFound
  /-- `zenkit::InvalidMipmapSize` -/
  | invalidMipmapSize
  /-- `zenkit::UnsupportedFormatError` -/
  | unsupportedFormat
  /-- `std::bad_variant_access` -/
  | badVariantAccess
  /-- `std::invalid_argument` / `std::out_of_range` from `std::stoi` and friends -/
  | stdConversion
  /-- `std::length_error` (reserve or resize beyond the maximum size) -/
  | lengthError
  /-- `std::out_of_range` from `at` of a container -/
  | outOfRange
  /-- `std::filesystem::filesystem_error` -/
  | filesystem
  /-- `zenkit::DaedalusVmException` -/
  | daedalusVm
  /-- `zenkit::DaedalusIllegalTypeAccess` -/
  | daedalusType
  /-- `zenkit::DaedalusIllegalIndexAccess` -/
  | daedalusIndex
  /-- `zenkit::DaedalusIllegalConstAccess` -/
  | daedalusConst
  /-- `zenkit::DaedalusNoContextError` -/
  | daedalusNoContext
  /-- `zenkit::DaedalusUnboundMemberAccess` -/
  | daedalusUnbound
  /-- `zenkit::DaedalusIllegalContextType` -/
  | daedalusContextType
  /-- `zenkit::DaedalusIllegalExternalDefinition` and the classes derived from it -/
  | daedalusExternal
  /-- `zenkit::DaedalusSymbolNotFound` -/
  | daedalusNotFound
  /-- `zenkit::DaedalusMemberRegistrationError` and `zenkit::DaedalusInvalidRegistrationDataType` -/
  | daedalusMember
  deriving DecidableEq, Repr

/-- Ways in which a modelled function does not return normally. -/
inductive Fail where
  /-- an exception leaves the function -/
  | throw (e : Exc)
  /-- undefined behaviour of the C++ abstract machine -/
  | ub
  /-- `std::terminate`: an exception tries to leave a `noexcept` function -/
  | terminate
  /-- the loop did not finish within the fuel it was given -/
  | hang
  deriving DecidableEq, Repr

instance {ε α : Type} [DecidableEq ε] [DecidableEq α] : DecidableEq (Except ε α) := fun x y =>
  match x, y with
  | .ok a, .ok b => if h : a = b then isTrue (by rw [h]) else isFalse (by intro h'; cases h'; exact h rfl)
  | .error a, .error b =>
    if h : a = b then isTrue (by rw [h]) else isFalse (by intro h'; cases h'; exact h rfl)
  | .ok _, .error _ => isFalse (by intro h; cases h)
  | .error _, .ok _ => isFalse (by intro h; cases h)

end Verif
