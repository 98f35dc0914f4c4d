/-!
# Shared conventions

A C++ `byte` is an 8-bit word.
-/
namespace Verif

/-- `byte` (config_int.h): an unsigned 8-bit word. -/
abbrev Byte := BitVec 8

/-- Outcomes a C++ call can have besides returning normally. -/
inductive Err where
  /-- `throw InvalidArgument(...)` -/
  | invalidArgument
  /-- `throw InvalidDataFormat(...)` -/
  | invalidDataFormat
  /-- `throw InvalidCiphertext(...)` (an `InvalidDataFormat`) -/
  | invalidCiphertext
  /-- `throw BERDecodeErr()` -/
  | berDecodeErr
  /-- `throw BadState(...)` -/
  | badState
  /-- `throw HashInputTooLong(...)` -/
  | hashInputTooLong
  /-- `throw HashVerificationFailed()` -/
  | hashVerificationFailed
  /-- `throw Integer::DivideByZero()` -/
  | divideByZero
  /-- any other `throw` -/
  | other
  /-- undefined behaviour: out-of-bounds access, null dereference, ... -/
  | undefinedBehaviour
  /-- the call does not return -/
  | diverges
deriving DecidableEq, Repr

deriving instance DecidableEq for Except

end Verif
