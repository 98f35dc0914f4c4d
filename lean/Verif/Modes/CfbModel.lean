import Verif.Modes.CbcModel

/-!
# CFB mode (`CFB_ModePolicy` in modes.cpp, `CFB_CipherTemplate` in strciphr.cpp)

In memory, like CBC. Whether the output pointer is aligned is an argument of each call.
-/
namespace Verif.Modes

inductive Dir where
  | encryption
  | decryption
deriving DecidableEq

/-- Addresses of `m_register` and `m_temp`; `m_feedbackSize`, `m_leftOver`. -/
structure CfbObj where
  r : Nat
  t : Nat
  f : Nat
  leftOver : Nat

section
variable (E : List Byte → List Byte) (s : Nat)

/-- `CFB_ModePolicy::SetFeedbackSize` (modes.cpp:78-84). -/
def setFeedbackSize (feedbackSize : Nat) : Except Err Nat :=
  if feedbackSize > s then .error .invalidArgument else .ok (if feedbackSize ≠ 0 then feedbackSize else s)

/-- `CFB_ModePolicy::TransformRegister` (modes.cpp:58-68). -/
def transformRegister (m : Mem) (o : CfbObj) : Mem :=
  let updateSize := s - o.f
  let m := store m o.t (E (load m o.r s))
  let m := copy m o.r (o.r + o.f) updateSize
  copy m (o.r + updateSize) o.t o.f

/-- `CFB_ModePolicy::GetRegisterBegin` (modes.cpp:92-97). -/
def registerBegin (o : CfbObj) : Nat := o.r + (s - o.f)

/-- `CFB_CipherTemplate::Resynchronize` (strciphr.cpp:176-182) with `CipherResynchronize` (modes.cpp:70-77); also the
end of `UncheckedSetKey` (strciphr.cpp:160-173). -/
def cfbResynchronize (m : Mem) (o : CfbObj) (iv : List Byte) : Mem × CfbObj :=
  (transformRegister E s (store m o.r iv) o, { o with leftOver := o.f })

/-- `CFB_DecryptionTemplate::CombineMessageAndShiftRegister` (strciphr.cpp:247-255). -/
def combineDec : Nat → Mem → Nat → Nat → Nat → Mem
  | 0, m, _, _, _ => m
  | n + 1, m, output, reg, message =>
    let b := m message
    let m := store m output [m reg ^^^ b]
    combineDec n (store m reg [b]) (output + 1) (reg + 1) (message + 1)

/-- `CombineMessageAndShiftRegister`, both directions (encryption: strciphr.cpp:240-245). -/
def combine (dir : Dir) (m : Mem) (output reg message length : Nat) : Mem :=
  match dir with
  | .encryption => copy (xorbuf m reg message length) output reg length
  | .decryption => combineDec length m output reg message

/-- `CFB_ModePolicy::Iterate` (modes.cpp:34-56). -/
def iterate (dir : Dir) (m : Mem) (o : CfbObj) (output input n : Nat) : Except Err Mem :=
  match dir with
  | .encryption => do
    let m := store m output (xorBytes (E (load m o.r s)) (load m input s))
    let m ← (if n > 1 then apb E s m output (some (input + s)) (output + s) ((n - 1) * s) {} else .ok m)
    .ok (copy m o.r (output + (n - 1) * s) s)
  | .decryption => do
    let m := copy m o.t (input + (n - 1) * s) s
    let m ← (if n > 1 then apb E s m input (some (input + s)) (output + s) ((n - 1) * s) { reverse := true } else .ok m)
    let m := store m output (xorBytes (E (load m o.r s)) (load m input s))
    .ok (copy m o.r o.t s)

/-- `while (length >= bytesPerIteration)` (strciphr.cpp:221-229), `n` times. -/
def cfbLoop (dir : Dir) (o : CfbObj) : Nat → Mem → Nat → Nat → Mem
  | 0, m, _, _ => m
  | n + 1, m, output, input =>
    cfbLoop dir o n (combine dir (transformRegister E s m o) output (registerBegin s o) input o.f) (output + o.f) (input + o.f)

/-- The rest of `ProcessData` after the left-over bytes (strciphr.cpp:201-236). -/
def cfbRest (dir : Dir) (aligned : Bool) (m : Mem) (o : CfbObj) (outP inP length : Nat) : Except Err (Mem × CfbObj) := do
  let iter := o.f = s ∧ length ≥ o.f ∧ aligned = true
  let m ← (if iter then iterate E s dir m o outP inP (length / o.f) else .ok m)
  let done := if iter then length - length % o.f else 0
  let length := length - done
  let n := length / o.f
  let m := cfbLoop E s dir o n m (outP + done) (inP + done)
  let length := length - n * o.f
  if length > 0 then
    .ok (combine dir (transformRegister E s m o) (outP + done + n * o.f) (registerBegin s o) (inP + done + n * o.f) length, { o with leftOver := o.f - length })
  else .ok (m, o)

/-- `CFB_CipherTemplate::ProcessData` (strciphr.cpp:184-237). -/
def cfbData (dir : Dir) (aligned : Bool) (m : Mem) (o : CfbObj) (outP inP length : Nat) : Except Err (Mem × CfbObj) :=
  let len := if o.leftOver > 0 then min o.leftOver length else 0
  let m := if o.leftOver > 0 then combine dir m outP (registerBegin s o + (o.f - o.leftOver)) inP len else m
  let o := { o with leftOver := o.leftOver - len }
  if length - len = 0 then .ok (m, o)
  else cfbRest E s dir aligned m o (outP + len) (inP + len) (length - len)

end

end Verif.Modes
