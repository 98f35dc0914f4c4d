import Verif.Modes.Apb

/-!
# ECB, CBC and CBC with ciphertext stealing (modes.cpp)

The functions run in memory: the object's register (and, for decryption, temporary block) are at addresses in the
state, the caller's buffers anywhere. Lengths are multiples of the block size where the code asserts it.
-/
namespace Verif.Modes

section
variable (E D : List Byte → List Byte) (s : Nat)

/-- `CBC_Encryption::ProcessData` (modes.cpp:206-218), `m_register` at `r`. -/
def cbcEncData (m : Mem) (r outP inP length : Nat) : Except Err Mem :=
  if length = 0 then .ok m
  else do
    let m ← apb E s m inP (some r) outP s { xorInput := true }
    let m ← (if length > s then apb E s m (inP + s) (some outP) (outP + s) (length - s) { xorInput := true } else .ok m)
    .ok (store m r (load m (outP + (length - s)) s))

/-- `CBC_Decryption`: where `m_register` and `m_temp` are; `swap` exchanges them. -/
structure DecObj where
  r : Nat
  t : Nat

/-- `CBC_Decryption::ProcessData` (modes.cpp:254-266). -/
def cbcDecData (m : Mem) (o : DecObj) (outP inP length : Nat) : Except Err (Mem × DecObj) :=
  if length = 0 then .ok (m, o)
  else do
    let m := store m o.t (load m (inP + (length - s)) s)
    let m ← (if length > s then apb D s m (inP + s) (some inP) (outP + s) (length - s) { reverse := true } else .ok m)
    let m := store m outP (xorBytes (D (load m inP s)) (load m o.r s))
    .ok (m, ⟨o.t, o.r⟩)

/-- `ECB_OneWay::ProcessData` (modes.cpp:200-204). -/
def ecbData (m : Mem) (outP inP length : Nat) : Except Err Mem := apb E s m inP none outP length {}

/-- `xorbuf(buf, mask, count)` (misc.cpp) -/
def xorbuf (m : Mem) (buf mask count : Nat) : Mem := store m buf (xorBytes (load m buf count) (load m mask count))

/-- `memcpy` -/
def copy (m : Mem) (dst src n : Nat) : Mem := store m dst (load m src n)

/-- `CBC_CTS_Encryption::ProcessLastBlock` (modes.cpp:220-252). More than two blocks overrun the register. -/
def ctsEncLast (m : Mem) (r : Nat) (stolenIV : Option Nat) (outP inP inLength : Nat) : Except Err (Mem × Nat) :=
  if inLength ≤ s then
    match stolenIV with
    | none => .error .invalidArgument
    | some iv =>
      let m := copy m outP r inLength
      let m := xorbuf m r inP inLength
      let m := store m r (E (load m r s))
      .ok (copy m iv r s, inLength)
  else
    let m := xorbuf m r inP s
    let m := store m r (E (load m r s))
    let inP := inP + s
    let rest := inLength - s
    if rest > s then .error .undefinedBehaviour
    else
      let m := copy m (outP + s) r rest
      let m := xorbuf m r inP rest
      let m := store m r (E (load m r s))
      .ok (copy m outP r s, inLength)

/-- `CBC_CTS_Decryption::ProcessLastBlock` (modes.cpp:268-310). -/
def ctsDecLast (m : Mem) (o : DecObj) (outP inP inLength : Nat) : Except Err (Mem × Nat) :=
  if inLength ≤ s then
    let m := copy m o.t o.r s
    let m := store m o.t (D (load m o.t s))
    let m := xorbuf m o.t inP inLength
    .ok (copy m outP o.t inLength, inLength)
  else
    let pn1 := inP + s
    let pn2 := inP
    let rest := inLength - s
    if rest > s then .error .undefinedBehaviour
    else
      let m := copy m o.t pn2 s
      let m := store m o.t (D (load m o.t s))
      let m := xorbuf m o.t pn1 rest
      let m := copy m (outP + s) o.t rest
      let m := copy m o.t pn1 rest
      let m := store m o.t (D (load m o.t s))
      .ok (store m outP (xorBytes (load m o.t s) (load m o.r s)), inLength)

end

end Verif.Modes
