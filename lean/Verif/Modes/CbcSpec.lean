import Verif.Modes.CbcModel

/-! What CBC and ciphertext stealing mean, on lists of blocks (NIST SP 800-38A), and histories of calls. -/
namespace Verif.Modes

section
variable (E D : List Byte → List Byte) (s : Nat)

/-- CBC encryption: each plaintext block is combined with the previous ciphertext block and encrypted. -/
def cbcEncrypt : List Byte → List (List Byte) → List (List Byte)
  | _, [] => []
  | c, p :: ps => E (xorBytes c p) :: cbcEncrypt (E (xorBytes c p)) ps

/-- CBC decryption. -/
def cbcDecrypt : List Byte → List (List Byte) → List (List Byte)
  | _, [] => []
  | c, x :: xs => xorBytes (D x) c :: cbcDecrypt x xs

/-- One call as the caller makes it: `data` is put at `inP`, the result is read at `outP`. -/
structure Call where
  inP : Nat
  outP : Nat
  data : List Byte

/-- Buffers are the same or do not overlap, and keep away from the address range `[lo, hi)` of the object. -/
def Call.Fits (c : Call) (lo hi : Nat) : Prop :=
  (c.inP = c.outP ∨ c.inP + c.data.length ≤ c.outP ∨ c.outP + c.data.length ≤ c.inP) ∧
  (c.inP + c.data.length ≤ lo ∨ hi ≤ c.inP) ∧ (c.outP + c.data.length ≤ lo ∨ hi ≤ c.outP)

/-- Calls of `ProcessData` on an encryption object: its outputs, and the memory left. -/
def runEnc (r : Nat) : Mem → List Call → Except Err (List (List Byte) × Mem)
  | m, [] => .ok ([], m)
  | m, c :: cs => do
    let m ← cbcEncData E s (store m c.inP c.data) r c.outP c.inP c.data.length
    let (outs, m') ← runEnc r m cs
    .ok (load m c.outP c.data.length :: outs, m')

/-- Calls of `ProcessData` on a decryption object. -/
def runDec : DecObj → Mem → List Call → Except Err (List (List Byte) × Mem × DecObj)
  | o, m, [] => .ok ([], m, o)
  | o, m, c :: cs => do
    let (m, o) ← cbcDecData D s (store m c.inP c.data) o c.outP c.inP c.data.length
    let (outs, m', o') ← runDec o m cs
    .ok (load m c.outP c.data.length :: outs, m', o')

/-- Ciphertext stealing of a block `p` and `q` of at most a block: `c` is the block before. -/
def ctsEncrypt (c p q : List Byte) : List Byte :=
  let x := E (xorBytes c p)
  E (xorBytes x (q ++ List.replicate (s - q.length) 0)) ++ x.take q.length

end

end Verif.Modes
