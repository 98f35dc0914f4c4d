import Verif.Modes.CfbModel
import Verif.Modes.CbcSpec

/-! What CFB mode means (NIST SP 800-38A, section 6.3, with the segment size in bytes), and histories of calls. -/
namespace Verif.Modes

section
variable (E : List Byte → List Byte) (s : Nat)

/-- CFB encryption of segments of `f` bytes (the last may be shorter): `reg` is the shift register. -/
def cfbEncrypt (f : Nat) : List Byte → List (List Byte) → List (List Byte)
  | _, [] => []
  | reg, p :: ps => xorBytes p (E reg) :: cfbEncrypt f (reg.drop f ++ xorBytes p (E reg)) ps

/-- CFB decryption. -/
def cfbDecrypt (f : Nat) : List Byte → List (List Byte) → List (List Byte)
  | _, [] => []
  | reg, c :: cs => xorBytes c (E reg) :: cfbDecrypt f (reg.drop f ++ c) cs

/-- Both directions. -/
def cfb (f : Nat) (dir : Dir) (reg : List Byte) (xs : List (List Byte)) : List (List Byte) :=
  match dir with
  | .encryption => cfbEncrypt E f reg xs
  | .decryption => cfbDecrypt E f reg xs

/-- The calls of `ProcessData` on an object, each with the alignment of its output pointer, and their outputs. -/
def runCfb (dir : Dir) : Mem → CfbObj → List (Call × Bool) → Except Err (List (List Byte))
  | _, _, [] => .ok []
  | m, o, (c, aligned) :: cs => do
    let (m, o) ← cfbData E s dir aligned (store m c.inP c.data) o c.outP c.inP c.data.length
    let outs ← runCfb dir m o cs
    .ok (load m c.outP c.data.length :: outs)

end

end Verif.Modes
