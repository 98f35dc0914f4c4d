import Verif.Checksum.Model
import Verif.Poly2.Basic

/-! # Checksums: specification -/
namespace Verif.Checksum
open Verif.Poly2 Verif.Poly2.P2

/-- The bits of a message in the order a CRC-32 transmits them: bytes in order, least significant bit of each byte first. -/
def messageBits (m : List Byte) : List Bool := m.flatMap fun b => (List.range 8).map b.getLsbD

/-- The polynomial with the given coefficients, highest power first. -/
def polyOf (bits : List Bool) : P2 := bits.foldl (fun a b => X * a + (if b then 1 else 0)) 0

/-- The first 32 coefficients of the message followed by 32 zeros are inverted: `M(x) x^32 + (x^31 + ... + 1) x^n`. -/
def dividend (m : List Byte) : P2 := polyOf (messageBits m) * X ^ 32 + (⟨2 ^ 32 - 1⟩ : P2) * X ^ (8 * m.length)

/-- `x^32 + x^26 + x^23 + x^22 + x^16 + x^12 + x^11 + x^10 + x^8 + x^7 + x^5 + x^4 + x^2 + x + 1` (IEEE 802.3). -/
def crc32Poly : P2 := ⟨0x104C11DB7⟩

/-- Castagnoli's polynomial (RFC 3720). -/
def crc32cPoly : P2 := ⟨0x11EDC6F41⟩

/-- `d` is the CRC of `m` for the generator `p`: the complement of the remainder of the dividend, sent highest power first, the
first coefficient in the least significant bit of the first byte. -/
def IsCrc (p : P2) (m d : List Byte) : Prop :=
  d.length = 4 ∧ IsRem p 32 (dividend m) (polyOf ((messageBits d).map (!·)))

/-- First Adler-32 sum: one plus the sum of the bytes, modulo 65521. -/
def adlerA (m : List Byte) : Nat := (1 + (m.map BitVec.toNat).sum) % 65521

/-- Second Adler-32 sum: the sum of the first sums of all non-empty prefixes, modulo 65521. -/
def adlerB (m : List Byte) : Nat := ((List.range m.length).map fun j => 1 + ((m.take (j + 1)).map BitVec.toNat).sum).sum % 65521

/-- RFC 1950: the second sum, then the first, most significant byte first. -/
def adlerDigest (m : List Byte) : List Byte := beBytes 2 (adlerB m) ++ beBytes 2 (adlerA m)

/-- What a sequence of calls must return for a checksum function `H` of digest size 4; `m` is the message so far. -/
def specRun (H : List Byte → List Byte) : List Op → List Byte → List (Except Err (List Byte))
  | [], _ => []
  | .update _ x :: ops, m => specRun H ops (m ++ x)
  | .final n :: ops, m => if n ≤ 4 then .ok ((H m).take n) :: specRun H ops [] else .error .invalidArgument :: specRun H ops m
  | .restart :: ops, _ => specRun H ops []

end Verif.Checksum
