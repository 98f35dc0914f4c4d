import Verif.Mem
import Verif.Words

/-! # XTS as in IEEE P1619 -/
namespace Verif.Xts.Spec

/-- The low terms of the field polynomial: `x^128 + x^7 + x^2 + x + 1`, and those the library takes for wider blocks. -/
def poly (len : Nat) : Nat :=
  if len = 16 then 0x87 else if len = 32 then 0x425 else if len = 64 then 0x125 else if len = 128 then 0x80043 else 0

/-- Multiplication by the primitive element: shift left by one; if a bit falls out, add the polynomial. -/
def alpha (len v : Nat) : Nat := if 2 * v < 256 ^ len then 2 * v else (2 * v - 256 ^ len) ^^^ poly len

/-- The tweak of block `j`, for the encrypted tweak value `t`. -/
def tweak (s : Nat) (t : List Byte) : Nat → List Byte
  | 0 => t
  | j + 1 => leBytes s (alpha s (leVal (tweak s t j)))

/-- One block. -/
def block (E : List Byte → List Byte) (T p : List Byte) : List Byte := xorBytes (E (xorBytes p T)) T

/-- Whole blocks, the first with number `j`. -/
def blocks (E : List Byte → List Byte) (s : Nat) (t : List Byte) : Nat → List (List Byte) → List Byte
  | _, [] => []
  | j, p :: ps => block E (tweak s t j) p ++ blocks E s t (j + 1) ps

/-- A last block and `k` bytes with ciphertext stealing; the block has number `j`. -/
def steal (E : List Byte → List Byte) (s : Nat) (t : List Byte) (j : Nat) (p q : List Byte) : List Byte :=
  let cc := block E (tweak s t j) p
  block E (tweak s t (j + 1)) (q ++ cc.drop q.length) ++ cc.take q.length

/-- The inverse of it. -/
def unsteal (D : List Byte → List Byte) (s : Nat) (t : List Byte) (j : Nat) (c q : List Byte) : List Byte :=
  let pp := block D (tweak s t (j + 1)) c
  block D (tweak s t j) (q ++ pp.drop q.length) ++ pp.take q.length

/-- Encryption of a data unit of at least a block. -/
def encrypt (E : List Byte → List Byte) (s : Nat) (t msg : List Byte) : List Byte :=
  let n := msg.length / s
  if msg.length % s = 0 then blocks E s t 0 (chunks s msg)
  else blocks E s t 0 (chunks s (msg.take ((n - 1) * s))) ++ steal E s t (n - 1) ((msg.drop ((n - 1) * s)).take s) (msg.drop (n * s))

/-- Decryption. -/
def decrypt (D : List Byte → List Byte) (s : Nat) (t msg : List Byte) : List Byte :=
  let n := msg.length / s
  if msg.length % s = 0 then blocks D s t 0 (chunks s msg)
  else blocks D s t 0 (chunks s (msg.take ((n - 1) * s))) ++ unsteal D s t (n - 1) ((msg.drop ((n - 1) * s)).take s) (msg.drop (n * s))

end Verif.Xts.Spec
