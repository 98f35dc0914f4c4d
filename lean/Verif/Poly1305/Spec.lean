import Verif.Words

/-! # Poly1305 as in RFC 8439 2.5 -/
namespace Verif.Poly1305.Spec

/-- The prime. -/
def p : Nat := 2 ^ 130 - 5

/-- `r`: the first 16 bytes of the key, least significant first, with some bits cleared. -/
def clamp (key : List Byte) : Nat := leVal (key.take 16) &&& 0x0ffffffc0ffffffc0ffffffc0fffffff

/-- Each block has a byte 1 appended and is read as a number, least significant byte first; it is added and the sum multiplied by `r`. -/
def accumulate (r : Nat) : Nat → List (List Byte) → Nat
  | a, [] => a
  | a, b :: bs => accumulate r ((a + leVal (b ++ [1])) * r % p) bs

/-- The tag for `r` and the number `s` added at the end: 16 bytes, least significant first. -/
def mac (r s : Nat) (msg : List Byte) : List Byte := leBytes 16 (accumulate r 0 (chunks 16 msg) + s)

/-- The tag for a key of 32 bytes. -/
def poly1305 (key msg : List Byte) : List Byte := mac (clamp key) (leVal ((key.drop 16).take 16)) msg

end Verif.Poly1305.Spec
