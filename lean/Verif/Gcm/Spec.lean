import Verif.Ghash.Spec
import Verif.Mem

/-! # GCM as in NIST SP 800-38D, on strings of bytes -/
namespace Verif.Gcm.Spec

/-- `inc_32` (6.2) -/
def inc32 (X : List Byte) : List Byte := X.take 12 ++ beBytes 4 (beVal (X.drop 12) + 1)

/-- GHASH (6.4) of a string of whole blocks. -/
def ghash (H X : List Byte) : List Byte := beBytes 16 (Ghash.Spec.ghash (beVal H) 0 (chunks 16 X))

/-- GCTR (6.5) on the blocks of a string, the last one possibly partial. -/
def gctrBlocks (E : List Byte → List Byte) : List Byte → List (List Byte) → List Byte
  | _, [] => []
  | CB, X :: Xs => xorBytes X ((E CB).take X.length) ++ gctrBlocks E (inc32 CB) Xs

def gctr (E : List Byte → List Byte) (ICB X : List Byte) : List Byte := gctrBlocks E ICB (chunks 16 X)

/-- Zeros up to a multiple of 16 bytes. -/
def pad (X : List Byte) : List Byte := X ++ List.replicate ((16 - X.length % 16) % 16) 0

/-- The hash subkey. -/
def subkey (E : List Byte → List Byte) : List Byte := E (List.replicate 16 0)

/-- `J_0` (7.1, step 2) -/
def J0 (E : List Byte → List Byte) (IV : List Byte) : List Byte :=
  if IV.length = 12 then IV ++ [0, 0, 0, 1]
  else ghash (subkey E) (pad IV ++ List.replicate 8 0 ++ beBytes 8 (8 * IV.length))

/-- `S` (7.1, steps 4 and 5) -/
def S (E : List Byte → List Byte) (A C : List Byte) : List Byte :=
  ghash (subkey E) (pad A ++ pad C ++ beBytes 8 (8 * A.length) ++ beBytes 8 (8 * C.length))

/-- `T`, of `n` bytes (7.1, step 6) -/
def tag (E : List Byte → List Byte) (IV A C : List Byte) (n : Nat) : List Byte := (gctr E (J0 E IV) (S E A C)).take n

/-- GCM-AE (7.1) -/
def encrypt (E : List Byte → List Byte) (IV P A : List Byte) (n : Nat) : List Byte × List Byte :=
  let C := gctr E (inc32 (J0 E IV)) P
  (C, tag E IV A C n)

/-- GCM-AD (7.2): the plaintext, and whether the tag is right. -/
def decrypt (E : List Byte → List Byte) (IV C A T : List Byte) : List Byte × Bool :=
  (gctr E (inc32 (J0 E IV)) C, tag E IV A C T.length == T)

end Verif.Gcm.Spec
