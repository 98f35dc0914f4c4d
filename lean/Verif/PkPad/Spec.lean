import Verif.Kdf.Spec

/-! # What the encodings are, from PKCS #1 (RFC 8017) and IEEE P1363a

The encodings are written as in the standards, for a block of a given number of bits. If that is not a multiple of 8 there is a first byte for the rest: it is the
leading zero of PKCS #1. -/
namespace Verif.PkPad.Spec
open Verif.Kdf

/-- The leading zero byte. -/
def lead (bits : Nat) : List Byte := if bits % 8 = 0 then [] else [0]

/-- Byte by byte exclusive or. -/
def xor (a b : List Byte) : List Byte := List.zipWith (· ^^^ ·) a b

/-- EME-PKCS1-v1_5: `02 || PS || 00 || M`. -/
def pkcs (bits : Nat) (ps m : List Byte) : List Byte := lead bits ++ [2] ++ ps ++ [0] ++ m

/-- EMSA-PKCS1-v1_5: `01 || FF … FF || 00 || T`. -/
def pkcs1 (bits : Nat) (t : List Byte) : List Byte := lead bits ++ [1] ++ List.replicate (bits / 8 - t.length - 2) 0xff ++ [0] ++ t

/-- EMSA2 (P1363): `4b` or `6b`, `bb … bb`, `ba`, hash, identifier, `cc`. -/
def emsa2 (L : Nat) (empty : Bool) (digest : List Byte) (hashId : Byte) : List Byte :=
  [if empty then 0x4b else 0x6b] ++ List.replicate (L - digest.length - 4) 0xbb ++ [0xba] ++ digest ++ [hashId, 0xcc]

section
variable (H : List Byte → List Byte) (d : Nat)

/-- MGF1. -/
def mgf (Z : List Byte) (len : Nat) : List Byte := MGF H d Z [] 0 len

/-- EME-OAEP: the data block `lHash || 00 … 00 || 01 || M` of `n` bytes. -/
def oaepDB (label m : List Byte) (n : Nat) : List Byte := H label ++ List.replicate (n - d - m.length - 1) 0 ++ [1] ++ m

/-- EME-OAEP. -/
def oaep (bits : Nat) (label seed m : List Byte) : List Byte :=
  let n := bits / 8 - d
  let maskedDB := xor (oaepDB H d label m n) (mgf H d seed n)
  let maskedSeed := xor seed (mgf H d maskedDB d)
  lead bits ++ maskedSeed ++ maskedDB

/-- EMSA-PSS and EMSR3: the hash of the length in bits of the recoverable part, that part, the hash of the message and the salt. Without recoverable part the
first 8 bytes are zero. -/
def pssH (recoverable mHash salt : List Byte) : List Byte := H (beBytes 8 (8 * recoverable.length) ++ recoverable ++ mHash ++ salt)

/-- `DB = 00 … 00 || 01 || M || salt` of `n` bytes. -/
def pssDB (recoverable salt : List Byte) (n : Nat) : List Byte := List.replicate (n - salt.length - recoverable.length - 1) 0 ++ [1] ++ recoverable ++ salt

/-- The bits of the first byte beyond the bit length set to zero. -/
def clearTop (bits : Nat) : List Byte → List Byte
  | [] => []
  | b :: r => BitVec.ofNat 8 (if bits % 8 = 0 then b.toNat else b.toNat % 2 ^ (bits % 8)) :: r

/-- EMSA-PSS: `maskedDB || H || bc`, or with a hash identifier `maskedDB || H || identifier || cc`. -/
def pss (bits : Nat) (hashId recoverable mHash salt : List Byte) : List Byte :=
  let n := (bits + 7) / 8 - d - hashId.length - 1
  let h := pssH H recoverable mHash salt
  clearTop bits (xor (pssDB recoverable salt n) (mgf H d h n)) ++ h ++ hashId ++ [if hashId = [] then 0xbc else 0xcc]
end

end Verif.PkPad.Spec
