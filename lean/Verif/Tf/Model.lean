import Verif.PkPad.Model
import Verif.Rsa.Model

/-! # Schemes from trapdoor functions (pubkey.h, pubkey.cpp: `TF_EncryptorBase`, `TF_DecryptorBase`, `TF_SignerBase`, `TF_VerifierBase`) -/
namespace Verif.Tf
open Verif.Dl Verif.Rsa Verif.PkPad Verif.Hash

/-- A trapdoor function and its bounds (pubkey.h:72-230): `ApplyFunction`, `CalculateInverse` with the random values it uses, `PreimageBound`, `ImageBound`. -/
structure Fn where
  apply : Int → Except Err Int
  inverse : Int → Except Err Int
  preimageBound : Int
  imageBound : Int

/-- `RSAFunction`, `InvertibleRSAFunction` (rsa.h:46-47): both bounds are the modulus. The public key that applies the function checks only its own part. -/
def rsa (k : Key) (rs : List Int) : Fn := { apply := applyFunction (validatePublic k) k, inverse := calculateInverse k rs, preimageBound := k.n, imageBound := k.n }

/-- `RSAFunction_ISO`, `InvertibleRSAFunction_ISO` (rsa.h:142-156). -/
def rsaIso (k : Key) (rs : List Int) : Fn := { apply := applyIso (validatePublic k) k, inverse := inverseIso k rs, preimageBound := k.n / 2 + 1, imageBound := k.n }

/-- `PaddedBlockBitLength` (pubkey.h:279). -/
def paddedBits (F : Fn) : Nat := bitCount F.preimageBound - 1

/-- `MessageRepresentativeBitLength` (pubkey.h:505). -/
def repBits (F : Fn) : Nat := bitCount F.imageBound - 1

/-- `FixedCiphertextLength` (pubkey.h:274): the bytes of `MaxImage`. -/
def cipherLen (F : Fn) : Nat := byteCount (F.imageBound - 1)

/-- `SignatureLength` (pubkey.h:488-489): the bytes of `MaxPreimage`. -/
def sigLen (F : Fn) : Nat := byteCount (F.preimageBound - 1)

/-- `TF_EncryptorBase::Encrypt` (pubkey.cpp:158-171). `maxLen` is `MaxUnpaddedLength` of the encoding. -/
def encrypt (F : Fn) (maxLen : Nat → Nat) (pad : List Byte → Nat → Except Err (List Byte)) (m : List Byte) : Except Err (List Byte) :=
  if m.length > maxLen (paddedBits F) then .error .invalidArgument else do
  let block ← pad m (paddedBits F)
  let y ← F.apply (decodeInt block)
  .ok (encodeInt y (cipherLen F))

/-- `TF_DecryptorBase::Decrypt` (pubkey.cpp:145-156). -/
def decrypt (F : Fn) (unpad : List Byte → Nat → Except Err (Option (List Byte))) (ct : List Byte) : Except Err (Option (List Byte)) :=
  if ct.length ≠ cipherLen F then .error .invalidArgument else do
  let len := bitsToBytes (paddedBits F)
  let x ← F.inverse (decodeInt ct)
  let x := if byteCount x > len then 0 else x
  unpad (encodeInt x len) (paddedBits F)

/-- `TF_SignerBase::SignAndRestart` (pubkey.cpp:71-93). `minBits` is `MinRepresentativeBitLength`, `compute` is `ComputeMessageRepresentative` with the hash of the message. -/
def sign (F : Fn) (minBits : Nat) (compute : Nat → Except Err (List Byte)) : Except Err (List Byte) :=
  if repBits F < minBits then .error .other else do
  let rep ← compute (repBits F)
  let y ← F.inverse (decodeInt rep)
  .ok (encodeInt y (sigLen F))

/-- `TF_VerifierBase::InputSignature` (pubkey.cpp:95-109): the representative the signature stands for. -/
def inputSignature (F : Fn) (minBits : Nat) (sig : List Byte) : Except Err (List Byte) :=
  if repBits F < minBits then .error .other else do
  let x ← F.apply (decodeInt sig)
  let x := if bitCount x > repBits F then 0 else x
  .ok (encodeInt x (bitsToBytes (repBits F)))

/-- `InputSignature` and `VerifyAndRestart` or `RecoverAndRestart` (pubkey.cpp:111-143): `check` is `VerifyMessageRepresentative` or `RecoverMessageFromRepresentative`. -/
def verify {α : Type} (F : Fn) (minBits : Nat) (check : List Byte → Nat → Except Err α) (sig : List Byte) : Except Err α := do
  let rep ← inputSignature F minBits sig
  check rep (repBits F)

end Verif.Tf
