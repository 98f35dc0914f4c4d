import Verif.Kdf.Model

/-!
# Message encodings for trapdoor functions (pkcspad.cpp, oaep.cpp, pssr.cpp, emsa2.cpp)

Buffers are lists of bytes; a read or write outside a buffer is undefined behaviour (`write`, `read` of Verif.Hmac). `fresh` is what an uninitialised
`SecByteBlock` contains. A hash object that `P1363_MGF1` has used is at the start of a message, as it was before; the model goes on with the object from before.
-/
namespace Verif.PkPad
open Verif.Hash Verif.Kdf
open Verif.Hmac (write read)

/-- 1 if the block has a first byte beyond the whole bytes of its bit length. -/
def off (bits : Nat) : Nat := if bits % 8 ≠ 0 then 1 else 0

/-- `BitsToBytes` (misc.h:1143-1146). -/
def bitsToBytes (bits : Nat) : Nat := (bits + 7) / 8

/-- `pkcsBlock[0] = 0; pkcsBlock++` unless the bit length is a multiple of 8 (pkcspad.cpp:67-71, 136-140; oaep.cpp:26-30). -/
def leadZero (buf : List Byte) (bits : Nat) : Except Err (List Byte) := if bits % 8 ≠ 0 then write buf 0 [0] else .ok buf

/-- `PKCS_EncryptionPaddingScheme::MaxUnpaddedLength` (pkcspad.cpp:56-59). -/
def pkcsMax (bits : Nat) : Nat := bits / 8 - 10

/-- The padding loop (pkcspad.cpp:77-78): bytes `i`, `i + 1`, …; `rnd i` is what `GenerateWord32(1, 0xff)` gives for byte `i`. -/
def pkcsFill (rnd : Nat → Byte) (base : Nat) : Nat → Nat → List Byte → Except Err (List Byte)
  | 0, _, buf => .ok buf
  | n + 1, i, buf => do
    let buf ← write buf (base + i) [rnd i]
    pkcsFill rnd base n (i + 1) buf

/-- `PKCS_EncryptionPaddingScheme::Pad` (pkcspad.cpp:61-82). -/
def pkcsPad (fresh : List Byte) (rnd : Nat → Byte) (input : List Byte) (bits : Nat) : Except Err (List Byte) := do
  let buf ← leadZero fresh bits
  let base := off bits
  let len := bits / 8
  let buf ← write buf base [2]
  if len < input.length + 1 then .error .undefinedBehaviour else do
  let buf ← pkcsFill rnd base (len - input.length - 1 - 1) 1 buf
  let buf ← write buf (base + (len - input.length - 1)) [0]
  write buf (base + (len - input.length)) input

/-- `while (i<pkcsBlockLen && pkcsBlock[i++])` (pkcspad.cpp:102-104): where `i` ends. -/
def pkcsScan (blk : List Byte) (len : Nat) : Nat → Nat → Nat
  | 0, i => i
  | f + 1, i => if i < len then (if blk.getD i 0 ≠ 0 then pkcsScan blk len f (i + 1) else i + 1) else i

/-- `PKCS_EncryptionPaddingScheme::Unpad` (pkcspad.cpp:84-115): the message, or `none` for an invalid coding. -/
def pkcsUnpad (block : List Byte) (bits : Nat) : Except Err (Option (List Byte)) := do
  let maxOutputLen := pkcsMax bits
  let lead ← read block 0 (off bits)
  let invalid := decide (lead ≠ List.replicate (off bits) 0)
  let len := bits / 8
  let blk := block.drop (off bits)
  let ty ← read blk 0 1
  let invalid := decide (ty ≠ [2]) || invalid
  let i := pkcsScan blk len len 1
  if len < i then .error .undefinedBehaviour else do
  let outputLen := len - i
  let invalid := decide (outputLen > maxOutputLen) || invalid
  if invalid then .ok none else do
  let m ← read blk i outputLen
  .ok (some m)

/-- `PKCS1v15_SignatureMessageEncodingMethod::MinRepresentativeBitLength` (pkcspad.h:92-93). -/
def pkcs1MinBits (idLen digestSize : Nat) : Nat := 8 * (digestSize + idLen + 10)

variable {σ : Type}

/-- `PKCS1v15_SignatureMessageEncodingMethod::ComputeMessageRepresentative` (pkcspad.cpp:121-159). `s`: the hash of the message so far. -/
def pkcs1Compute (O : Obj σ) (s : σ) (fresh hashId : List Byte) (bits : Nat) : Except Err (σ × List Byte) := do
  let buf ← leadZero fresh bits
  let base := off bits
  let len := bits / 8
  let buf ← write buf base [1]
  if len < O.digestSize + hashId.length + 1 + 1 then .error .undefinedBehaviour else do
  let pDigest := len - O.digestSize
  let pHashId := pDigest - hashId.length
  let pSeparator := pHashId - 1
  let buf ← write buf (base + 1) (List.replicate (pSeparator - 1) 0xff)
  let buf ← write buf (base + pSeparator) [0]
  let buf ← write buf (base + pHashId) hashId
  let (s, d) ← O.final s O.digestSize
  let buf ← write buf (base + pDigest) d
  .ok (s, buf)

/-- `PK_DeterministicSignatureMessageEncodingMethod::VerifyMessageRepresentative` (pubkey.cpp:28-35) for this encoding. -/
def pkcs1Verify (O : Obj σ) (s : σ) (fresh hashId representative : List Byte) (bits : Nat) : Except Err Bool := do
  let (_, computed) ← pkcs1Compute O s fresh hashId bits
  .ok (decide (representative = computed))

/-- `EMSA2Pad::MinRepresentativeBitLength` (emsa2.h:76-77). -/
def emsa2MinBits (digestSize : Nat) : Nat := 8 * digestSize + 31

/-- `EMSA2Pad::ComputeMessageRepresentative` (emsa2.cpp:19-41). -/
def emsa2Compute (O : Obj σ) (s : σ) (fresh : List Byte) (hashId : Byte) (empty : Bool) (bits : Nat) : Except Err (σ × List Byte) :=
  if bits % 8 ≠ 7 then .error .other else do
  let L := bitsToBytes bits
  let buf ← write fresh 0 [if empty then 0x4b else 0x6b]
  if L < O.digestSize + 4 then .error .undefinedBehaviour else do
  let buf ← write buf 1 (List.replicate (L - O.digestSize - 4) 0xbb)
  let afterP2 := L - O.digestSize - 3
  let buf ← write buf afterP2 [0xba]
  let (s, d) ← O.final s O.digestSize
  let buf ← write buf (afterP2 + 1) d
  let buf ← write buf (L - 2) [hashId]
  let buf ← write buf (L - 1) [0xcc]
  .ok (s, buf)

/-- `PK_DeterministicSignatureMessageEncodingMethod::VerifyMessageRepresentative` (pubkey.cpp:28-35) for this encoding. -/
def emsa2Verify (O : Obj σ) (s : σ) (fresh : List Byte) (hashId : Byte) (empty : Bool) (representative : List Byte) (bits : Nat) : Except Err Bool := do
  let (_, computed) ← emsa2Compute O s fresh hashId empty bits
  .ok (decide (representative = computed))

/-- `OAEP_Base::MaxUnpaddedLength` (oaep.cpp:16-19). -/
def oaepMax (hLen bits : Nat) : Nat := bits / 8 - (1 + 2 * hLen)

/-- `OAEP_Base::Pad` (oaep.cpp:21-54). `label` is the parameter EncodingParameters, `seed` what the random number generator gives. -/
def oaepPad (O : Obj σ) (s : σ) (fresh seed label input : List Byte) (bits : Nat) : Except Err (List Byte) := do
  let buf ← leadZero fresh bits
  let base := off bits
  let len := bits / 8
  let hLen := O.digestSize
  if len < hLen then .error .undefinedBehaviour else do
  let dbLen := len - hLen
  let (s, d) ← O.calculateDigest s label
  let buf ← write buf (base + hLen) d
  if dbLen < hLen + input.length + 1 then .error .undefinedBehaviour else do
  let buf ← write buf (base + hLen + hLen) (List.replicate (dbLen - hLen - input.length - 1) 0)
  let buf ← write buf (base + hLen + (dbLen - input.length - 1)) [1]
  let buf ← write buf (base + hLen + (dbLen - input.length)) input
  let buf ← write buf base seed
  let db ← read buf (base + hLen) dbLen
  let sd ← read buf base hLen
  let maskedDB ← mgf1 O s db sd true
  let buf ← write buf (base + hLen) maskedDB
  let maskedSeed ← mgf1 O s sd maskedDB true
  write buf base maskedSeed

/-- `OAEP_Base::Unpad` (oaep.cpp:56-101). With fewer than `2 * hLen` bytes the range given to `std::find` is reversed. -/
def oaepUnpad (O : Obj σ) (s : σ) (block label : List Byte) (bits : Nat) : Except Err (Option (List Byte)) := do
  let lead ← read block 0 (off bits)
  let invalid := decide (lead ≠ List.replicate (off bits) 0)
  let len := bits / 8
  let hLen := O.digestSize
  let invalid := decide (len < 2 * hLen + 1) || invalid
  if len < 2 * hLen then .error .undefinedBehaviour else do
  let dbLen := len - hLen
  let t ← read block (off bits) len
  let maskedSeed := t.take hLen
  let maskedDB := t.drop hLen
  let seed ← mgf1 O s maskedSeed maskedDB true
  let db ← mgf1 O s maskedDB seed true
  let tail := db.drop hLen
  let pos := tail.findIdx (· == 1)
  let invalid := decide (pos = dbLen - hLen) || invalid
  let invalid := (tail.take pos).any (· != 0) || invalid
  let (_, d) ← O.calculateDigest s label
  let invalid := decide (d ≠ db.take hLen) || invalid
  if invalid then .ok none else
  .ok (some (tail.drop (pos + 1)))

/-- What `PSSR_MEM` is instantiated with (pssr.h:64-78): the salt and least padding lengths for the hash at hand, and the hash identifier (empty if not used). -/
structure Pss where
  allowRecovery : Bool
  saltLen : Nat
  minPad : Nat
  hashId : List Byte

/-- `PSSR_MEM_Base::MinRepresentativeBitLength` (pssr.cpp:20-25). -/
def pssMinBits (P : Pss) (digestSize : Nat) : Nat := 9 + 8 * (P.minPad + P.saltLen + digestSize + P.hashId.length)

/-- `PSSR_MEM_Base::MaxRecoverableLength` (pssr.cpp:27-32). -/
def pssMaxRec (P : Pss) (bits digestSize : Nat) : Nat := if P.allowRecovery then (bits - pssMinBits P digestSize) / 8 else 0

/-- The bit length of the recoverable message in 8 bytes, from a 64-bit `size_t` (pssr.cpp:70-72, 149-151). -/
def lengthBytes (n : Nat) : List Byte := beBytes 4 (n / 2 ^ 29 % 2 ^ 32) ++ beBytes 4 (n * 8 % 2 ^ 64 % 2 ^ 32)

/-- `xorbuf(buf + pos, x, x.length)` -/
def xorAt (buf : List Byte) (pos : Nat) (x : List Byte) : Except Err (List Byte) := do
  let old ← read buf pos x.length
  write buf pos (xorBytes old x)

/-- `Crop` of the first byte (misc.h:1131-1137, pssr.cpp:93-94, 127-128). -/
def cropFirst (bits : Nat) (buf : List Byte) : List Byte :=
  if bits % 8 ≠ 0 then
    match buf with
    | [] => []
    | b :: r => (b &&& BitVec.ofNat 8 (2 ^ (bits % 8) - 1)) :: r
  else buf

/-- `hash.Update(c, 8) … hash.Update(salt, saltSize)` (pssr.cpp:73-76, 152-155). -/
def pssUpdates (O : Obj σ) (s : σ) (recoverable digest salt : List Byte) : Except Err σ := do
  let s ← O.update s (lengthBytes recoverable.length)
  let s ← O.update s recoverable
  let s ← O.update s digest
  O.update s salt

/-- The bytes after the hash (pssr.cpp:84-92). -/
def pssTrailer (P : Pss) (buf : List Byte) (L : Nat) : Except Err (List Byte) :=
  if P.hashId.length ≠ 0 then do
    let buf ← write buf (L - (P.hashId.length + 1)) P.hashId
    write buf (L - 1) [0xcc]
  else write buf (L - 1) [0xbc]

/-- `PSSR_MEM_Base::ComputeMessageRepresentative` (pssr.cpp:49-95). `s`: the hash of the message so far; `salt` from the random number generator. -/
def pssCompute (O : Obj σ) (s : σ) (P : Pss) (fresh salt recoverable : List Byte) (bits : Nat) : Except Err (List Byte) := do
  let u := P.hashId.length + 1
  let L := bitsToBytes bits
  let d := O.digestSize
  if L < u + d then .error .undefinedBehaviour else do
  let hpos := L - u - d
  let (s, digest) ← O.final s d
  let s ← pssUpdates O s recoverable digest salt
  let (s, h) ← O.final s d
  let buf ← write fresh hpos h
  let rep ← read buf 0 hpos
  let mask ← mgf1 O s rep h false
  let buf ← write buf 0 mask
  if hpos < salt.length + recoverable.length + 1 then .error .undefinedBehaviour else do
  let xorStart := hpos - salt.length - recoverable.length - 1
  let buf ← xorAt buf xorStart [1]
  let buf ← xorAt buf (xorStart + 1) recoverable
  let buf ← xorAt buf (xorStart + 1 + recoverable.length) salt
  let buf ← pssTrailer P buf L
  .ok (cropFirst bits buf)

/-- `PSSR_MEM_Base::RecoverMessageFromRepresentative` (pssr.cpp:97-163): the recoverable message, or `none` for an invalid coding. The difference compared with
`MinPadLen` is a `size_t`: it wraps when the first byte that is not zero is the first of all. -/
def pssRecover (O : Obj σ) (s : σ) (P : Pss) (representative : List Byte) (bits : Nat) : Except Err (Option (List Byte)) := do
  let u := P.hashId.length + 1
  let L := bitsToBytes bits
  let d := O.digestSize
  if L < u + d then .error .undefinedBehaviour else do
  let hpos := L - u - d
  let (s, digest) ← O.final s d
  let last ← read representative (L - 1) 1
  let valid := decide (last = [if P.hashId.length ≠ 0 then 0xcc else 0xbc])
  let id ← read representative (L - u) P.hashId.length
  let valid := decide (id = P.hashId) && valid
  let h ← read representative hpos d
  let rep ← read representative 0 hpos
  let db ← mgf1 O s rep h true
  let db := cropFirst bits db
  if hpos < P.saltLen + 1 then .error .undefinedBehaviour else do
  let sPos := hpos - P.saltLen
  let M := (db.take (sPos - 1)).findIdx (· != 0)
  let recLen := sPos - M - 1
  let at1 ← read db M 1
  let ok := decide (at1 = [1]) && (decide (M < off bits) || decide (P.minPad ≤ M - off bits)) && decide (recLen ≤ pssMaxRec P bits d)
  let recLen := if ok then recLen else 0
  let valid := ok && valid
  let recoverable := (db.drop (M + 1)).take recLen
  let salt ← read db sPos P.saltLen
  let s ← pssUpdates O s recoverable digest salt
  let (_, h') ← O.final s d
  let valid := decide (h' = h) && valid
  if !P.allowRecovery && valid && decide (recLen ≠ 0) then .error .other else
  .ok (if valid then some recoverable else none)

/-- `PK_RecoverableSignatureMessageEncodingMethod::VerifyMessageRepresentative` (pubkey.cpp:37-45) for this encoding. -/
def pssVerify (O : Obj σ) (s : σ) (P : Pss) (representative : List Byte) (bits : Nat) : Except Err Bool := do
  let r ← pssRecover O s P representative bits
  .ok (decide (r = some []))

end Verif.PkPad
