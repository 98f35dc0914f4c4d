import Verif.Hmac.Model
import Verif.Words

/-! # Key derivation (hkdf.h, pwdbased.h, pubkey.cpp:14-26) -/
namespace Verif.Kdf
open Verif.Hash

/-- `HMAC<T>` as a hash object (hmac.h:17-70). -/
def hmacObj {σ : Type} (O : Obj σ) : Obj (Verif.Hmac.State σ) where
  digestSize := O.digestSize
  blockSize := O.blockSize
  update := Verif.Hmac.update O
  restart := Verif.Hmac.restart O
  final := Verif.Hmac.truncatedFinal O

/-- The loops `for (i=1; i<iterations || (timeInSeconds && (i%128!=0 || timer.ElapsedTimeAsDouble() < timeInSeconds)); i++)`. `more i` is the
value of the second operand: any function, since it depends on a clock; always false when `timeInSeconds` is 0. At most `fuel` rounds. -/
def iterate {τ : Type} (body : τ → Except Err τ) (iterations : Nat) (more : Nat → Bool) : Nat → Nat → τ → Except Err (τ × Nat)
  | 0, i, t => if i < iterations || more i then .error .diverges else .ok (t, i)
  | f + 1, i, t =>
    if i < iterations || more i then
      match body t with
      | .error e => .error e
      | .ok t => iterate body iterations more f (i + 1) t
    else .ok (t, i)

variable {σ : Type}

/-- `PKCS5_PBKDF1<T>::DeriveKey` (pwdbased.h:113-147): the key and the returned count. `s` is a new hash object. -/
def pbkdf1 (O : Obj σ) (s : σ) (more : Nat → Bool) (fuel derivedLen : Nat) (secret salt : List Byte) (iterations : Nat) : Except Err (List Byte × Nat) :=
  if O.digestSize < derivedLen then .error .invalidArgument else
  let iterations := if iterations = 0 then 1 else iterations
  match O.update s secret with
  | .error e => .error e
  | .ok s =>
    match O.update s salt with
    | .error e => .error e
    | .ok s =>
      match O.final s O.digestSize with
      | .error e => .error e
      | .ok sb =>
        match iterate (fun p => O.calculateDigest p.1 p.2) iterations more fuel 1 sb with
        | .error e => .error e
        | .ok (p, i) => .ok (p.2.take derivedLen, i)

/-- `xorbuf(derived, buffer, segmentLen)`. -/
def xorBytes (a b : List Byte) : List Byte := List.zipWith (· ^^^ ·) a b

/-- Four calls of `Update` with a byte each (pwdbased.h:269-274). -/
def updateCounter (O : Obj σ) (s : σ) (i : Nat) : Except Err σ :=
  let rec go : List Byte → σ → Except Err σ
    | [], s => .ok s
    | b :: bs, s => match O.update s [b] with
      | .error e => .error e
      | .ok s => go bs s
  go [BitVec.ofNat 8 (i >>> 24), BitVec.ofNat 8 (i >>> 16), BitVec.ofNat 8 (i >>> 8), BitVec.ofNat 8 i] s

/-- A round of PBKDF2: `CalculateDigest(buffer, buffer, size); xorbuf(derived, buffer, segmentLen)` (pwdbased.h:291-295). -/
def xorRound (O : Obj σ) (segmentLen : Nat) (p : σ × List Byte × List Byte) : Except Err (σ × List Byte × List Byte) :=
  match O.calculateDigest p.1 p.2.1 with
  | .error e => .error e
  | .ok (s, b) => .ok (s, b, xorBytes p.2.2 (b.take segmentLen))

/-- The main loop of `PKCS5_PBKDF2_HMAC<T>::DeriveKey` (pwdbased.h:265-308), for a keyed MAC object. `more` is `none` when `timeInSeconds` is 0.
`i` is `unsigned int`. -/
def pbkdf2Loop (O : Obj σ) (salt : List Byte) (fuelIter : Nat) : Nat → σ → Nat → Nat → Nat → Option (Nat → Bool) → Except Err (List Byte × Nat)
  | 0, _, derivedLen, _, iterations, _ => if derivedLen = 0 then .ok ([], iterations) else .error .diverges
  | f + 1, s, derivedLen, i, iterations, more =>
    if derivedLen = 0 then .ok ([], iterations) else
    match O.update s salt with
    | .error e => .error e
    | .ok s =>
      match updateCounter O s i with
      | .error e => .error e
      | .ok s =>
        match O.final s O.digestSize with
        | .error e => .error e
        | .ok (s, buffer) =>
          let segmentLen := min derivedLen buffer.length
          match iterate (xorRound O segmentLen) iterations (more.getD fun _ => false) fuelIter 1 (s, buffer, buffer.take segmentLen) with
          | .error e => .error e
          | .ok ((s, _, derived), j) =>
            let iterations := if more.isSome then j else iterations
            match pbkdf2Loop O salt fuelIter f s (derivedLen - segmentLen) ((i + 1) % 2 ^ 32) iterations none with
            | .error e => .error e
            | .ok (rest, n) => .ok (derived ++ rest, n)

/-- `PKCS5_PBKDF2_HMAC<T>::DeriveKey` (pwdbased.h:243-309) with `HMAC<T>`. `fresh` is the content of its new buffer. -/
def pbkdf2 (O : Obj σ) (s : σ) (fresh : List Byte) (more : Option (Nat → Bool)) (fuel derivedLen : Nat) (secret salt : List Byte) (iterations : Nat) : Except Err (List Byte × Nat) :=
  if 0xffffffff < derivedLen then .error .invalidArgument else
  let iterations := if iterations = 0 then 1 else iterations
  match Verif.Hmac.setKey O ⟨s, [], false⟩ fresh secret with
  | .error e => .error e
  | .ok h =>
    if O.digestSize = 0 then .error .invalidArgument
    else pbkdf2Loop (hmacObj O) salt fuel derivedLen h derivedLen 1 iterations more

/-- `RoundUpToMultipleOf`. -/
def roundUp (n v : Nat) : Nat := (n + v - 1) / v * v

/-- `S[i] = salt[i % saltLen]` for `i < n` (pwdbased.h:427-431). -/
def repeatTo (x : List Byte) (n : Nat) : List Byte := (List.range n).map fun i => x.getD (i % x.length) 0

/-- `for (i=0; i<ILen; i+=v) (Integer(I+i, v) + B1).Encode(I+i, v)` (pwdbased.h:459-462), block by block. Encoding in `v` bytes keeps the low bytes
(Verif.Integer). -/
def addAll (v b1 : Nat) : Nat → List Byte → List Byte
  | 0, I => I
  | f + 1, I => if I.length = 0 then [] else beBytes v (beVal (I.take v) + b1) ++ addAll v b1 f (I.drop v)

/-- The main loop of `PKCS12_PBKDF<T>::DeriveKey` (pwdbased.h:437-476). -/
def pkcs12Loop (O : Obj σ) (D : List Byte) (fuelIter : Nat) : Nat → σ → List Byte → Nat → Nat → Option (Nat → Bool) → Except Err (List Byte × Nat)
  | 0, _, _, derivedLen, iterations, _ => if derivedLen = 0 then .ok ([], iterations) else .error .diverges
  | f + 1, s, I, derivedLen, iterations, more =>
    if derivedLen = 0 then .ok ([], iterations) else
    match O.calculateDigest s (D ++ I) with
    | .error e => .error e
    | .ok sa =>
      match iterate (fun p => O.calculateDigest p.1 p.2) iterations (more.getD fun _ => false) fuelIter 1 sa with
      | .error e => .error e
      | .ok ((s, a), j) =>
        let iterations := if more.isSome then j else iterations
        let b := repeatTo a O.blockSize
        let I := addAll O.blockSize (beVal b + 1) I.length I
        let segmentLen := min derivedLen a.length
        match pkcs12Loop O D fuelIter f s I (derivedLen - segmentLen) iterations none with
        | .error e => .error e
        | .ok (rest, n) => .ok (a.take segmentLen ++ rest, n)

/-- `PKCS12_PBKDF<T>::DeriveKey` (pwdbased.h:405-477). The maximal length is that of `size_t`. -/
def pkcs12 (O : Obj σ) (s : σ) (more : Option (Nat → Bool)) (fuel derivedLen : Nat) (purpose : Byte) (secret salt : List Byte) (iterations : Nat) : Except Err (List Byte × Nat) :=
  let iterations := if iterations = 0 then 1 else iterations
  let v := O.blockSize
  pkcs12Loop O (List.replicate v purpose) fuel derivedLen s (repeatTo salt (roundUp salt.length v) ++ repeatTo secret (roundUp secret.length v)) derivedLen iterations more

/-- The `Expand` loop of HKDF (hkdf.h:152-171). `block` is a `byte`. -/
def hkdfLoop (O : Obj σ) (info : List Byte) : Nat → σ → Byte → List Byte → Nat → Except Err (List Byte)
  | 0, _, _, _, derivedLen => if derivedLen = 0 then .ok [] else .error .diverges
  | f + 1, s, block, buffer, derivedLen =>
    if derivedLen = 0 then .ok [] else
    match (if block ≠ 0 then O.update s buffer else .ok s) with
    | .error e => .error e
    | .ok s =>
      match (if info.length ≠ 0 then O.update s info else .ok s) with
      | .error e => .error e
      | .ok s =>
        match O.calculateDigest s [block + 1] with
        | .error e => .error e
        | .ok (s, buffer) =>
          let segmentLen := min derivedLen O.digestSize
          match hkdfLoop O info f s (block + 1) buffer (derivedLen - segmentLen) with
          | .error e => .error e
          | .ok rest => .ok (buffer.take segmentLen ++ rest)

/-- `HKDF<T>::DeriveKey` (hkdf.h:125-174). `salt = none` is a null pointer. -/
def hkdf (O : Obj σ) (s : σ) (fresh fresh2 : List Byte) (derivedLen : Nat) (secret : List Byte) (salt : Option (List Byte)) (info : List Byte) : Except Err (List Byte) :=
  if O.digestSize * 255 < derivedLen then .error .invalidArgument else
  let salt := salt.getD (List.replicate O.digestSize 0)
  match Verif.Hmac.setKey O ⟨s, [], false⟩ fresh salt with
  | .error e => .error e
  | .ok h =>
    match (hmacObj O).calculateDigest h secret with
    | .error e => .error e
    | .ok (h, key) =>
      match Verif.Hmac.setKey O h fresh2 key with
      | .error e => .error e
      | .ok h => hkdfLoop (hmacObj O) info derivedLen h 0 [] derivedLen

/-- The loop of `P1363_MGF1KDF2_Common` (pubkey.cpp:19-25). `HashFilter` passes its input to the hash and at the message end puts the digest
(filters.cpp:867-884). `ArraySink` takes what fits, `ArrayXorSink` xors it in (filters.cpp:531-545, 562-576). `out` is what is left of the output buffer. -/
def mgfLoop (O : Obj σ) (input params : List Byte) (mask : Bool) : Nat → σ → Nat → List Byte → Except Err (List Byte)
  | 0, _, _, out => if out.length = 0 then .ok [] else .error .diverges
  | f + 1, s, counter, out =>
    if out.length = 0 then .ok [] else
    match O.update s input with
    | .error e => .error e
    | .ok s =>
      match O.update s (beBytes 4 counter) with
      | .error e => .error e
      | .ok s =>
        match O.update s params with
        | .error e => .error e
        | .ok s =>
          match O.final s O.digestSize with
          | .error e => .error e
          | .ok (s, d) =>
            let n := min d.length out.length
            let now := if mask then xorBytes (out.take n) (d.take n) else d.take n
            match mgfLoop O input params mask f s ((counter + 1) % 2 ^ 32) (out.drop n) with
            | .error e => .error e
            | .ok rest => .ok (now ++ rest)

/-- `P1363_MGF1KDF2_Common` (pubkey.cpp:14-26), the hash object at the start of a message. -/
def mgf (O : Obj σ) (s : σ) (out input params : List Byte) (mask : Bool) (counterStart : Nat) : Except Err (List Byte) :=
  mgfLoop O input params mask out.length s (counterStart % 2 ^ 32) out

/-- `P1363_MGF1::GenerateAndMask` (pubkey.h:734-737): counter from 0, no parameters, xor unless `mask` is false. -/
def mgf1 (O : Obj σ) (s : σ) (out input : List Byte) (mask : Bool) : Except Err (List Byte) := mgf O s out input [] mask 0

/-- `P1363_KDF2<H>::DeriveKey` (pubkey.h:760-764): counter from 1. -/
def kdf2 (O : Obj σ) (s : σ) (out input params : List Byte) : Except Err (List Byte) := mgf O s out input params false 1

end Verif.Kdf
