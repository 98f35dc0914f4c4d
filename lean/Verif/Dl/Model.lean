import Mathlib.Data.Int.GCD
import Verif.Words
import Verif.Misc.Precision

/-! # Discrete-logarithm schemes (pubkey.h, gfpcrypt.h, gfpcrypt.cpp, dh.h, dh2.cpp, mqv.h, hmqv.h, fhmqv.h, elgamal.h)

`Integer` values are `Int`; the arithmetic of `Integer` itself is in Verif.Integer. `%` is `Int.emod`: the remainder of `Integer` by a positive modulus is never negative. -/
namespace Verif.Dl
open Verif.Misc

/-- `DL_GroupParameters<E>` (pubkey.h:783-1006): what the schemes use of it. `decode` is `none` for a `DL_BadElement` exception. `validate2` is `ValidateElement(2, e, NULL)`. -/
structure Params (E : Type) where
  g : E
  order : Int
  cofactor : Int
  expBase : Int → E
  exp : E → Int → E
  mul : E → E → E
  cascade : E → Int → E → Int → E
  isIdentity : E → Bool
  toInt : E → Int
  encSize : Bool → Nat
  encode : Bool → E → List Byte
  decode : List Byte → Bool → Option E
  fastCheck : Bool
  validate2 : E → Bool

/-- `Integer::ByteCount` of a non-negative integer (integer.cpp). -/
def byteCount (n : Int) : Nat := byteLen n.toNat

/-- `Integer::BitCount`. -/
def bitCount (n : Int) : Nat := bitLen n.toNat

/-- `Integer::Encode(output, len)` of a non-negative integer: the low `len` bytes. -/
def encodeInt (n : Int) (len : Nat) : List Byte := beBytes len n.toNat

/-- `Integer(buf, len)`. -/
def decodeInt (b : List Byte) : Int := (beVal b : Int)

/-- The extended Euclidean algorithm: `r0`, `r1` remainders, `s0`, `s1` the multiples. -/
def egcd : Nat → Int → Int → Int → Int → Int
  | 0, _, _, s0, _ => s0
  | f + 1, r0, r1, s0, s1 => if r1 = 0 then s0 else egcd f r1 (r0 % r1) s1 (s0 - r0 / r1 * s1)

/-- The result of `Integer::InverseMod` (integer.cpp:4400-4455): 0 when there is no inverse. The library's own algorithm is in Verif.Integer; here its result is computed by the Euclidean algorithm. -/
def invMod (a m : Int) : Int := if Int.gcd a m = 1 then egcd (m.toNat + 1) m (a % m) 0 1 % m else 0

/-- `ModularArithmetic(m).Divide(a, b)`. -/
def divMod (m a b : Int) : Int := a * invMod b m % m

variable {E : Type}

/-! ## Signatures -/

/-- `DL_Algorithm_GDSA` (DSA, ECDSA), `DL_Algorithm_GDSA_ISO15946` (ECGDSA), `DL_Algorithm_NR` (NR, ECNR). -/
inductive Alg
  | gdsa
  | gdsaIso
  | nr
deriving DecidableEq

/-- `Sign` of the three algorithms (gfpcrypt.h:315-322, 512-520, 554-560). `r` comes in as the presignature. -/
def sign (P : Params E) (alg : Alg) (x k e r : Int) : Int × Int :=
  let q := P.order
  match alg with
  | .gdsa =>
    let r := r % q
    let kInv := invMod k q
    (r, kInv * (x * r + e) % q)
  | .gdsaIso =>
    let r := P.toInt (P.expBase k) % q
    (r, (k * r - e) * x % q)
  | .nr =>
    let r := (r + e) % q
    (r, (k - x * r) % q)

/-- `Verify` of the three algorithms (gfpcrypt.h:324-335, 522-533, 562-570). -/
def verify (P : Params E) (alg : Alg) (y : E) (e r s : Int) : Bool :=
  let q := P.order
  match alg with
  | .gdsa =>
    if r ≥ q || r < 1 || s ≥ q || s < 1 then false else
    let w := invMod s q
    let u1 := e * w % q
    let u2 := r * w % q
    r == P.toInt (P.cascade P.g u1 y u2) % q
  | .gdsaIso =>
    if r ≥ q || r < 1 || s ≥ q || s < 1 then false else
    let rInv := invMod r q
    let u1 := rInv * e % q
    let u2 := rInv * s % q
    r == P.toInt (P.cascade P.g u1 y u2) % q
  | .nr =>
    if r ≥ q || r < 1 || s ≥ q then false else
    r == (P.toInt (P.cascade P.g s y r) + e) % q

/-- The public element of a private exponent (pubkey.h:1276-1281; for ECGDSA eccrypto.h:444-451). -/
def publicElement (P : Params E) (alg : Alg) (x : Int) : E :=
  match alg with
  | .gdsaIso => P.expBase (invMod x P.order)
  | _ => P.expBase x

/-- `DL_SignatureMessageEncodingMethod_DSA::ComputeMessageRepresentative` (gfpcrypt.cpp:81-104): the representative from the digest. -/
def dsaRepresentative (digest : List Byte) (bits : Nat) : List Byte :=
  let len := (bits + 7) / 8
  let rep := List.replicate (len - digest.length) 0 ++ digest.take (min len digest.length)
  if digest.length * 8 > bits then encodeInt (decodeInt rep / 2 ^ (len * 8 - bits)) len else rep

/-- `DL_SignatureMessageEncodingMethod_NR::ComputeMessageRepresentative` (gfpcrypt.cpp:106-131). -/
def nrRepresentative (digest : List Byte) (bits : Nat) : List Byte :=
  let len := (bits + 7) / 8
  let rep := List.replicate (len - digest.length) 0 ++ digest.take (min len digest.length)
  if digest.length * 8 ≥ bits then encodeInt (decodeInt rep / 2 ^ (len * 8 - bits + 1)) len else rep

/-- The representative a scheme uses: NR with its own, DSA, ECDSA, ECGDSA with the DSA one. -/
def representative (alg : Alg) (digest : List Byte) (bits : Nat) : List Byte :=
  match alg with
  | .nr => nrRepresentative digest bits
  | _ => dsaRepresentative digest bits

/-- `DL_SignerBase::SignAndRestart` (pubkey.h:1630-1692) with the digest of the message and the nonce `k`. -/
def signDigest (P : Params E) (alg : Alg) (x k : Int) (digest : List Byte) : List Byte :=
  let q := P.order
  let e := decodeInt (representative alg digest (bitCount q))
  let ks := k + q
  let ks := if bitCount ks = bitCount q then ks + q else ks
  let r := P.toInt (P.expBase ks)
  let rs := sign P alg x k e r
  encodeInt rs.1 (byteCount q) ++ encodeInt rs.2 (byteCount q)

/-- `DL_VerifierBase::InputSignature` and `VerifyAndRestart` (pubkey.h:1723-1763). -/
def verifyDigest (P : Params E) (alg : Alg) (y : E) (digest signature : List Byte) : Except Err Bool :=
  let q := P.order
  let rLen := byteCount q
  let sLen := byteCount q
  if signature.length < rLen + sLen then .error .invalidDataFormat else
  let r := decodeInt (signature.take rLen)
  let s := decodeInt ((signature.drop rLen).take sLen)
  let e := decodeInt (representative alg digest (bitCount q))
  .ok (verify P alg y e r s)

/-! ## Key agreement -/

/-- `CofactorMultiplicationOption` (pubkey.h:2123-2134). -/
inductive Cofactor
  | no
  | compatible
  | incompatible
deriving DecidableEq

/-- `DL_KeyAgreementAlgorithm_DH::AgreeWithEphemeralPrivateKey` (pubkey.h:2151-2155). -/
def agreeEphemeral (P : Params E) (c : Cofactor) (publicElement : E) (x : Int) : E :=
  P.exp publicElement (if c = .incompatible then x * P.cofactor else x)

/-- `DL_KeyAgreementAlgorithm_DH::AgreeWithStaticPrivateKey` (pubkey.h:2157-2190). -/
def agreeStatic (P : Params E) (c : Cofactor) (w : E) (validate : Bool) (x : Int) : Option E :=
  match c with
  | .compatible => some (P.exp w (divMod P.order x P.cofactor * P.cofactor))
  | .incompatible => some (P.exp w (x * P.cofactor))
  | .no =>
    if !validate then some (P.exp w x)
    else if P.fastCheck then
      if !P.validate2 w then none else some (P.exp w x)
    else if !P.isIdentity (P.exp w P.order) then none else some (P.exp w x)

/-- `DL_SimpleKeyAgreementDomainBase::GeneratePublicKey` (pubkey.h:2081-2088). -/
def dhPublic (P : Params E) (privateKey : List Byte) : List Byte := P.encode true (P.expBase (decodeInt privateKey))

/-- `DL_SimpleKeyAgreementDomainBase::Agree` (pubkey.h:2090-2107): the agreed value, `none` for `false`. -/
def dhAgree (P : Params E) (c : Cofactor) (privateKey otherPublicKey : List Byte) (validate : Bool) : Option (List Byte) :=
  match P.decode otherPublicKey validate with
  | none => none
  | some w =>
    match agreeStatic P c w validate (decodeInt privateKey) with
    | none => none
    | some z => some (P.encode false z)

/-- `DH2::Agree` (dh2.cpp:60-67). -/
def dh2Agree {E' : Type} (P : Params E) (P' : Params E') (c : Cofactor) (staticPriv ephPriv staticOther ephOther : List Byte) (validate : Bool) : Option (List Byte) :=
  match dhAgree P c staticPriv staticOther validate with
  | none => none
  | some a =>
    match dhAgree P' c ephPriv ephOther true with
    | none => none
    | some b => some (a ++ b)

/-- `GenerateEphemeralPrivateKey` of MQV, HMQV and FHMQV for the exponent `x` (mqv.h:162-169, hmqv.h, fhmqv.h): the exponent and the public key. -/
def ephPrivate (P : Params E) (x : Int) : List Byte := encodeInt x (byteCount P.order) ++ P.encode true (P.expBase x)

/-- `GenerateEphemeralPublicKey` (mqv.h:176-180): a copy of the second part. -/
def ephPublic (P : Params E) (priv : List Byte) : List Byte := (priv.drop (byteCount P.order)).take (P.encSize true)

/-- `MQV_Domain::Agree` (mqv.h:204-254). -/
def mqvAgree (P : Params E) (c : Cofactor) (staticPriv ephPriv staticOther ephOther : List Byte) (validate : Bool) : Option (List Byte) :=
  match P.decode staticOther validate, P.decode ephOther true with
  | some WW, some VV =>
    let s := decodeInt staticPriv
    let u := decodeInt (ephPriv.take (byteCount P.order))
    match P.decode (ephPriv.drop (byteCount P.order)) false with
    | none => none
    | some V =>
      let r := P.order
      let h2 : Int := 2 ^ ((bitCount r + 1) / 2)
      let e := ((h2 + P.toInt V % h2) * s + u) % r
      let tt := h2 + P.toInt VV % h2
      match c with
      | .no =>
        let p := P.mul (P.exp WW tt) VV
        if !P.isIdentity (P.exp p r) || P.isIdentity (P.exp p e) then none else some (P.encode false (P.exp p e))
      | _ =>
        let k := P.cofactor
        let e := if c = .compatible then divMod r e k else e
        let p := P.cascade VV (k * e) WW (k * (e * tt % r))
        if P.isIdentity p then none else some (P.encode false p)
  | _, _ => none

/-- The stretching in `HMQV_Domain::Hash` and `FHMQV_Domain::Hash` (hmqv.h:376-393): each further block is the digest of the one before. `H` is the hash, `d` its digest size. -/
def stretch (H : List Byte → List Byte) (d : Nat) : Nat → List Byte → Nat → List Byte
  | 0, _, _ => []
  | f + 1, block, req =>
    if req = 0 then [] else
    let block := (H block).take (min req d)
    block ++ stretch H d f block (req - min req d)

/-- `Hash` of HMQV and FHMQV (hmqv.h:350-394, fhmqv.h:346-384) on the concatenation of its inputs, `dlen` bytes. -/
def hmqvHash (H : List Byte → List Byte) (d : Nat) (input : List Byte) (dlen : Nat) : List Byte := stretch H d (dlen + 1) input dlen

/-- `HMQV_Domain::Agree` (hmqv.h:233-343) and, with `full`, `FHMQV_Domain::Agree` (fhmqv.h:234-341). -/
def hmqvAgree (P : Params E) (H : List Byte → List Byte) (d : Nat) (full server : Bool) (staticPriv ephPriv staticOther ephOther : List Byte) (validate : Bool) : Option (List Byte) :=
  let kl := byteCount P.order
  let mine := P.encode true (P.expBase (decodeInt staticPriv))
  let ephMine := (ephPriv.drop kl).take (P.encSize true)
  let XX := if server then ephOther else ephMine
  let YY := if server then ephMine else ephOther
  let AA := if server then staticOther else mine
  let BB := if server then mine else staticOther
  match P.decode staticOther validate, P.decode ephOther true with
  | some _, some _ =>
    let q := P.order
    let len := ((bitCount q + 1) / 2 + 7) / 8
    let dd := decodeInt (hmqvHash H d (if full then XX ++ YY ++ AA ++ BB else XX ++ BB) len)
    let ee := decodeInt (hmqvHash H d (if full then YY ++ XX ++ AA ++ BB else YY ++ AA) len)
    let u := decodeInt (ephPriv.take kl)
    let s := decodeInt staticPriv
    let sigma : Option E :=
      if server then
        match P.decode AA false, P.decode XX false with
        | some A, some X => some (P.exp (P.mul X (P.exp A dd)) ((u + ee * s) % q))
        | _, _ => none
      else
        match P.decode BB false, P.decode YY false with
        | some B, some Y => some (P.exp (P.mul Y (P.exp B ee)) ((u + dd * s) % q))
        | _, _ => none
    match sigma with
    | none => none
    | some sigma => some (hmqvHash H d (P.encode false sigma ++ if full then XX ++ YY ++ AA ++ BB else []) (P.encSize false))
  | _, _ => none

/-! ## Encryption -/

/-- A `DL_SymmetricEncryptionAlgorithm` with its key derivation (pubkey.h:1498-1556). `encrypt` gets what the random number generator delivers. `decrypt` is `none` for an invalid `DecodingResult`; `undefinedBehaviour`
is a read behind the end of the ciphertext. -/
structure Dem (E : Type) where
  keyLength : Nat → Nat
  maxPlaintext : Nat → Nat
  derive : Nat → E → E → List Byte
  encrypt : List Byte → List Byte → List Byte → Except Err (List Byte)
  decrypt : List Byte → List Byte → Except Err (Option (List Byte))

/-- `DL_EncryptorBase::Encrypt` (pubkey.h:1878-1897). -/
def encrypt (P : Params E) (c : Cofactor) (D : Dem E) (y : E) (x : Int) (rnd plaintext : List Byte) : Except Err (List Byte) :=
  let q := P.expBase x
  let z := agreeEphemeral P c y x
  match D.encrypt (D.derive (D.keyLength plaintext.length) z q) rnd plaintext with
  | .error e => .error e
  | .ok t => .ok (P.encode true q ++ t)

/-- `DL_DecryptorBase::Decrypt` (pubkey.h:1837-1864). A ciphertext shorter than an encoded element is read behind its end; the length then wraps. -/
def decrypt (P : Params E) (c : Cofactor) (D : Dem E) (x : Int) (ciphertext : List Byte) : Except Err (Option (List Byte)) :=
  if ciphertext.length < P.encSize true then .error .undefinedBehaviour else
  match P.decode (ciphertext.take (P.encSize true)) true with
  | none => .ok none
  | some q =>
    let rest := ciphertext.drop (P.encSize true)
    match agreeStatic P c q true x with
    | none => .ok none
    | some z => D.decrypt (D.derive (D.keyLength (D.maxPlaintext rest.length)) z q) rest

/-- `ElGamalBase` (elgamal.h:27-97) for the modulus `p`. -/
def elgamal (p : Int) : Dem Int :=
  let len := byteCount p
  let maxPt := fun n => if n = len then min 255 (len - 3) else 0
  { keyLength := fun _ => len
    maxPlaintext := maxPt
    derive := fun n z _ => encodeInt z n
    encrypt := fun key rnd pt =>
      if len < 2 + pt.length then .error .undefinedBehaviour else
      let block := rnd.take (len - 2 - pt.length) ++ pt ++ [BitVec.ofNat 8 pt.length]
      .ok (encodeInt (decodeInt key * decodeInt block % p) len)
    decrypt := fun key ct =>
      if ct.length ≠ len then .ok none else
      let m := decodeInt ct * invMod (decodeInt key) p % p
      let n := ((encodeInt m 1).getD 0 0).toNat
      if n > maxPt len then .ok none else
      .ok (some (encodeInt (m / 256) n)) }

/-- The MAC key and the cipher key in `DL_EncryptionAlgorithm_Xor` (gfpcrypt.h:890-902, 925-937). -/
def iesKeys (dhaes : Bool) (macKey : Nat) (key : List Byte) (n : Nat) : List Byte × List Byte :=
  if dhaes then (key.take macKey, (key.drop macKey).take n) else ((key.drop n).take macKey, key.take n)

/-- `DL_EncryptionAlgorithm_Xor<MAC, DHAES_MODE, LABEL_OCTETS>` and `DL_KeyDerivationAlgorithm_P1363<T, DHAES_MODE, KDF>` (gfpcrypt.h:877-984). `mac key msg` is the MAC of `macLen` bytes with keys of `macKey` bytes,
`kdf n z` the key of `n` bytes from the secret `z` (with the derivation parameters), `param` the encoding parameters. -/
def ies (P : Params E) (dhaes octets : Bool) (mac : List Byte → List Byte → List Byte) (macKey macLen : Nat) (kdf : Nat → List Byte → List Byte) (param : List Byte) : Dem E :=
  let label := if dhaes then beBytes 8 (if octets then param.length else 8 * param.length) else []
  { keyLength := fun n => n + macKey
    maxPlaintext := fun n => n - macLen
    derive := fun n z q => kdf n (if dhaes then P.encode true q ++ P.encode false z else P.encode false z)
    encrypt := fun key _ pt =>
      let k := iesKeys dhaes macKey key pt.length
      let ct := List.zipWith (· ^^^ ·) pt k.2
      .ok (ct ++ mac k.1 (ct ++ param ++ label))
    decrypt := fun key ct =>
      let n := ct.length - macLen
      let k := iesKeys dhaes macKey key n
      if ct.length < macLen then .error .undefinedBehaviour else
      if mac k.1 (ct.take n ++ param ++ label) = ct.drop n then .ok (some (List.zipWith (· ^^^ ·) (ct.take n) k.2)) else .ok none }

/-! ## Groups modulo a prime -/

/-- `DL_GroupParameters_IntegerBased::ValidateElement(1, g, NULL)` for GF(p) (gfpcrypt.cpp:162-180). -/
def gfpValid (p e : Int) : Bool := decide (0 < e) && decide (e < p) && e != 1

/-- `DL_GroupParameters_GFP` (gfpcrypt.h:227-270, gfpcrypt.cpp:146-320) with `ExponentiateBase`, `SimultaneousExponentiate` and `CascadeExponentiate` replaced by what they compute (Verif.Algebra). The Jacobi symbol
in `ValidateElement` is given by Euler's criterion; `FastSubgroupCheckAvailable` is `GetCofactor() == 2` (gfpcrypt.h:105). -/
def gfp (p q g : Int) : Params Int where
  g := g
  order := q
  cofactor := (p - 1) / q
  expBase n := g ^ n.toNat % p
  exp a n := a ^ n.toNat % p
  mul a b := a * b % p
  cascade a m b n := a ^ m.toNat * b ^ n.toNat % p
  isIdentity a := a == 1
  toInt a := a
  encSize _ := byteCount p
  encode _ a := encodeInt a (byteCount p)
  decode b _ := if gfpValid p (decodeInt (b.take (byteCount p))) then some (decodeInt (b.take (byteCount p))) else none
  fastCheck := (p - 1) / q == 2
  validate2 a := gfpValid p a && (if (p - 1) / q = 2 then a ^ ((p - 1) / 2).toNat % p == 1 else a ^ q.toNat % p == 1)

end Verif.Dl
