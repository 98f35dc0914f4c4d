import Verif.BufFilter.Model
import Verif.Hash.Obj
import Verif.HashFilter.Model
import Verif.Dl.Model

/-!
# `SignerFilter` and `SignatureVerificationFilter` (filters.h:793-881, filters.cpp:1063-1157)

On top of the model of `FilterWithBufferedInput`.  Blocking calls only; the attached transformation takes everything it is given.  What reaches
it is a stream of bytes and message-end signals: `some b` and `none`.
-/
namespace Verif.SigFilter
open Verif.BufFilter
open Verif.HashFilter (out)

variable {σ ρ : Type}

/-- A `PK_Verifier` (cryptlib.h:2820-2895) with its `PK_MessageAccumulator`s, of states `σ`. -/
structure Ver (σ : Type) where
  /-- `SignatureLength()` -/
  sigLen : Nat
  /-- `SignatureUpfront()` -/
  upfront : Bool
  /-- `PK_MessageAccumulator::Update` -/
  update : σ → List Byte → Except Err σ
  /-- `InputSignature` -/
  input : σ → List Byte → Except Err σ
  /-- `VerifyAndRestart` -/
  verify : σ → Except Err (σ × Bool)

/-- A `PK_Signer` (cryptlib.h:2730-2815) with a generator of states `ρ`. -/
structure Sgn (σ ρ : Type) where
  /-- `NewSignatureAccumulator(rng)` -/
  fresh : ρ → Except Err (σ × ρ)
  update : σ → List Byte → Except Err σ
  /-- `Sign(rng, accumulator, signature)`, of `SignatureLength()` bytes -/
  sign : ρ → σ → Except Err (List Byte × ρ)

/-! ## `SignerFilter` -/

/-- The fields (filters.h:811-816), and the generator. -/
structure SF (σ ρ : Type) where
  rng : ρ
  acc : σ

/-- The constructor (filters.h:803-804). -/
def signInit (S : Sgn σ ρ) (rng : ρ) : Except Err (SF σ ρ) := do
  let (a, rng) ← S.fresh rng
  return ⟨rng, a⟩

/-- `SignerFilter::Put2` (filters.cpp:1069-1083). -/
def signPut (S : Sgn σ ρ) (putMessage : Bool) (s : SF σ ρ) (inString : List Byte) (messageEnd : Bool) : Except Err (SF σ ρ × List (Option Byte)) := do
  let acc ← S.update s.acc inString
  let o1 := if putMessage then out inString else []
  if messageEnd then
    let (buf, rng) ← S.sign s.rng acc
    let (acc, rng) ← S.fresh rng
    return (⟨rng, acc⟩, o1 ++ out buf ++ [none])
  else return (⟨s.rng, acc⟩, o1)

/-! ## `SignatureVerificationFilter` -/

/-- `enum Flags` (filters.h:836-851). -/
structure Flags where
  signatureAtBegin : Bool
  putMessage : Bool
  putSignature : Bool
  putResult : Bool
  throwException : Bool

/-- The fields (filters.h:873-878); `signature` is `m_signature`, empty at first. -/
structure SV (σ : Type) where
  base : Filt
  acc : σ
  verified : Bool
  signature : List Byte

/-- The constructor and `InitializeDerivedAndReturnNewSizes` (filters.cpp:1085-1104) with a new accumulator. -/
def init (V : Ver σ) (junk : Nat → Byte) (fl : Flags) (acc : σ) : Except Err (SV σ) := do
  let base ← Filt.init junk (if fl.signatureAtBegin then V.sigLen else 0) 1 (if fl.signatureAtBegin then 0 else V.sigLen)
  return ⟨base, acc, false, []⟩

/-- `FirstPut` (filters.cpp:1106-1125). `inString` has `SignatureLength()` bytes with `SIGNATURE_AT_BEGIN`; what is put is `m_signature.size()` bytes of it. -/
def firstPut (V : Ver σ) (fl : Flags) (s : SV σ) (inString : List Byte) : Except Err (SV σ × List (Option Byte)) := do
  if fl.signatureAtBegin then do
    let s ← (if V.upfront then do
        let a ← V.input s.acc inString
        return { s with acc := a }
      else return { s with signature := inString } : Except Err (SV σ))
    return (s, if fl.putSignature then out (inString.take s.signature.length) else [])
  else return (s, [])

/-- `NextPutMultiple` (filters.cpp:1127-1132). -/
def nextPut (V : Ver σ) (fl : Flags) (s : SV σ) (inString : List Byte) : Except Err (SV σ × List (Option Byte)) := do
  let a ← V.update s.acc inString
  return ({ s with acc := a }, if fl.putMessage then out inString else [])

/-- `InputSignature` and `VerifyAndRestart`. -/
def check (V : Ver σ) (a : σ) (signature : List Byte) : Except Err (σ × Bool) := do
  let a ← V.input a signature
  V.verify a

/-- `LastPut` (filters.cpp:1134-1155): the new state, the output, and whether `SignatureVerificationFailed` is thrown at the end. -/
def lastPut (V : Ver σ) (fl : Flags) (s : SV σ) (inString : List Byte) : Except Err (SV σ × List (Option Byte) × Bool) := do
  let (s, o1) ← (
    if fl.signatureAtBegin then do
      let (a, v) ← check V s.acc s.signature
      return ({ s with acc := a, verified := v }, [])
    else do
      let (a, v) ← check V s.acc inString
      return ({ s with acc := a, verified := v }, if fl.putSignature then out inString else []) : Except Err (SV σ × List (Option Byte)))
  let o2 := if fl.putResult then out [if s.verified then 1 else 0] else []
  return (s, o1 ++ o2, fl.throwException && !s.verified)

/-- The calls of the base class on the derived class, in order. -/
def handle (V : Ver σ) (fl : Flags) (s : SV σ) : List Ev → Except Err (SV σ × List (Option Byte))
  | [] => .ok (s, [])
  | .first bs :: evs => do
    let (s, o1) ← firstPut V fl s bs
    let (s, o2) ← handle V fl s evs
    return (s, o1 ++ o2)
  | .next bs :: evs => do
    let (s, o1) ← nextPut V fl s bs
    let (s, o2) ← handle V fl s evs
    return (s, o1 ++ o2)
  | _ :: evs => handle V fl s evs

/-- The `if (messageEnd)` part of `PutMaybeModifiable` (filters.cpp:420-434).  When `LastPut` throws, lines 429-433 are not reached. -/
def finish (V : Ver σ) (fl : Flags) (s : SV σ) : Except Err (SV σ × List (Option Byte) × Bool) := do
  let (s, o1) ← (if !s.base.firstDone ∧ s.base.firstSize = 0 then firstPut V fl s [] else .ok (s, []) : Except Err (SV σ × List (Option Byte)))
  let (x, q) ← s.base.q.getAll
  let s := { s with base := { s.base with q := q } }
  let (s, o2, thrown) ← lastPut V fl s x
  if thrown then return (s, o1 ++ o2, true)
  else return ({ s with base := { s.base with firstDone := false, q := Ring.reset s.base.junk 1 s.base.firstSize } }, o1 ++ o2 ++ [none], false)

/-- `PutMaybeModifiable` (filters.cpp:347-436). -/
def put (V : Ver σ) (fl : Flags) (s : SV σ) (inp : List Byte) (messageEnd : Bool) : Except Err (SV σ × List (Option Byte) × Bool) := do
  let (s, o1) ← (if inp.length ≠ 0 then do
      let (base, evs) ← s.base.putData inp
      handle V fl { s with base := base } evs
    else .ok (s, []) : Except Err (SV σ × List (Option Byte)))
  if messageEnd then do
    let (s, o2, thrown) ← finish V fl s
    return (s, o1 ++ o2, thrown)
  else return (s, o1, false)

/-! ## Accumulators -/

/-- `ed25519Verifier` with `ed25519_MessageAccumulator` (xed25519.h:278-336, 782-790, xed25519.cpp:879-887): the state is `m_msg`, whose first 64 bytes are the
signature; `opens` is `Donna::ed25519_sign_open` under the key, on message and signature. `m_msg.resize(64)` leaves those 64 bytes as they are. -/
def ed25519 (opens : List Byte → List Byte → Bool) : Ver (List Byte) where
  sigLen := 64
  upfront := false
  update := fun a x => .ok (a ++ x)
  input := fun a sig => .ok (if sig.length ≠ 0 then sig.take 64 ++ a.drop (min 64 sig.length) else a)
  verify := fun a => .ok (a.take 64, opens (a.drop 64) (a.take 64))

/-- `ed25519_MessageAccumulator()`: `resize` fills with zeros. -/
def ed25519Fresh : List Byte := List.replicate 64 0

/-- `DL_VerifierBase` with `PK_MessageAccumulatorImpl<H>` (pubkey.h:1723-1762), for a hash object and the schemes of `Verif.Dl`, which ignore the semisignature
while hashing. The state is the hash and `m_semisignature` with `m_s`. -/
def dl {E : Type} (O : Hash.Obj σ) (P : Dl.Params E) (alg : Dl.Alg) (y : E) : Ver (σ × List Byte) where
  sigLen := Dl.byteCount P.order + Dl.byteCount P.order
  upfront := false
  update := fun a x => do
    let h ← O.update a.1 x
    return (h, a.2)
  input := fun a sig =>
    if sig.length < Dl.byteCount P.order + Dl.byteCount P.order then .error .invalidDataFormat
    else .ok (a.1, sig.take (Dl.byteCount P.order + Dl.byteCount P.order))
  verify := fun a => do
    let (h, d) ← O.final a.1 O.digestSize
    let v ← Dl.verifyDigest P alg y d a.2
    return ((h, a.2), v)

/-- `DL_SignerBase` with `PK_MessageAccumulatorImpl<H>` (pubkey.h:1640-1697) and the generator: `start` is a new hash, `nonce` draws the nonce. -/
def dlSigner {E : Type} (O : Hash.Obj σ) (P : Dl.Params E) (alg : Dl.Alg) (x : Int) (start : σ) (nonce : ρ → Int × ρ) : Sgn σ ρ where
  fresh := fun r => .ok (start, r)
  update := O.update
  sign := fun r a => do
    let (_, d) ← O.final a O.digestSize
    return (Dl.signDigest P alg x (nonce r).1 d, (nonce r).2)

end Verif.SigFilter
