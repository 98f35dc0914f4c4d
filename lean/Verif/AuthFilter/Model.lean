import Verif.BufFilter.Model
import Verif.Auth.Model

/-!
# `AuthenticatedEncryptionFilter` and `AuthenticatedDecryptionFilter` (filters.h:682-790, filters.cpp:950-1059)

Over the model of `FilterWithBufferedInput` (C10) and any authenticated cipher with a mandatory block size of 1, as GCM, CCM, EAX and ChaCha20Poly1305 have; padding is then `NO_PADDING`. Calls are blocking, and the
attached transformation takes everything it is given. An exception other than `HashVerificationFailed` ends the run. Of the flags of the decryption filter `MAC_AT_BEGIN` and `THROW_EXCEPTION` are modelled, which are
all that it documents.
-/
namespace Verif.AuthFilter

open Verif.BufFilter

/-- What the filters call on an `AuthenticatedSymmetricCipher`: `DigestSize`, `Update`, `ProcessString`, `TruncatedFinal`. -/
structure Aead (σ : Type) where
  digestSize : Nat
  update : σ → List Byte → Except Err σ
  process : σ → List Byte → Except Err (σ × List Byte)
  final : σ → Nat → Except Err (σ × List Byte)

/-- The result of a call, without the object an exception leaves. -/
def settle {σ α : Type} : σ × Except Err α → Except Err (σ × α)
  | (_, .error e) => .error e
  | (s, .ok a) => .ok (s, a)

/-- A mode of `AuthenticatedSymmetricCipherBase`. -/
def ofAuth {σ κ : Type} (H : Auth.Hooks σ κ) : Aead (Auth.State σ) where
  digestSize := H.digestSize
  update := fun s x => (settle (Auth.update H s x)).map (·.1)
  process := fun s x => settle (Auth.processData H s x)
  final := fun s n => settle (Auth.truncatedFinal H s n)

/-- What reaches the attached transformation: bytes on the channel `AAD`, bytes of text and of the authentication code, and the message end. The last three come on the default channel, unless another one is given
to the encryption filter for the code. -/
inductive Item where
  | aad (b : Byte)
  | text (b : Byte)
  | mac (b : Byte)
  | messageEnd
deriving DecidableEq, Repr

section
variable {σ : Type} (O : Aead σ)

/-! ## The part of `StreamTransformationFilter` that is used -/

/-- `NextPutMultiple` (filters.cpp:659-684). Of `r` bytes left, `cut r` are processed at once: that depends on the put space of the attached transformation and on the cipher's optimal block size. Running out of `fuel`
is non-termination. -/
def processAll (cut : Nat → Nat) : Nat → σ → List Byte → Except Err (σ × List Byte)
  | 0, _, _ => .error .diverges
  | fuel + 1, s, x => do
    let (s, o) ← O.process s (x.take (cut x.length))
    if x.length - cut x.length > 0 then
      let (s, o') ← processAll cut fuel s (x.drop (cut x.length))
      return (s, o ++ o')
    else return (s, o)

/-- The calls of the base class: `FirstPut` (filters.cpp:653-657) changes nothing that can be observed; `LastPut` (filters.cpp:692-860) with `NO_PADDING`. `forward` is `IsForwardTransformation`. -/
def streamEvents (forward : Bool) (cut : Nat → Nat) (s : σ) : List Ev → Except Err (σ × List Byte)
  | [] => .ok (s, [])
  | .next x :: evs => do
    let (s, o) ← processAll O cut (x.length + 1) s x
    let (s, o') ← streamEvents forward cut s evs
    return (s, o ++ o')
  | .last x :: evs => if x.length > 0 then .error (if forward then .invalidDataFormat else .invalidCiphertext) else streamEvents forward cut s evs
  | _ :: evs => streamEvents forward cut s evs

/-! ## `AuthenticatedEncryptionFilter` -/

/-- The filter, and the cipher it refers to. -/
structure Enc (σ : Type) where
  base : Filt
  c : σ

/-- The constructor (filters.cpp:950-956, 599-625, 638-651). -/
def Enc.init (junk : Nat → Byte) (c : σ) : Except Err (Enc σ) := do
  let base ← Filt.init junk 0 1 0
  return ⟨base, c⟩

/-- `ChannelPut(AAD_CHANNEL, x)` (filters.cpp:980-981): `HashFilter::Put2` (filters.cpp:867-884). -/
def Enc.aad (putAAD : Bool) (s : Enc σ) (x : List Byte) : Except Err (Enc σ × List Item) := do
  let c ← (if x.length ≠ 0 then O.update s.c x else .ok s.c : Except Err σ)
  return ({ s with c := c }, if putAAD then x.map .aad else [])

/-- `Put(x)` or `ChannelPut(DEFAULT_CHANNEL, x)`, with or without the message end (filters.cpp:977-978). At the message end `LastPut` (filters.cpp:986-990): the base class's, and `m_hf.MessageEnd()`. -/
def Enc.put (cut : Nat → Nat) (n : Nat) (s : Enc σ) (x : List Byte) (messageEnd : Bool) : Except Err (Enc σ × List Item) := do
  let (base, evs) ← s.base.put x messageEnd
  let (c, o) ← streamEvents O true cut s.c evs
  if messageEnd then
    let (c, mac) ← O.final c n
    return (⟨base, c⟩, o.map .text ++ mac.map .mac ++ [.messageEnd])
  else return (⟨base, c⟩, o.map .text)

/-! ## `AuthenticatedDecryptionFilter` -/

/-- `MAC_AT_BEGIN`, `THROW_EXCEPTION`. -/
structure Flags where
  macAtBegin : Bool
  throwException : Bool

/-- The filter: its own buffer, that of `m_hashVerifier`, that of `m_streamFilter`, `m_hashVerifier.m_expectedHash`, `m_hashVerifier.m_verified`, and the cipher. -/
structure Dec (σ : Type) where
  base : Filt
  hv : Filt
  sf : Filt
  expected : List Byte
  verified : Bool
  c : σ

/-- The constructor (filters.cpp:994-1017) for codes of `n` bytes. -/
def Dec.init (junk : Nat → Byte) (fl : Flags) (n : Nat) (c : σ) : Except Err (Dec σ) := do
  let hv ← Filt.init junk (if fl.macAtBegin then n else 0) 1 (if fl.macAtBegin then 0 else n)
  let sf ← Filt.init junk 0 1 0
  let base ← Filt.init junk hv.firstSize 1 hv.lastSize
  return ⟨base, hv, sf, [], false, c⟩

/-- Calls of its base class on `m_hashVerifier`: `FirstPut` (filters.cpp:909-918), `NextPutMultiple` (filters.cpp:920-925). -/
def Dec.hvEvents (fl : Flags) (s : Dec σ) : List Ev → Except Err (Dec σ)
  | [] => .ok s
  | .first x :: evs => Dec.hvEvents fl (if fl.macAtBegin then { s with expected := x } else s) evs
  | .next x :: evs => do
    let c ← O.update s.c x
    Dec.hvEvents fl { s with c := c } evs
  | _ :: evs => Dec.hvEvents fl s evs

/-- `m_hashVerifier.Put(x)` -/
def Dec.hvPut (fl : Flags) (s : Dec σ) (x : List Byte) : Except Err (Dec σ) := do
  let (hv, evs) ← s.hv.put x false
  Dec.hvEvents O fl { s with hv := hv } evs

/-- `m_hashVerifier.ForceNextPut()` (filters.cpp:438-454) -/
def Dec.hvForce (order : Filt.ArgOrder) (fl : Flags) (s : Dec σ) : Except Err (Dec σ) := do
  let (hv, evs) ← s.hv.forceNextPut order
  Dec.hvEvents O fl { s with hv := hv } evs

/-- `TruncatedVerify(digest, n)` (cryptlib.cpp:406-413). -/
def Dec.verify (s : Dec σ) (digest : List Byte) (n : Nat) : Except Err (Dec σ) := do
  let (c, d) ← O.final s.c n
  let e ← slice digest 0 n
  return { s with c := c, verified := decide (d = e) }

/-- `m_hashVerifier.PutMessageEnd(x)` (filters.cpp:347-436) with its `LastPut` (filters.cpp:927-946): and whether `HashVerificationFailed` is thrown, which leaves the rest undone. -/
def Dec.hvEnd (fl : Flags) (n : Nat) (s : Dec σ) (x : List Byte) : Except Err (Dec σ × Bool) := do
  let s ← Dec.hvPut O fl s x
  let s := if !s.hv.firstDone ∧ s.hv.firstSize = 0 ∧ fl.macAtBegin then { s with expected := [] } else s
  let (y, q) ← s.hv.q.getAll
  let s := { s with hv := { s.hv with q := q } }
  let s ← (if fl.macAtBegin then Dec.verify O s s.expected n
    else if y.length = n then Dec.verify O s y n
    else .ok { s with verified := false })
  if fl.throwException && !s.verified then return (s, true)
  else return ({ s with hv := { s.hv with firstDone := false, q := Ring.reset s.hv.junk 1 s.hv.firstSize } }, false)

/-- `m_streamFilter.Put(x)`, `m_streamFilter.MessageEnd()` -/
def Dec.sfPut (cut : Nat → Nat) (s : Dec σ) (x : List Byte) (messageEnd : Bool) : Except Err (Dec σ × List Byte) := do
  let (sf, evs) ← s.sf.put x messageEnd
  let (c, o) ← streamEvents O false cut s.c evs
  return ({ s with sf := sf, c := c }, o)

/-- Calls of the base class: `FirstPut` (filters.cpp:1045-1048), `NextPutMultiple` (filters.cpp:1050-1053). -/
def Dec.events (cut : Nat → Nat) (fl : Flags) (s : Dec σ) : List Ev → Except Err (Dec σ × List Byte)
  | [] => .ok (s, [])
  | .first x :: evs => do
    let s ← Dec.hvPut O fl s x
    Dec.events cut fl s evs
  | .next x :: evs => do
    let (s, o) ← Dec.sfPut O cut s x false
    let (s, o') ← Dec.events cut fl s evs
    return (s, o ++ o')
  | _ :: evs => Dec.events cut fl s evs

/-- The message end (filters.cpp:420-434) with `LastPut` (filters.cpp:1055-1059). -/
def Dec.finish (cut : Nat → Nat) (fl : Flags) (n : Nat) (s : Dec σ) : Except Err (Dec σ × List Item × Bool) := do
  let s ← (if !s.base.firstDone ∧ s.base.firstSize = 0 then Dec.hvPut O fl s [] else .ok s : Except Err (Dec σ))
  let (x, q) ← s.base.q.getAll
  let s := { s with base := { s.base with q := q } }
  let (s, o) ← Dec.sfPut O cut s [] true
  let (s, thrown) ← Dec.hvEnd O fl n s x
  if thrown then return (s, o.map .text, true)
  else return ({ s with base := { s.base with firstDone := false, q := Ring.reset s.base.junk 1 s.base.firstSize } }, o.map .text ++ [.messageEnd], false)

/-- `ChannelPut(AAD_CHANNEL, x)` (filters.cpp:1039-1040) -/
def Dec.aad (fl : Flags) (s : Dec σ) (x : List Byte) : Except Err (Dec σ) := Dec.hvPut O fl s x

/-- `Put(x)`, with or without the message end: the inherited `FilterWithBufferedInput::Put2`. -/
def Dec.put (cut : Nat → Nat) (fl : Flags) (n : Nat) (s : Dec σ) (x : List Byte) (messageEnd : Bool) : Except Err (Dec σ × List Item × Bool) := do
  let (s, o) ← (if x.length ≠ 0 then do
      let (base, evs) ← s.base.putData x
      Dec.events O cut fl { s with base := base } evs
    else .ok (s, []) : Except Err (Dec σ × List Byte))
  if messageEnd then do
    let (s, o', thrown) ← Dec.finish O cut fl n s
    return (s, o.map .text ++ o', thrown)
  else return (s, o.map .text, false)

/-- `ChannelPut(DEFAULT_CHANNEL, x)`, with or without the message end (filters.cpp:1032-1037). -/
def Dec.channelPut (order : Filt.ArgOrder) (cut : Nat → Nat) (fl : Flags) (n : Nat) (s : Dec σ) (x : List Byte) (messageEnd : Bool) : Except Err (Dec σ × List Item × Bool) := do
  let s ← (if s.base.lastSize > 0 then Dec.hvForce O order fl s else .ok s : Except Err (Dec σ))
  Dec.put O cut fl n s x messageEnd

end

end Verif.AuthFilter
