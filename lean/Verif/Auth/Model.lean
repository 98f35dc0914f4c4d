import Verif.Common

/-!
# `AuthenticatedSymmetricCipherBase` (authenc.h, authenc.cpp)

Over any implementation of its virtual functions. `m_buffer` is represented by its first `m_bufferedDataLength` bytes. The totals are `lword`s and wrap at 2^64. Every call returns the object it leaves, also
when it throws. Input is never null unless its length is 0. Output is returned as a value: with `ProcessData` in place, the code authenticates the input before it is overwritten, or the output after it is written.
-/
namespace Verif.Auth

/-- `AuthenticatedSymmetricCipherBase::State` (authenc.h:77) -/
inductive Phase where
  | start | keySet | ivSet | untransformed | transformed | footer
  deriving DecidableEq

/-- The virtual functions (authenc.h:64-73, cryptlib.h:1340-1350): `σ` is the rest of the object, `κ` a key. What they read of the base class is an argument: the buffered bytes, and the totals. -/
structure Hooks (σ κ : Type) where
  /-- `AuthenticationBlockSize` -/
  blockSize : Nat
  /-- `AuthenticationIsOnPlaintext` -/
  onPlaintext : Bool
  /-- `IsForwardTransformation` -/
  forward : Bool
  maxHeader : Nat
  maxMessage : Nat
  maxFooter : Nat
  digestSize : Nat
  /-- `ThrowIfInvalidIVLength` does not throw -/
  ivOk : Nat → Bool
  /-- `SetKeyWithoutResync` -/
  setKey : σ → κ → σ
  /-- `Resync` -/
  resync : σ → List Byte → Except Err σ
  /-- `AuthenticateBlocks`: and how many bytes it left -/
  authBlocks : σ → List Byte → Except Err (σ × Nat)
  /-- `AuthenticateLastHeaderBlock` -/
  lastHeader : σ → List Byte → Nat → Except Err σ
  /-- `AuthenticateLastConfidentialBlock` -/
  lastConfidential : σ → List Byte → Nat → Nat → Except Err σ
  /-- `AuthenticateLastFooterBlock` -/
  lastFooter : σ → List Byte → Nat → Except Err (σ × List Byte)
  /-- `AccessSymmetricCipher().ProcessData` -/
  process : σ → List Byte → Except Err (σ × List Byte)

/-- `m_state`, `m_buffer`, `m_totalHeaderLength`, `m_totalMessageLength`, `m_totalFooterLength` and the rest of the object. -/
structure State (σ : Type) where
  phase : Phase
  pending : List Byte
  hdr : Nat
  msg : Nat
  ftr : Nat
  o : σ

variable {σ κ : Type} (H : Hooks σ κ)

/-- The constructor (authenc.h:42-43). -/
def fresh (o : σ) : State σ := ⟨.start, [], 0, 0, 0, o⟩

/-- `AuthenticateData` from authenc.cpp:40 on. -/
def authRest (s : State σ) (input : List Byte) : Except Err (State σ) :=
  if input.length ≥ H.blockSize then
    match H.authBlocks s.o input with
    | .error e => .error e
    | .ok (o, leftOver) => .ok { s with o := o, pending := input.drop (input.length - leftOver) }
  else .ok { s with pending := input }

/-- `AuthenticateData` (authenc.cpp:11-51). -/
def authData (s : State σ) (input : List Byte) : Except Err (State σ) :=
  if input.length = 0 then .ok s
  else
    let num := s.pending.length
    if num ≠ 0 then
      if num + input.length ≥ H.blockSize then
        match H.authBlocks s.o (s.pending ++ input.take (H.blockSize - num)) with
        | .error e => .error e
        | .ok (o, _) => authRest H { s with o := o, pending := [] } (input.drop (H.blockSize - num))
      else .ok { s with pending := s.pending ++ input }
    else authRest H s input

/-- `Resynchronize` (authenc.cpp:67-78) with a length; `-1`, which stands for the default length, is not modelled. -/
def resynchronize (s : State σ) (iv : List Byte) : State σ × Except Err Unit :=
  if s.phase = .start then (s, .error .badState)
  else
    let s := { s with pending := [], hdr := 0, msg := 0, ftr := 0, phase := .keySet }
    if H.ivOk iv.length then
      match H.resync s.o iv with
      | .error e => (s, .error e)
      | .ok o => ({ s with o := o, phase := .ivSet }, .ok ())
    else (s, .error .invalidArgument)

/-- `SetKey` (authenc.cpp:53-65) with a key the cipher accepts; the initialisation vector is optional. An invalid one throws in `GetIVAndThrowIfInvalid` (cryptlib.cpp:107-134). -/
def setKey (s : State σ) (k : κ) (iv : Option (List Byte)) : State σ × Except Err Unit :=
  let s := { s with pending := [], phase := .keySet, o := H.setKey s.o k }
  match iv with
  | none => (s, .ok ())
  | some iv => if H.ivOk iv.length then resynchronize H s iv else (s, .error .invalidArgument)

/-- `Restart` (authenc.h:50). -/
def restart (s : State σ) : State σ :=
  match s.phase with
  | .start => s
  | .keySet => s
  | _ => { s with phase := .keySet }

/-- `Update` in `State_AuthFooter` (authenc.cpp:100-103). -/
def updateFooter (s : State σ) (x : List Byte) : State σ × Except Err Unit :=
  match authData H s x with
  | .error e => (s, .error e)
  | .ok s => ({ s with ftr := (s.ftr + x.length) % 2 ^ 64 }, .ok ())

/-- `Update` when the message ends (authenc.cpp:95-99). -/
def updateAfter (s : State σ) (x : List Byte) : State σ × Except Err Unit :=
  match H.lastConfidential s.o s.pending s.hdr s.msg with
  | .error e => (s, .error e)
  | .ok o => updateFooter H { s with o := o, pending := [], phase := .footer } x

/-- `Update` (authenc.cpp:80-107). -/
def update (s : State σ) (x : List Byte) : State σ × Except Err Unit :=
  if x.length = 0 then (s, .ok ())
  else
    match s.phase with
    | .start => (s, .error .badState)
    | .keySet => (s, .error .badState)
    | .ivSet =>
      match authData H s x with
      | .error e => (s, .error e)
      | .ok s => ({ s with hdr := (s.hdr + x.length) % 2 ^ 64 }, .ok ())
    | .untransformed => updateAfter H s x
    | .transformed => updateAfter H s x
    | .footer => updateFooter H s x

/-- authenc.cpp:128-131 -/
def processUntransformed (s : State σ) (x : List Byte) : State σ × Except Err (List Byte) :=
  match authData H s x with
  | .error e => (s, .error e)
  | .ok s =>
    match H.process s.o x with
    | .error e => (s, .error e)
    | .ok (o, out) => ({ s with o := o }, .ok out)

/-- authenc.cpp:132-135 -/
def processTransformed (s : State σ) (x : List Byte) : State σ × Except Err (List Byte) :=
  match H.process s.o x with
  | .error e => (s, .error e)
  | .ok (o, out) =>
    match authData H { s with o := o } out with
    | .error e => ({ s with o := o }, .error e)
    | .ok s => (s, .ok out)

/-- `ProcessData` (authenc.cpp:109-139). -/
def processData (s : State σ) (x : List Byte) : State σ × Except Err (List Byte) :=
  if (s.phase ≠ .start ∧ s.phase ≠ .keySet) ∧ x.length > (H.maxMessage + 2 ^ 64 - s.msg) % 2 ^ 64 then (s, .error .invalidArgument)
  else
    let s := { s with msg := (s.msg + x.length) % 2 ^ 64 }
    match s.phase with
    | .start => (s, .error .badState)
    | .keySet => (s, .error .badState)
    | .footer => (s, .error .badState)
    | .ivSet =>
      match H.lastHeader s.o s.pending s.hdr with
      | .error e => (s, .error e)
      | .ok o =>
        if H.onPlaintext = H.forward then processUntransformed H { s with o := o, pending := [], phase := .untransformed } x
        else processTransformed H { s with o := o, pending := [], phase := .transformed } x
    | .untransformed => processUntransformed H s x
    | .transformed => processTransformed H s x

/-- `TruncatedFinal` in `State_AuthFooter` (authenc.cpp:176-179, 185). -/
def finalFooter (s : State σ) (n : Nat) : State σ × Except Err (List Byte) :=
  match H.lastFooter s.o s.pending n with
  | .error e => (s, .error e)
  | .ok (o, mac) => ({ s with o := o, pending := [], phase := .keySet }, .ok mac)

/-- `TruncatedFinal` from the end of the message on (authenc.cpp:170-174). -/
def finalMessage (s : State σ) (n : Nat) : State σ × Except Err (List Byte) :=
  match H.lastConfidential s.o s.pending s.hdr s.msg with
  | .error e => (s, .error e)
  | .ok o => finalFooter H { s with o := o, pending := [] } n

/-- `TruncatedFinal` (authenc.cpp:141-186). -/
def truncatedFinal (s : State σ) (n : Nat) : State σ × Except Err (List Byte) :=
  if n > H.digestSize then (s, .error .invalidArgument)
  else if s.hdr > H.maxHeader then (s, .error .invalidArgument)
  else if s.ftr > H.maxFooter then (s, .error .invalidArgument)
  else
    match s.phase with
    | .start => (s, .error .badState)
    | .keySet => (s, .error .badState)
    | .ivSet =>
      match H.lastHeader s.o s.pending s.hdr with
      | .error e => (s, .error e)
      | .ok o => finalMessage H { s with o := o, pending := [] } n
    | .untransformed => finalMessage H s n
    | .transformed => finalMessage H s n
    | .footer => finalFooter H s n

/-- `TruncatedVerify` (cryptlib.cpp:406-413); `VerifyBufsEqual` compares the buffers. -/
def truncatedVerify (s : State σ) (mac : List Byte) : State σ × Except Err Bool :=
  if mac.length > H.digestSize then (s, .error .invalidArgument)
  else
    match truncatedFinal H s mac.length with
    | (s, .error e) => (s, .error e)
    | (s, .ok calculated) => (s, .ok (calculated == mac))

/-- `SpecifyDataLengths` (cryptlib.cpp:233-245) with no footer, for a mode that does not override `UncheckedSpecifyDataLengths` (cryptlib.h:1428-1429). -/
def specifyDataLengths (header message : Nat) : Except Err Unit :=
  if header > H.maxHeader then .error .invalidArgument
  else if message > H.maxMessage then .error .invalidArgument
  else .ok ()

/-- `EncryptAndAuthenticate` (cryptlib.cpp:247-254). -/
def encryptAndAuthenticate (s : State σ) (iv header message : List Byte) (macSize : Nat) : State σ × Except Err (List Byte × List Byte) :=
  match resynchronize H s iv with
  | (s, .error e) => (s, .error e)
  | (s, .ok _) =>
    match specifyDataLengths H header.length message.length with
    | .error e => (s, .error e)
    | .ok _ =>
      match update H s header with
      | (s, .error e) => (s, .error e)
      | (s, .ok _) =>
        match processData H s message with
        | (s, .error e) => (s, .error e)
        | (s, .ok ciphertext) =>
          match truncatedFinal H s macSize with
          | (s, .error e) => (s, .error e)
          | (s, .ok mac) => (s, .ok (ciphertext, mac))

/-- `DecryptAndVerify` (cryptlib.cpp:256-263): the message, and whether the authentication code is right. -/
def decryptAndVerify (s : State σ) (iv header ciphertext mac : List Byte) : State σ × Except Err (List Byte × Bool) :=
  match resynchronize H s iv with
  | (s, .error e) => (s, .error e)
  | (s, .ok _) =>
    match specifyDataLengths H header.length ciphertext.length with
    | .error e => (s, .error e)
    | .ok _ =>
      match update H s header with
      | (s, .error e) => (s, .error e)
      | (s, .ok _) =>
        match processData H s ciphertext with
        | (s, .error e) => (s, .error e)
        | (s, .ok message) =>
          match truncatedVerify H s mac with
          | (s, .error e) => (s, .error e)
          | (s, .ok good) => (s, .ok (message, good))

/-- The calls a user can make. -/
inductive Op (κ : Type) where
  | setKey (k : κ) (iv : Option (List Byte))
  | resync (iv : List Byte)
  | restart
  | update (x : List Byte)
  | process (x : List Byte)
  | final (n : Nat)
  | verify (mac : List Byte)

/-- What a call returns. -/
inductive Out where
  | nothing
  | bytes (x : List Byte)
  | bool (b : Bool)
  deriving DecidableEq

def step (s : State σ) : Op κ → State σ × Except Err Out
  | .setKey k iv => ((setKey H s k iv).1, (setKey H s k iv).2.map fun _ => .nothing)
  | .resync iv => ((resynchronize H s iv).1, (resynchronize H s iv).2.map fun _ => .nothing)
  | .restart => (restart s, .ok .nothing)
  | .update x => ((update H s x).1, (update H s x).2.map fun _ => .nothing)
  | .process x => ((processData H s x).1, (processData H s x).2.map .bytes)
  | .final n => ((truncatedFinal H s n).1, (truncatedFinal H s n).2.map .bytes)
  | .verify mac => ((truncatedVerify H s mac).1, (truncatedVerify H s mac).2.map .bool)

/-- The results of a history of calls; an exception is a result, and the user goes on with the object it leaves. -/
def run (s : State σ) : List (Op κ) → List (Except Err Out)
  | [] => []
  | op :: ops => (step H s op).2 :: run (step H s op).1 ops

end Verif.Auth
