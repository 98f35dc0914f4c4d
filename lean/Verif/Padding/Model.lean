import Verif.BufFilter.Spec

/-!
# `StreamTransformationFilter` (filters.cpp:575-860)

The cipher is a parameter: a state machine with the virtual functions of `StreamTransformation`. The buffering is the
model of `FilterWithBufferedInput`; what this file adds is what happens to the `FirstPut`/`NextPut`/`LastPut` calls.
Left out: `m_isSpecial` (no class of the library overrides `IsLastBlockSpecial`), the constructor's authenticated-mode test.
-/
namespace Verif.Padding
open Verif.BufFilter

/-- The part of `StreamTransformation`'s interface the filter uses (cryptlib.h:945-1110). -/
structure Cipher (σ : Type) where
  /-- `MandatoryBlockSize()` -/
  mandatory : Nat
  /-- `MinLastBlockSize()` -/
  minLast : Nat
  /-- `IsForwardTransformation()` -/
  forward : Bool
  /-- `OptimalBlockSize()` -/
  optimalBlock : Nat
  /-- `GetOptimalBlockSizeUsed()` -/
  optimalUsed : σ → Nat
  /-- `ProcessData` and `ProcessString` -/
  process : σ → List Byte → σ × List Byte
  /-- `ProcessLastBlock` -/
  processLast : σ → List Byte → Except Err (σ × List Byte)

/-- `StreamTransformation::ProcessLastBlock` (cryptlib.cpp:217-234), for classes that do not override it. -/
def defaultLast (mandatory : Nat) (process : σ → List Byte → σ × List Byte) (st : σ) (inp : List Byte) :
    Except Err (σ × List Byte) :=
  if inp.length = mandatory then .ok (process st inp)
  else if inp.length ≠ 0 then .error .other
  else .ok (st, [])

/-- `BlockPaddingScheme` without `DEFAULT_PADDING` (filters.h:503-524). -/
inductive Scheme | none | zeros | pkcs | oneAndZeros | w3c
deriving DecidableEq

/-- `LastBlockSize` (filters.cpp:617-625). -/
def lastBlockSize (c : Cipher σ) (padding : Scheme) : Nat :=
  if c.minLast > 0 then c.minLast
  else if c.mandatory > 1 ∧ !c.forward ∧ padding ≠ .none ∧ padding ≠ .zeros then c.mandatory
  else 0

/-- `InitializeDerivedAndReturnNewSizes` (filters.cpp:627-651): the padding in force and `lastSize`; `firstSize` is 0 and
`blockSize` the mandatory block size. The argument `none` is `DEFAULT_PADDING`. -/
def initSizes (c : Cipher σ) (padding : Option Scheme) : Except Err (Scheme × Nat) :=
  let isBlockCipher : Bool := c.mandatory > 1 ∧ c.minLast = 0
  let p := match padding with
    | .none => if isBlockCipher then Scheme.pkcs else .none
    | some p => p
  if !isBlockCipher ∧ (p = .pkcs ∨ p = .w3c ∨ p = .oneAndZeros) then .error .invalidArgument
  else .ok (p, lastBlockSize c p)

/-- `FirstPut` (filters.cpp:653-657): the new `m_optimalBufferSize`. -/
def firstPut (optimalBufferSize : Nat) : Nat :=
  max optimalBufferSize (4096 - 4096 % optimalBufferSize)

/-- `NextPutMultiple` (filters.cpp:659-684). `space remaining` is the size `HelpCreatePutSpace` returns when `remaining`
bytes are left. Running out of `fuel` is non-termination. -/
def nextPutMultiple (c : Cipher σ) (opt : Nat) (space : Nat → Nat) : Nat → σ → List Byte → Except Err (σ × List Byte)
  | 0, _, _ => .error .diverges
  | fuel + 1, st, inp =>
    let len0 := space inp.length
    let len :=
      if len0 < inp.length then
        let l := if len0 = opt then len0 - c.optimalUsed st else len0
        l - l % c.mandatory
      else inp.length
    let (st, o) := c.process st (inp.take len)
    if inp.length - len > 0 then do
      let (st, o2) ← nextPutMultiple c opt space fuel st (inp.drop len)
      .ok (st, o ++ o2)
    else .ok (st, o)

/-- `NextPutModifiable` (filters.cpp:686-690). -/
def nextPutModifiable (c : Cipher σ) (st : σ) (inp : List Byte) : σ × List Byte := c.process st inp

/-- The plaintext block built for the last `inp` when encrypting with PKCS, W3C or one-and-zeros padding
(filters.cpp:785-803). `static_cast<byte>` is a reduction modulo 256. -/
def padBlock (p : Scheme) (s : Nat) (inp : List Byte) : List Byte :=
  match p with
  | .pkcs => inp ++ List.replicate (s - inp.length) (BitVec.ofNat 8 (s - inp.length))
  | .w3c => inp ++ List.replicate (s - inp.length - 1) 0 ++ [BitVec.ofNat 8 (s - inp.length)]
  | _ => inp ++ 0x80 :: List.replicate (s - inp.length - 1) 0

/-- `while (length > 1 && space[length-1] == 0) --length;` (filters.cpp:832-833). -/
def stripZeros (space : List Byte) : Nat → Nat
  | 0 => 0
  | n + 1 => if n + 1 > 1 ∧ space[n]? = some 0 then stripZeros space n else n + 1

/-- What of the decrypted block `space` of `s` bytes is passed on (filters.cpp:812-837). `FindIfNot` looks for a byte of
`space[s-pad, s)` that differs from `pad`. -/
def unpadBlock (p : Scheme) (s : Nat) (space : List Byte) : Except Err (List Byte) :=
  match p with
  | .pkcs =>
    match space[s - 1]? with
    | .none => .error .undefinedBehaviour
    | some pad =>
      if pad.toNat < 1 ∨ pad.toNat > s ∨ ((space.drop (s - pad.toNat)).take pad.toNat).any (· != pad) then .error .invalidCiphertext
      else .ok (space.take (s - pad.toNat))
  | .w3c =>
    match space[s - 1]? with
    | .none => .error .undefinedBehaviour
    | some pad =>
      if pad.toNat < 1 ∨ pad.toNat > s then .error .invalidCiphertext
      else .ok (space.take (s - pad.toNat))
  | _ =>
    let length := stripZeros space s
    match space[length - 1]? with
    | .none => .error .undefinedBehaviour
    | some x => if x ≠ 0x80 then .error .invalidCiphertext else .ok (space.take (length - 1))

/-- `LastPut` (filters.cpp:692-860) after the `m_isSpecial` part. -/
def lastPut (c : Cipher σ) (p : Scheme) (st : σ) (inp : List Byte) : Except Err (σ × List Byte) :=
  match p with
  | .none | .zeros =>
    if inp.length > 0 then
      if c.forward ∧ p = .zeros ∧ (c.minLast = 0 ∨ inp.length < c.minLast) then
        let blockSize := max c.minLast c.mandatory
        c.processLast st (inp ++ List.replicate (blockSize - inp.length) 0)
      else if c.minLast = 0 then
        if c.forward then .error .invalidDataFormat else .error .invalidCiphertext
      else c.processLast st inp
    else .ok (st, [])
  | p =>
    let s := c.mandatory
    if c.forward then .ok (c.process st (padBlock p s inp))
    else if inp.length ≠ s then .error .invalidCiphertext
    else do
      let (st, space) := c.process st inp
      let o ← unpadBlock p s space
      .ok (st, o)

/-- How the environment behaves: for the `i`-th call of the message, the sizes of the put space, and whether
`FilterWithBufferedInput` calls `NextPutModifiable` or `NextPutMultiple`. -/
structure Env where
  space : Nat → Nat → Nat
  modifiable : Nat → Bool

/-- The bytes passed to the attached transformation for the calls `evs` of one message. -/
def dispatch (c : Cipher σ) (p : Scheme) (env : Env) : Nat → Nat → σ → List Ev → Except Err (σ × List Byte)
  | _, _, st, [] => .ok (st, [])
  | i, opt, st, .first _ :: evs => dispatch c p env (i + 1) (firstPut opt) st evs
  | i, opt, st, .next x :: evs => do
    let (st, o) ← (if env.modifiable i then .ok (nextPutModifiable c st x)
      else nextPutMultiple c opt (env.space i) (x.length + 1) st x)
    let (st, o2) ← dispatch c p env (i + 1) opt st evs
    .ok (st, o ++ o2)
  | i, opt, st, .last x :: evs => do
    let (st, o) ← lastPut c p st x
    let (st, o2) ← dispatch c p env (i + 1) opt st evs
    .ok (st, o ++ o2)
  | i, opt, st, .messageEnd :: evs => dispatch c p env (i + 1) opt st evs

/-- One message through a `StreamTransformationFilter` in state `f`, fed in pieces: the new buffering state, the new
cipher state and the output. The buffering does not depend on the cipher, so it is run first. -/
def filterMessage (c : Cipher σ) (p : Scheme) (env : Env) (f : Filt) (st : σ) (pieces : List (List Byte)) :
    Except Err (Filt × σ × List Byte) := do
  let (f, evs) ← f.feed pieces
  let (st, o) ← dispatch c p env 0 c.optimalBlock st evs
  .ok (f, st, o)

/-- The constructor (filters.cpp:577-597) followed by one message. -/
def runFilter (junk : Nat → Byte) (c : Cipher σ) (padding : Option Scheme) (env : Env) (st : σ) (pieces : List (List Byte)) :
    Except Err (σ × List Byte) := do
  let (p, lastSize) ← initSizes c padding
  let f ← Filt.init junk 0 c.mandatory lastSize
  let (_, st, o) ← filterMessage c p env f st pieces
  .ok (st, o)

end Verif.Padding
