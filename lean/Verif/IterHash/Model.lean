import Verif.Words

/-!
# `IteratedHashBase` (iterhash.h, iterhash.cpp)

Parameters: the size in bytes `k` of `HashWordType`, the block size, the byte order of the hash, the byte order of the
machine, the digest size, the initial state and the compression function (`Init`, `HashEndianCorrectedBlock`). Words are
natural numbers; memory is bytes, and a word in memory has the machine's byte order. Pointer alignment is a parameter of
every call. Derived classes that override `HashMultipleBlocks` with SIMD code are not modelled.
-/
namespace Verif.IterHash

structure Params where
  /-- `sizeof(HashWordType)` -/
  k : Nat
  /-- `BlockSize()` -/
  B : Nat
  /-- `GetByteOrder()` -/
  order : ByteOrder
  /-- the machine's byte order -/
  native : ByteOrder
  /-- `DigestSize()` -/
  digestSize : Nat
  /-- `Init()` -/
  init : List Nat
  /-- `HashEndianCorrectedBlock` as a function of state and block words -/
  compress : List Nat → List Nat → List Nat

/-- Number of values of a `HashWordType`. -/
def Params.W (P : Params) : Nat := 256 ^ P.k

/-- The object's fields (iterhash.h:113, 171, 209). -/
structure State where
  countLo : Nat
  countHi : Nat
  data : List Byte
  state : List Nat
deriving DecidableEq

/-- `memcpy(data + pos, x, x.length)`; outside the buffer is undefined behaviour. -/
def write (data : List Byte) (pos : Nat) (x : List Byte) : Except Err (List Byte) :=
  if pos + x.length ≤ data.length then .ok (data.take pos ++ x ++ data.drop (pos + x.length)) else .error .undefinedBehaviour

/-- Words read from memory. -/
def loadWords (P : Params) (mem : List Byte) : List Nat := (chunks P.k mem).map P.native.val

/-- `ByteReverse(out, in, byteCount)` (misc.h): the bytes of every word reversed. -/
def byteReverse (P : Params) (mem : List Byte) : List Byte := ((chunks P.k mem).map List.reverse).flatten

/-- One round of the loop of `HashMultipleBlocks` (iterhash.cpp:98-126), `input` being one block: new data buffer and state. -/
def hashStep (P : Params) (aligned : Bool) (data : List Byte) (st : List Nat) (input : List Byte) : List Byte × List Nat :=
  if P.native = P.order then
    if aligned then (data, P.compress st (loadWords P input)) else (input, P.compress st (loadWords P input))
  else
    let data := byteReverse P input
    (data, P.compress st (loadWords P data))

/-- `HashBlock(dataBuf)` (iterhash.h:106-107): input and data buffer are the same. -/
def hashBlock (P : Params) (data : List Byte) (st : List Nat) : List Byte × List Nat := hashStep P true data st data

/-- `HashMultipleBlocks` (iterhash.cpp:85-133): data buffer, state and the unprocessed input. -/
def hashMultipleBlocks (P : Params) : Nat → List Byte → List Nat → List Byte → Except Err (List Byte × List Nat × List Byte)
  | 0, _, _, _ => .error .diverges
  | fuel + 1, data, st, input =>
    let (data, st) := hashStep P true data st (input.take P.B)
    let rest := input.drop P.B
    if rest.length ≥ P.B then hashMultipleBlocks P fuel data st rest else .ok (data, st, rest)

/-- The `do` loop for unaligned input in `Update` (iterhash.cpp:66-74). -/
def copyLoop (P : Params) : Nat → List Byte → List Nat → List Byte → Except Err (List Byte × List Nat × List Byte)
  | 0, _, _, _ => .error .diverges
  | fuel + 1, data, st, input => do
    let data ← write data 0 (input.take P.B)
    let (data, st) := hashBlock P data st
    let rest := input.drop P.B
    if rest.length ≥ P.B then copyLoop P fuel data st rest else .ok (data, st, rest)

/-- `Update` from "now process the input data in blocks" on (iterhash.cpp:51-78). `same` is `input == data`. -/
def updateBlocks (P : Params) (h : State) (input : List Byte) (aligned same : Bool) : Except Err State :=
  if input.length ≥ P.B then
    if same then
      let (data, st) := hashBlock P h.data h.state
      .ok { h with data := data, state := st }
    else do
      let (data, st, rest) ← (if aligned then hashMultipleBlocks P (input.length + 1) h.data h.state input
        else copyLoop P (input.length + 1) h.data h.state input)
      let data ← write data 0 rest
      .ok { h with data := data, state := st }
  else if same then .ok h
  else do
    let data ← write h.data 0 input
    .ok { h with data := data }

/-- The counter update at the start of `Update` (iterhash.cpp:18-23): the object with its new counters, and whether
`HashInputTooLong` is thrown. The counters have been overwritten when it is. -/
def counts (P : Params) (h : State) (length : Nat) : State × Bool :=
  let lo := (h.countLo + length) % P.W
  let hi := if lo < h.countLo then (h.countHi + 1) % P.W else h.countHi
  let hi := (hi + length / P.W) % P.W
  ({ h with countLo := lo, countHi := hi }, hi < h.countHi ∨ length / (P.W * P.W) ≠ 0)

/-- `Update` (iterhash.cpp:13-79). `inPlace`: the input pointer is `data + num`, as obtained from `CreateUpdateSpace`. -/
def update (P : Params) (h : State) (input : List Byte) (aligned inPlace : Bool) : Except Err State :=
  if input.length = 0 then .ok h
  else
    let (h', tooLong) := counts P h input.length
    if tooLong then .error .hashInputTooLong
    else
      let num := h.countLo &&& (P.B - 1)
      let h := h'
      if num ≠ 0 then
        if num + input.length ≥ P.B then do
          let data ← write h.data num (input.take (P.B - num))
          let (data, st) := hashBlock P data h.state
          updateBlocks P { h with data := data, state := st } (input.drop (P.B - num)) aligned false
        else do
          let data ← write h.data num input
          .ok { h with data := data }
      else updateBlocks P h input aligned inPlace

/-- `CreateUpdateSpace` (iterhash.cpp:81-87): offset of the space in the data buffer, and its size. -/
def createUpdateSpace (P : Params) (h : State) : Nat × Nat :=
  let num := h.countLo &&& (P.B - 1)
  (num, P.B - num)

/-- The caller fills `input` into the space `CreateUpdateSpace` returned and calls `Update` on it. -/
def updateInPlace (P : Params) (h : State) (input : List Byte) (aligned : Bool) : Except Err State := do
  let (pos, size) := createUpdateSpace P h
  if input.length > size then .error .undefinedBehaviour
  else do
    let data ← write h.data pos input
    update P { h with data := data } input aligned true

/-- `Restart` (iterhash.cpp:154-158). -/
def restart (P : Params) (h : State) : State := { h with countLo := 0, countHi := 0, state := P.init }

/-- `PadLastBlock` (iterhash.cpp:135-152). -/
def padLastBlock (P : Params) (h : State) (lastBlockSize : Nat) (padFirst : Byte) : Except Err State := do
  let num := h.countLo &&& (P.B - 1)
  let data ← write h.data num [padFirst]
  let num := num + 1
  if num ≤ lastBlockSize then do
    let data ← write data num (List.replicate (lastBlockSize - num) 0)
    .ok { h with data := data }
  else do
    let data ← write data num (List.replicate (P.B - num) 0)
    let (data, st) := hashBlock P data h.state
    let data ← write data 0 (List.replicate lastBlockSize 0)
    .ok { h with data := data, state := st }

/-- `GetBitCountHi` (iterhash.h:96-97). -/
def bitCountHi (P : Params) (h : State) : Nat := (h.countLo / 2 ^ (8 * P.k - 3) + h.countHi * 8 % P.W) % P.W

/-- `GetBitCountLo` (iterhash.h:98-99). -/
def bitCountLo (P : Params) (h : State) : Nat := h.countLo * 8 % P.W

/-- A word in memory after `ConditionalByteReverse(order, w)`. -/
def storeReversed (P : Params) (w : Nat) : List Byte :=
  if P.native = P.order then P.native.bytes P.k w else (P.native.bytes P.k w).reverse

/-- The numeric value of `ByteOrder` (cryptlib.h:143-148): `LITTLE_ENDIAN_ORDER` is 0, `BIG_ENDIAN_ORDER` is 1. -/
def orderNum : ByteOrder → Nat
  | .little => 0
  | .big => 1

/-- `TruncatedFinal` (iterhash.cpp:160-189). `aligned` is `IsAligned<HashWordType>(digest)`. -/
def truncatedFinal (P : Params) (h : State) (size : Nat) (aligned : Bool) : Except Err (State × List Byte) :=
  if size > P.digestSize then .error .invalidArgument
  else do
    let h ← padLastBlock P h (P.B - 2 * P.k) 0x80
    let data ← write h.data (P.k * (P.B / P.k - 2 + orderNum P.order)) (storeReversed P (bitCountLo P h))
    let data ← write data (P.k * (P.B / P.k - 1 - orderNum P.order)) (storeReversed P (bitCountHi P h))
    let (data, st) := hashBlock P data h.state
    let digest :=
      if aligned ∧ size % P.k = 0 then (st.take (size / P.k)).flatMap (storeReversed P)
      else ((st.take (P.digestSize / P.k)).flatMap (storeReversed P)
        ++ (st.drop (P.digestSize / P.k)).flatMap (P.native.bytes P.k)).take size
    .ok (restart P { h with data := data, state := st }, digest)

/-- The constructor: the data buffer is uninitialised. -/
def new (P : Params) (junk : List Byte) : State := ⟨0, 0, junk, P.init⟩

end Verif.IterHash
