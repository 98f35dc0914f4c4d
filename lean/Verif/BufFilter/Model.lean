import Verif.Common

/-!
# Model of `FilterWithBufferedInput` (filters.h:341-451, filters.cpp:247-467)

The calls the base class makes on the derived filter are events. Only blocking calls are modelled (a non-blocking call
throws `BlockingInputOnly` before doing anything). `NextPutModifiable` and `NextPutMultiple` are the same event: they
receive the same bytes. The debug-only `CRYPTOPP_ASSERT`s are not modelled; an access outside a buffer is
`Err.undefinedBehaviour`.
-/
namespace Verif.BufFilter

/-- Read `n` bytes at offset `i` of a buffer through a pointer. -/
def slice (buf : List Byte) (i n : Nat) : Except Err (List Byte) :=
  if i + n ≤ buf.length then .ok ((buf.drop i).take n) else .error .undefinedBehaviour

/-- `std::memcpy(buf + i, xs, |xs|)`. -/
def write (buf : List Byte) (i : Nat) (xs : List Byte) : Except Err (List Byte) :=
  if i + xs.length ≤ buf.length then .ok (buf.take i ++ xs ++ buf.drop (i + xs.length)) else .error .undefinedBehaviour

/-- `FilterWithBufferedInput::BlockQueue` (filters.h:431-446); `begin_` is the offset `m_begin - m_buffer`. -/
structure Ring where
  buf : List Byte
  blockSize : Nat
  maxBlocks : Nat
  size : Nat
  begin_ : Nat
deriving DecidableEq

namespace Ring

/-- `ResetQueue` (filters.cpp:249-256). `junk` is the uninitialised content of the new buffer. -/
def reset (junk : Nat → Byte) (blockSize maxBlocks : Nat) : Ring :=
  ⟨(List.range (blockSize * maxBlocks)).map junk, blockSize, maxBlocks, 0, 0⟩

/-- `GetBlock` (filters.cpp:258-270): the block pointed to, or `none` for the null pointer. -/
def getBlock (q : Ring) : Except Err (Option (List Byte) × Ring) :=
  if q.size ≥ q.blockSize then do
    let blk ← slice q.buf q.begin_ q.blockSize
    let b := q.begin_ + q.blockSize
    .ok (some blk, { q with begin_ := if b = q.buf.length then 0 else b, size := q.size - q.blockSize })
  else .ok (none, q)

/-- `GetContigousBlocks` (filters.cpp:272-281): the bytes at the returned pointer; the reference parameter
`numberOfBytes` becomes their number. -/
def getContiguous (q : Ring) (numberOfBytes : Nat) : Except Err (List Byte × Ring) := do
  let n := min numberOfBytes (min (q.buf.length - q.begin_) q.size)
  let p ← slice q.buf q.begin_ n
  let b := q.begin_ + n
  let s := q.size - n
  .ok (p, { q with begin_ := if s = 0 ∨ b = q.buf.length then 0 else b, size := s })

/-- `GetAll` (filters.cpp:283-295). -/
def getAll (q : Ring) : Except Err (List Byte × Ring) := do
  let (a, q1) ← q.getContiguous (q.maxBlocks * q.blockSize)
  let b ← slice q1.buf q1.begin_ q1.size
  .ok (a ++ b, { q1 with size := 0 })

/-- `Put` (filters.cpp:297-310). -/
def put (q : Ring) (inString : List Byte) : Except Err Ring :=
  if inString.length = 0 then .ok q
  else do
    let e := if q.size < q.buf.length - q.begin_ then q.begin_ + q.size else q.begin_ + q.size - q.buf.length
    let len := min inString.length (q.buf.length - e)
    let buf ← write q.buf e (inString.take len)
    let buf ← (if len < inString.length then write buf 0 (inString.drop len) else .ok buf)
    .ok { q with buf := buf, size := q.size + inString.length }

end Ring

/-- Calls on the derived filter: `FirstPut`, `NextPutModifiable`/`NextPutMultiple`, `LastPut`, and the message-end signal
passed on by `Output(1, NULL, 0, messageEnd, blocking)`. -/
inductive Ev where
  | first (bs : List Byte)
  | next (bs : List Byte)
  | last (bs : List Byte)
  | messageEnd
deriving DecidableEq, Repr

/-- `FilterWithBufferedInput`'s fields (filters.h:448-450). -/
structure Filt where
  firstSize : Nat
  blockSize : Nat
  lastSize : Nat
  firstDone : Bool
  q : Ring
  junk : Nat → Byte

namespace Filt

/-- The constructor and `IsolatedInitialize` (filters.cpp:317-333); the `SIZE_MAX` test cannot be met by a `Nat` size that
fits in memory and is left out. -/
def init (junk : Nat → Byte) (firstSize blockSize lastSize : Nat) : Except Err Filt :=
  if blockSize < 1 then .error .invalidArgument
  else .ok ⟨firstSize, blockSize, lastSize, false, Ring.reset junk 1 firstSize, junk⟩

/-- The first `while` loop for `m_blockSize == 1` (filters.cpp:374-380). Every round takes at least one byte off the
queue, so `fuel` above the queue's size is never used up. -/
def loop1 : Nat → Filt → Nat → Except Err (Filt × Nat × List Ev)
  | 0, _, _ => .error .diverges
  | fuel + 1, f, newLength =>
    if newLength > f.lastSize ∧ f.q.size > 0 then do
      let (p, q) ← f.q.getContiguous (newLength - f.lastSize)
      let (f', n', evs) ← loop1 fuel { f with q := q } (newLength - p.length)
      .ok (f', n', .next p :: evs)
    else .ok (f, newLength, [])

/-- The first `while` loop for `m_blockSize > 1` (filters.cpp:392-396). `GetBlock` cannot return null there. -/
def loopB : Nat → Filt → Nat → Except Err (Filt × Nat × List Ev)
  | 0, _, _ => .error .diverges
  | fuel + 1, f, newLength =>
    if newLength ≥ f.blockSize + f.lastSize ∧ f.q.size ≥ f.blockSize then do
      let (p, q) ← f.q.getBlock
      match p with
      | none => .error .undefinedBehaviour
      | some p =>
        let (f', n', evs) ← loopB fuel { f with q := q } (newLength - f.blockSize)
        .ok (f', n', .next p :: evs)
    else .ok (f, newLength, [])

/-- The part for the first `m_firstSize` bytes (filters.cpp:357-368): new state, rest of the input, `newLength`. Note that
`GetContigousBlocks` takes `m_firstSize` by reference. -/
def stageFirst (f : Filt) (inp : List Byte) (newLength : Nat) : Except Err (Filt × List Byte × Nat × List Ev) :=
  if !f.firstDone ∧ newLength ≥ f.firstSize then do
    let len := f.firstSize - f.q.size
    let x ← slice inp 0 len
    let q ← f.q.put x
    let (p, _) ← q.getContiguous f.firstSize
    let firstSize := p.length
    let q := Ring.reset f.junk f.blockSize ((2 * f.blockSize + f.lastSize - 2) / f.blockSize)
    .ok ({ f with firstSize := firstSize, q := q, firstDone := true }, inp.drop len, newLength - firstSize, [.first p])
  else .ok (f, inp, newLength, [])

/-- The `m_blockSize == 1` branch (filters.cpp:372-389). -/
def stage1 (f : Filt) (inp : List Byte) (newLength : Nat) : Except Err (Filt × List Byte × Nat × List Ev) := do
  let (f, newLength, evs) ← loop1 (f.q.size + 1) f newLength
  if newLength > f.lastSize then do
    let len := newLength - f.lastSize
    let x ← slice inp 0 len
    .ok (f, inp.drop len, newLength - len, evs ++ [.next x])
  else .ok (f, inp, newLength, evs)

/-- The second `if` of the `m_blockSize > 1` branch (filters.cpp:398-406). -/
def stageFill (f : Filt) (inp : List Byte) (newLength : Nat) : Except Err (Filt × List Byte × Nat × List Ev) :=
  if newLength ≥ f.blockSize + f.lastSize ∧ f.q.size > 0 then do
    let len := f.blockSize - f.q.size
    let x ← slice inp 0 len
    let q ← f.q.put x
    let (p, q) ← q.getBlock
    match p with
    | none => .error .undefinedBehaviour
    | some p => .ok ({ f with q := q }, inp.drop len, newLength - f.blockSize, [.next p])
  else .ok (f, inp, newLength, [])

/-- The third `if` of the `m_blockSize > 1` branch (filters.cpp:408-414). -/
def stageBulk (f : Filt) (inp : List Byte) (newLength : Nat) : Except Err (Filt × List Byte × Nat × List Ev) :=
  if newLength ≥ f.blockSize + f.lastSize then do
    let len := (newLength - f.lastSize) / f.blockSize * f.blockSize
    let x ← slice inp 0 len
    .ok (f, inp.drop len, newLength - len, [.next x])
  else .ok (f, inp, newLength, [])

/-- The `m_blockSize > 1` branch (filters.cpp:390-415). -/
def stageB (f : Filt) (inp : List Byte) (newLength : Nat) : Except Err (Filt × List Byte × Nat × List Ev) := do
  let (f, newLength, e1) ← loopB (f.q.size + 1) f newLength
  let (f, inp, newLength, e2) ← stageFill f inp newLength
  let (f, inp, newLength, e3) ← stageBulk f inp newLength
  .ok (f, inp, newLength, e1 ++ e2 ++ e3)

/-- The `if (length != 0)` part of `PutMaybeModifiable` (filters.cpp:352-418). -/
def putData (f : Filt) (inp : List Byte) : Except Err (Filt × List Ev) := do
  let newLength := f.q.size + inp.length
  let (f, inp, newLength, e1) ← stageFirst f inp newLength
  let (f, inp, newLength, e2) ←
    (if f.firstDone then (if f.blockSize = 1 then stage1 f inp newLength else stageB f inp newLength)
    else .ok (f, inp, newLength, []))
  let x ← slice inp 0 (newLength - f.q.size)
  let q ← f.q.put x
  .ok ({ f with q := q }, e1 ++ e2)

/-- The `if (messageEnd)` part (filters.cpp:420-435). -/
def finish (f : Filt) : Except Err (Filt × List Ev) := do
  let e1 := if !f.firstDone ∧ f.firstSize = 0 then [Ev.first []] else []
  let (x, _) ← f.q.getAll
  .ok ({ f with firstDone := false, q := Ring.reset f.junk 1 f.firstSize }, e1 ++ [.last x, .messageEnd])

/-- `PutMaybeModifiable` with `blocking = true` (filters.cpp:347-437). -/
def put (f : Filt) (inp : List Byte) (messageEnd : Bool) : Except Err (Filt × List Ev) := do
  let (f, e1) ← (if inp.length ≠ 0 then f.putData inp else .ok (f, []))
  let (f, e2) ← (if messageEnd then f.finish else .ok (f, []))
  .ok (f, e1 ++ e2)

/-- The loop of `ForceNextPut` for `m_blockSize > 1` (filters.cpp:445-446). -/
def forceB : Nat → Filt → Except Err (Filt × List Ev)
  | 0, _ => .error .diverges
  | fuel + 1, f =>
    if f.q.size ≥ f.blockSize then do
      let (p, q) ← f.q.getBlock
      match p with
      | none => .error .undefinedBehaviour
      | some p =>
        let (f', evs) ← forceB fuel { f with q := q }
        .ok (f', .next p :: evs)
    else .ok (f, [])

/-- In which order a compiler evaluates the two arguments of
`NextPutModifiable(m_queue.GetContigousBlocks(len), len)`: the language leaves it unspecified. -/
inductive ArgOrder | leftToRight | rightToLeft
deriving DecidableEq

/-- The loop of `ForceNextPut` for `m_blockSize == 1` (filters.cpp:450-452). With `rightToLeft` the second argument is the
value `len` had before `GetContigousBlocks` lowered it, so `NextPutModifiable` reads that many bytes at the pointer. -/
def force1 (order : ArgOrder) : Nat → Filt → Except Err (Filt × List Ev)
  | 0, _ => .error .diverges
  | fuel + 1, f =>
    if f.q.size > 0 then do
      let (p, q) ← f.q.getContiguous f.q.size
      let passed ← (match order with
        | .leftToRight => .ok p
        | .rightToLeft => slice f.q.buf f.q.begin_ f.q.size)
      let (f', evs) ← force1 order fuel { f with q := q }
      .ok (f', .next passed :: evs)
    else .ok (f, [])

/-- `ForceNextPut` (filters.cpp:438-454), the hard part of `IsolatedFlush(true, true)`. -/
def forceNextPut (order : ArgOrder) (f : Filt) : Except Err (Filt × List Ev) :=
  if !f.firstDone then .ok (f, [])
  else if f.blockSize > 1 then forceB (f.q.size + 1) f
  else force1 order (f.q.size + 1) f

end Filt

end Verif.BufFilter
