import Verif.Common

/-! # `MessageQueue` and `EqualityComparisonFilter` (mqueue.h, mqueue.cpp, the message functions of cryptlib.cpp) -/
namespace Verif.MQueue

/-- A `MessageQueue` (mqueue.h:83-86). `content` are the bytes of `m_queue`: the `ByteQueue` is used through the contract proved for
it in `Verif.Queue` (a first-in first-out list of bytes). The two deques are never empty. Lengths are unbounded numbers here; the code
uses 64-bit ones. -/
structure MQ where
  content : List Byte
  lengths : List Nat
  counts : List Nat
deriving DecidableEq, Repr

/-- The constructor (mqueue.cpp:11-14); also `IsolatedInitialize` (mqueue.h:32-33). -/
def MQ.init : MQ := ⟨[], [0], [0]⟩

/-- `deque.back() = f (deque.back())`. -/
def modLast (f : Nat → Nat) : List Nat → List Nat
  | [] => []
  | [x] => [f x]
  | x :: y :: l => x :: modLast f (y :: l)

/-- `deque.front() = f (deque.front())`. -/
def modHead (f : Nat → Nat) : List Nat → List Nat
  | [] => []
  | x :: l => f x :: l

/-- `Put2` (mqueue.h:34-45). -/
def MQ.put2 (q : MQ) (bs : List Byte) (messageEnd : Bool) : MQ :=
  let q := { q with content := q.content ++ bs, lengths := modLast (· + bs.length) q.lengths }
  if messageEnd then { q with lengths := q.lengths ++ [0], counts := modLast (· + 1) q.counts } else q

/-- `IsolatedMessageSeriesEnd` (mqueue.h:48-49). -/
def MQ.messageSeriesEnd (q : MQ) : MQ := { q with counts := q.counts ++ [0] }

/-- `MaxRetrievable` (mqueue.h:51-52). -/
def MQ.maxRetrievable (q : MQ) : Nat := q.lengths.headD 0

/-- `AnyRetrievable` (mqueue.h:53-54). -/
def MQ.anyRetrievable (q : MQ) : Bool := 0 < q.maxRetrievable

/-- `TotalBytesRetrievable` (mqueue.h:59-60). -/
def MQ.total (q : MQ) : Nat := q.content.length

/-- `NumberOfMessages` (mqueue.h:61-62): `(unsigned int)m_lengths.size()-1`. -/
def MQ.numberOfMessages (q : MQ) : Nat := (BitVec.ofNat 32 q.lengths.length - 1#32).toNat

/-- `BufferedTransformation::AnyMessages` (cryptlib.cpp:604-612). -/
def MQ.anyMessages (q : MQ) : Bool := q.numberOfMessages != 0

/-- `NumberOfMessagesInThisSeries` (mqueue.h:65-66). -/
def MQ.messagesInThisSeries (q : MQ) : Nat := q.counts.headD 0

/-- `NumberOfMessageSeries` (mqueue.h:67-68). -/
def MQ.numberOfSeries (q : MQ) : Nat := q.counts.length - 1

/-- `TransferTo2` to a target that accepts everything (mqueue.cpp:24-30); `Get`, `Skip` go through it (cryptlib.cpp:538-549, 574-582). -/
def MQ.transferTo (q : MQ) (n : Nat) : List Byte × MQ :=
  let n := min q.maxRetrievable n
  (q.content.take n, { q with content := q.content.drop n, lengths := modHead (· - n) q.lengths })

/-- `CopyRangeTo2` (mqueue.cpp:16-22); `Peek` goes through it (cryptlib.cpp:561-572). -/
def MQ.copyRange (q : MQ) (b e : Nat) : List Byte :=
  if q.maxRetrievable ≤ b then [] else
  let e := min q.maxRetrievable e
  (q.content.drop b).take (e - b)

/-- `GetNextMessage` (mqueue.cpp:32-43). -/
def MQ.getNextMessage (q : MQ) : Bool × MQ :=
  if 0 < q.numberOfMessages ∧ q.anyRetrievable = false then
    let q := { q with lengths := q.lengths.tail }
    let q := if q.messagesInThisSeries = 0 ∧ 1 < q.counts.length then { q with counts := q.counts.tail } else q
    (true, q)
  else (false, q)

/-- What a target receives: `some b` a byte, `none` a message end. -/
abbrev Tok := Option Byte

/-- The loop of `CopyMessagesTo` (mqueue.cpp:47-55) over the lengths but the last; the walker is what is left of the content. -/
def copyLoop : Nat → List Nat → List Byte → List Tok × Nat
  | 0, _, _ => ([], 0)
  | _ + 1, [], _ => ([], 0)
  | count + 1, n :: ls, walker =>
    let r := copyLoop count ls (walker.drop n)
    ((walker.take n).map some ++ none :: r.1, r.2 + 1)

/-- `CopyMessagesTo` (mqueue.cpp:45-57), with message ends propagated (the default). -/
def MQ.copyMessagesTo (q : MQ) (count : Nat) : List Tok × Nat := copyLoop count q.lengths.dropLast q.content

/-- The loop `while (AnyRetrievable())` of `TransferMessagesTo2` (cryptlib.cpp:649-660). -/
def drainLoop : Nat → MQ → Except Err (List Tok × MQ)
  | 0, _ => .error .diverges
  | f + 1, q => if q.anyRetrievable then
      let r := q.transferTo q.maxRetrievable
      match drainLoop f r.2 with
      | .error e => .error e
      | .ok s => .ok (r.1.map some ++ s.1, s.2)
    else .ok ([], q)

/-- `TransferMessagesTo2` (cryptlib.cpp:636-669) to a target that accepts everything; gives the tokens sent and the count. -/
def transferMessages (fuel : Nat) : Nat → MQ → Except Err (List Tok × Nat × MQ)
  | 0, q => .ok ([], 0, q)
  | maxMessages + 1, q => if q.anyMessages then
      match drainLoop fuel q with
      | .error e => .error e
      | .ok (out, q) =>
        match transferMessages fuel maxMessages q.getNextMessage.2 with
        | .error e => .error e
        | .ok (out2, n, q) => .ok (out ++ none :: out2, n + 1, q)
    else .ok ([], 0, q)

/-- The first loop of `TransferAllTo2` (cryptlib.cpp:698-705); `uintMax` is `UINT_MAX`. -/
def allMessagesLoop (uintMax fuel : Nat) : Nat → MQ → Except Err (List Tok × MQ)
  | 0, _ => .error .diverges
  | f + 1, q =>
    match transferMessages fuel uintMax q with
    | .error e => .error e
    | .ok (out, n, q) => if n = 0 then .ok (out, q) else
      match allMessagesLoop uintMax fuel f q with
      | .error e => .error e
      | .ok (out2, q) => .ok (out ++ out2, q)

/-- The second loop of `TransferAllTo2` (cryptlib.cpp:707-714); `ulongMax` is `ULONG_MAX`. -/
def allBytesLoop (ulongMax : Nat) : Nat → MQ → Except Err (List Tok × MQ)
  | 0, _ => .error .diverges
  | f + 1, q =>
    let r := q.transferTo ulongMax
    if r.1.length = 0 then .ok ([], r.2) else
      match allBytesLoop ulongMax f r.2 with
      | .error e => .error e
      | .ok (out, q) => .ok (r.1.map some ++ out, q)

/-- `TransferAllTo2` (cryptlib.cpp:690-718). `SkipAll` (cryptlib.cpp:679-688) is the same with the output discarded. -/
def MQ.transferAll (uintMax fuel ulongMax : Nat) (q : MQ) : Except Err (List Tok × MQ) :=
  match allMessagesLoop uintMax fuel fuel q with
  | .error e => .error e
  | .ok (out, q) =>
    match allBytesLoop ulongMax fuel q with
    | .error e => .error e
    | .ok (out2, q) => .ok (out ++ out2, q)

/-- `CopyAllTo` (cryptlib.cpp:722-731): `while (CopyMessagesTo(target, UINT_MAX, channel)) {}`. -/
def MQ.copyAll (uintMax : Nat) : Nat → MQ → Except Err (List Tok)
  | 0, _ => .error .diverges
  | f + 1, q =>
    let r := q.copyMessagesTo uintMax
    if r.2 = 0 then .ok r.1 else
      match MQ.copyAll uintMax f q with
      | .error e => .error e
      | .ok out => .ok (r.1 ++ out)

/-- `swap` (mqueue.cpp:59-63): the message counts stay. -/
def MQ.swap (a b : MQ) : MQ × MQ := (⟨b.content, b.lengths, a.counts⟩, ⟨a.content, a.lengths, b.counts⟩)

/-! ## EqualityComparisonFilter -/

/-- The filter (mqueue.h:133-136). `sent` is what it has output on its own account: `0` for a mismatch, `1` for equality. -/
structure Cmp where
  q0 : MQ
  q1 : MQ
  mismatch : Bool
  sent : List Byte
deriving DecidableEq, Repr

def Cmp.init : Cmp := ⟨MQ.init, MQ.init, false, []⟩

/-- `HandleMismatchDetected` (mqueue.cpp:158-165). An exception is reported as `Except.error`; the flag stays set. -/
def Cmp.handle (throws : Bool) (c : Cmp) : Cmp × Bool :=
  let c := { c with mismatch := true }
  if throws then (c, true) else ({ c with sent := c.sent ++ [0] }, false)

/-- The comparison loop (mqueue.cpp:99-109): the rest of the input and the other queue, or `none` for a mismatch. `spy` gives how many
bytes of the queue are contiguous in memory. -/
def cmpLoop (spy : List Byte → Nat) : Nat → List Byte → MQ → Option (List Byte × MQ)
  | 0, inString, q2 => some (inString, q2)
  | f + 1, inString, q2 => if 0 < inString.length ∧ q2.anyRetrievable then
      let len := min (spy q2.content) q2.maxRetrievable
      let len := min len inString.length
      if inString.take len ≠ q2.content.take len then none
      else cmpLoop spy f (inString.drop len) (q2.transferTo len).2
    else some (inString, q2)

/-- `ChannelPut2` on one of the two channels (mqueue.cpp:79-131), in terms of this channel's queue `a` and the other's, `b`:
the new queues, or `none` for a mismatch. Every round of the comparison loop consumes input. -/
def cmpPut (spy : List Byte → Nat) (a b : MQ) (inString : List Byte) (messageEnd : Bool) : Option (MQ × MQ) :=
  if b.anyMessages ∧ b.maxRetrievable < inString.length then none else
  match cmpLoop spy inString.length inString b with
  | none => none
  | some (rest, b) =>
    let a := a.put2 rest false
    if messageEnd then
      if b.anyRetrievable then none
      else if b.anyMessages then some (a, b.getNextMessage.2)
      else if 0 < b.numberOfSeries then none
      else some (a.put2 [] true, b)
    else some (a, b)

/-- `ChannelPut2` on channel `i` (`false`: the first). The returned flag says whether an exception was thrown. -/
def Cmp.put (spy : List Byte → Nat) (throws : Bool) (c : Cmp) (i : Bool) (bs : List Byte) (messageEnd : Bool) : Cmp × Bool :=
  if c.mismatch then (c, false) else
  if i then
    match cmpPut spy c.q1 c.q0 bs messageEnd with
    | none => c.handle throws
    | some (a, b) => ({ c with q1 := a, q0 := b }, false)
  else
    match cmpPut spy c.q0 c.q1 bs messageEnd with
    | none => c.handle throws
    | some (a, b) => ({ c with q0 := a, q1 := b }, false)

/-- `ChannelMessageSeriesEnd` on channel `i` (mqueue.cpp:133-156). -/
def Cmp.seriesEnd (throws : Bool) (c : Cmp) (i : Bool) : Cmp × Bool :=
  if c.mismatch then (c, false) else
  let q2 := if i then c.q0 else c.q1
  if q2.anyRetrievable || q2.anyMessages then c.handle throws
  else if 0 < q2.numberOfSeries then ({ c with sent := c.sent ++ [1] }, false)
  else if i then ({ c with q1 := c.q1.messageSeriesEnd }, false)
  else ({ c with q0 := c.q0.messageSeriesEnd }, false)

end Verif.MQueue
