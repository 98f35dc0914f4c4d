import Verif.BufFilter.Model

/-! What a derived filter may rely on (filters.h:392-415). -/
namespace Verif.BufFilter

/-- Feed one message in pieces; the last piece carries the message end. -/
def Filt.feed (f : Filt) : List (List Byte) → Except Err (Filt × List Ev)
  | [] => f.put [] true
  | [last] => f.put last true
  | c :: cs => do
    let (f, e1) ← f.put c false
    let (f, e2) ← Filt.feed f cs
    .ok (f, e1 ++ e2)

/-- Feed several messages one after the other: the events, message by message. -/
def Filt.feedMany (f : Filt) : List (List (List Byte)) → Except Err (List (List Ev))
  | [] => .ok []
  | m :: ms => do
    let (f, e) ← f.feed m
    let es ← Filt.feedMany f ms
    .ok (e :: es)

/-- The documented contract, for a message `total`:
* shorter than `firstSize`: only `LastPut(total)`;
* otherwise `FirstPut` gets exactly the first `firstSize` bytes, the `NextPut`s get non-empty whole blocks, `LastPut` gets
  the rest; together they are the message, in order. If the message is at most `firstSize + lastSize` long there is no
  `NextPut` and `LastPut` gets everything after the first part; otherwise `lastSize ≤ length < lastSize + blockSize`. -/
def Delivered (firstSize blockSize lastSize : Nat) (total : List Byte) (evs : List Ev) : Prop :=
  if total.length < firstSize then evs = [.last total, .messageEnd]
  else ∃ (nexts : List (List Byte)) (l : List Byte),
    evs = .first (total.take firstSize) :: nexts.map .next ++ [.last l, .messageEnd] ∧
    nexts.flatten ++ l = total.drop firstSize ∧
    (∀ x ∈ nexts, 0 < x.length ∧ x.length % blockSize = 0) ∧
    (if total.length ≤ firstSize + lastSize then nexts = [] else lastSize ≤ l.length ∧ l.length < lastSize + blockSize)

/-- `LastPut`'s length as a function of the message length alone. -/
def lastLength (firstSize blockSize lastSize n : Nat) : Nat :=
  if n < firstSize then n
  else if n ≤ firstSize + lastSize then n - firstSize
  else lastSize + (n - firstSize - lastSize) % blockSize

/-- A call within a message: `Put` or a hard `Flush`. -/
inductive Act where
  | put (bs : List Byte)
  | hardFlush

def Act.bytes : Act → List Byte
  | .put bs => bs
  | .hardFlush => []

/-- A message fed by `Put`s and hard flushes, then ended. -/
def Filt.runActs (order : Filt.ArgOrder) (f : Filt) : List Act → Except Err (Filt × List Ev)
  | [] => f.put [] true
  | .put bs :: as => do
    let (f, e1) ← f.put bs false
    let (f, e2) ← Filt.runActs order f as
    .ok (f, e1 ++ e2)
  | .hardFlush :: as => do
    let (f, e1) ← f.forceNextPut order
    let (f, e2) ← Filt.runActs order f as
    .ok (f, e1 ++ e2)

/-- The contract when hard flushes may have been made: all but the lower bound on the last piece. -/
def DeliveredFlushed (firstSize blockSize lastSize : Nat) (total : List Byte) (evs : List Ev) : Prop :=
  if total.length < firstSize then evs = [.last total, .messageEnd]
  else ∃ (nexts : List (List Byte)) (l : List Byte),
    evs = .first (total.take firstSize) :: nexts.map .next ++ [.last l, .messageEnd] ∧
    nexts.flatten ++ l = total.drop firstSize ∧
    (∀ x ∈ nexts, 0 < x.length ∧ x.length % blockSize = 0) ∧
    l.length < lastSize + blockSize

end Verif.BufFilter
