import Verif.MQueue.Model

/-! # Specification of `MessageQueue`: a list of complete messages and one in progress -/
namespace Verif.MQueue

/-- Complete messages, oldest first (the oldest may have been read in part), and the bytes of the message not yet ended. -/
structure Abs where
  done : List (List Byte)
  cur : List Byte
deriving DecidableEq, Repr

/-- The message being read: the oldest. -/
def Abs.front (s : Abs) : List Byte := match s.done with | [] => s.cur | m :: _ => m

/-- Replace the message being read. -/
def Abs.setFront (s : Abs) (m : List Byte) : Abs := match s.done with | [] => ⟨[], m⟩ | _ :: d => ⟨m :: d, s.cur⟩

/-- A message as tokens: its bytes and its end. -/
def msgToks (m : List Byte) : List Tok := m.map some ++ [none]

/-- Everything in the queue, as tokens. -/
def Abs.toks (s : Abs) : List Tok := (s.done.map msgToks).flatten ++ s.cur.map some

/-- The public calls. -/
inductive Op where
  /-- `Put`, or `Put2` with `messageEnd`. -/
  | put (bs : List Byte) (messageEnd : Bool)
  | seriesEnd
  /-- `Get`, `TransferTo`. -/
  | get (n : Nat)
  /-- `Peek`, `CopyRangeTo`. -/
  | copyRange (b e : Nat)
  | nextMessage
  | maxRetrievable
  | anyRetrievable
  | totalBytes
  | numberOfMessages
  | anyMessages
  | transferMessages (n : Nat)
  | copyMessages (n : Nat)
  | transferAll
  | initialize

/-- Results. -/
inductive Out where
  | unit
  | bytes (bs : List Byte)
  | nat (n : Nat)
  | bool (b : Bool)
  | toks (l : List Tok) (n : Nat)
  | err (e : Err)
deriving DecidableEq, Repr

/-- What each call must do. -/
def specStep (s : Abs) : Op → Out × Abs
  | .put bs false => (.unit, { s with cur := s.cur ++ bs })
  | .put bs true => (.unit, ⟨s.done ++ [s.cur ++ bs], []⟩)
  | .seriesEnd => (.unit, s)
  | .get n => (.bytes (s.front.take n), s.setFront (s.front.drop n))
  | .copyRange b e => (.bytes ((s.front.take e).drop b), s)
  | .nextMessage => match s.done with
    | [] :: d => (.bool true, ⟨d, s.cur⟩)
    | _ => (.bool false, s)
  | .maxRetrievable => (.nat s.front.length, s)
  | .anyRetrievable => (.bool (s.front ≠ []), s)
  | .totalBytes => (.nat (s.done.flatten ++ s.cur).length, s)
  | .numberOfMessages => (.nat s.done.length, s)
  | .anyMessages => (.bool (s.done ≠ []), s)
  | .transferMessages n => (.toks ((s.done.take n).map msgToks).flatten (s.done.take n).length, ⟨s.done.drop n, s.cur⟩)
  | .copyMessages n => (.toks ((s.done.take n).map msgToks).flatten (s.done.take n).length, s)
  | .transferAll => (.toks s.toks s.done.length, ⟨[], []⟩)
  | .initialize => (.unit, ⟨[], []⟩)

/-- The histories considered: fewer than 2^32 - 1 complete messages at a time (their number is an `unsigned int`). -/
def Within (s : Abs) : List Op → Prop
  | [] => True
  | op :: ops => s.done.length + 1 < 2 ^ 32 ∧ Within (specStep s op).2 ops

def specRun (s : Abs) : List Op → List Out
  | [] => []
  | op :: ops => (specStep s op).1 :: specRun (specStep s op).2 ops

/-- The model, one call. The loops of the transfer functions get more rounds than there are
bytes; a loop that needed more would show as `diverges`. `uintMax` and `ulongMax`
are `UINT_MAX` and `ULONG_MAX`. -/
def step (uintMax ulongMax : Nat) (q : MQ) : Op → Out × MQ
  | .put bs e => (.unit, q.put2 bs e)
  | .seriesEnd => (.unit, q.messageSeriesEnd)
  | .get n => (.bytes (q.transferTo n).1, (q.transferTo n).2)
  | .copyRange b e => (.bytes (q.copyRange b e), q)
  | .nextMessage => (.bool q.getNextMessage.1, q.getNextMessage.2)
  | .maxRetrievable => (.nat q.maxRetrievable, q)
  | .anyRetrievable => (.bool q.anyRetrievable, q)
  | .totalBytes => (.nat q.total, q)
  | .numberOfMessages => (.nat q.numberOfMessages, q)
  | .anyMessages => (.bool q.anyMessages, q)
  | .transferMessages n => match transferMessages (q.content.length + 3) n q with
    | .error e => (.err e, q)
    | .ok (out, k, q) => (.toks out k, q)
  | .copyMessages n => (.toks (q.copyMessagesTo n).1 (q.copyMessagesTo n).2, q)
  | .transferAll => match q.transferAll uintMax (q.content.length + 3) ulongMax with
    | .error e => (.err e, q)
    | .ok (out, q') => (.toks out q.numberOfMessages, q')
  | .initialize => (.unit, MQ.init)

def run (uintMax ulongMax : Nat) (q : MQ) : List Op → List Out
  | [] => []
  | op :: ops => (step uintMax ulongMax q op).1 :: run uintMax ulongMax (step uintMax ulongMax q op).2 ops

/-! ## EqualityComparisonFilter -/

/-- The token stream of one channel. -/
def streamOf (i : Bool) : List (Bool × List Byte × Bool) → List Tok
  | [] => []
  | (j, bs, e) :: l => (if i = j then bs.map some ++ (if e then [none] else []) else []) ++ streamOf i l

/-- One stream continues the other. -/
def Compatible (s t : List Tok) : Prop := s <+: t ∨ t <+: s

/-- The filter after a history of `ChannelPut2` calls; the flag says whether some call threw. -/
def cmpRun (spy : List Byte → Nat) (throws : Bool) (c : Cmp) : List (Bool × List Byte × Bool) → Cmp × Bool
  | [] => (c, false)
  | (i, bs, e) :: l =>
    let r := c.put spy throws i bs e
    let r' := cmpRun spy throws r.1 l
    (r'.1, r.2 || r'.2)

end Verif.MQueue
