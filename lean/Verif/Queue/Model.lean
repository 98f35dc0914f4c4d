import Verif.Common

/-!
# Model of `ByteQueue` (queue.cpp, queue.h)

The linked list `m_head .. m_tail` is a non-empty `List Node`; `m_tail` is its last element. The memory behind
`m_lazyString` is the list `lazyStr` (the caller is assumed not to change it while the string is pending, as the
documentation of `LazyPut` requires). `size_t`/`lword` are `Nat`: no queue reaches `2^64` bytes.
-/
namespace Verif.Queue

/-- `s_maxAutoNodeSize` (queue.cpp:14). -/
def maxAutoNodeSize : Nat := 16 * 1024

/-- `ByteQueueNode` (queue.cpp:17-134): a buffer and the half-open range `[head, tail)` of unread bytes in it. -/
structure Node where
  buf : List Byte
  head : Nat
  tail : Nat
deriving DecidableEq, Repr

namespace Node

/-- Constructor `ByteQueueNode(size_t maxSize)` (queue.cpp:20-28). Fresh memory is modelled as zeros;
no operation reads it before writing it. -/
def new (maxSize : Nat) : Node := ⟨List.replicate maxSize 0, 0, 0⟩

/-- `MaxSize` (queue.cpp:30). -/
def maxSize (n : Node) : Nat := n.buf.length

/-- `CurrentSize` (queue.cpp:32-35). -/
def currentSize (n : Node) : Nat := n.tail - n.head

/-- `UsedUp` (queue.cpp:37-40). -/
def usedUp (n : Node) : Bool := n.head == n.maxSize

/-- `Clear` (queue.cpp:42-45). -/
def clear (n : Node) : Node := { n with head := 0, tail := 0 }

/-- `Put` (queue.cpp:47-56), with a source outside the node's own buffer. Returns the number of bytes taken. -/
def put (n : Node) (bs : List Byte) : Nat × Node :=
  if bs.length = 0 then (bs.length, n)
  else
    let l := min bs.length (n.maxSize - n.tail)
    (l, { n with buf := n.buf.take n.tail ++ bs.take l ++ n.buf.drop (n.tail + l), tail := n.tail + l })

/-- `Put` (queue.cpp:47-56) when `begin == m_buf+m_tail`: the caller has already written `length` bytes there
(through the pointer `CreatePutSpace` returned), so nothing is copied. -/
def putInPlace (n : Node) (length : Nat) : Nat × Node :=
  if length = 0 then (length, n)
  else
    let l := min length (n.maxSize - n.tail)
    (l, { n with tail := n.tail + l })

/-- The caller's write through the pointer `m_buf + m_tail` returned by `CreatePutSpace` (queue.cpp:453). -/
def writeSpace (n : Node) (bs : List Byte) : Node :=
  { n with buf := n.buf.take n.tail ++ bs ++ n.buf.drop (n.tail + bs.length) }

/-- `Peek(byte &)` (queue.cpp:58-65). -/
def peek1 (n : Node) : Option Byte :=
  if n.tail == n.head then none else n.buf[n.head]?

/-- The bytes `m_buf+m_head .. +len` read by `Peek`, `CopyTo`, `TransferTo` (queue.cpp:67-116). -/
def bytes (n : Node) (len : Nat) : List Byte := (n.buf.drop n.head).take len

/-- `Get(byte &)` (queue.cpp:88-93). -/
def get1 (n : Node) : Option Byte × Node :=
  match n.peek1 with
  | some b => (some b, { n with head := n.head + 1 })
  | none => (none, n)

/-- `TransferTo(target, transferMax)` (queue.cpp:110-116): the bytes handed to the target and the node after. -/
def transferTo (n : Node) (transferMax : Nat) : List Byte × Node :=
  let len := min (n.tail - n.head) transferMax
  (n.bytes len, { n with head := n.head + len })

/-- `operator[]` (queue.cpp:125-128); `none` is an out-of-bounds read. -/
def at? (n : Node) (i : Nat) : Option Byte := n.buf[n.head + i]?

end Node

/-- `ByteQueue`'s fields (queue.h:206-211). `hd :: tl` is the chain from `m_head` to `m_tail`.
`m_lazyStringModifiable` only selects between `ChannelPut` and `ChannelPutModifiable` and is dropped. -/
structure BQ where
  hd : Node
  tl : List Node
  lazyStr : List Byte
  lazyLen : Nat
  nodeSize : Nat
  autoNodeSize : Bool
deriving DecidableEq, Repr

namespace BQ

/-- The node `m_tail` points to. -/
def tailNode (q : BQ) : Node := (q.hd :: q.tl).getLast (List.cons_ne_nil _ _)

/-- Overwrite the node `m_tail` points to. -/
def setTail (q : BQ) (n : Node) : BQ :=
  match q.tl with
  | [] => { q with hd := n }
  | _ :: _ => { q with tl := q.tl.dropLast ++ [n] }

/-- `m_tail->m_next = node; m_tail = m_tail->m_next`. -/
def appendNode (q : BQ) (n : Node) : BQ := { q with tl := q.tl ++ [n] }

/-- Constructor (queue.cpp:138-148) with `SetNodeSize` (queue.cpp:150-154). -/
def init (nodeSize : Nat) : BQ :=
  let auto := nodeSize == 0
  let sz := if auto then 256 else nodeSize
  ⟨Node.new sz, [], [], 0, sz, auto⟩

/-- `SetNodeSize` (queue.cpp:150-154). -/
def setNodeSize (q : BQ) (nodeSize : Nat) : BQ :=
  { q with autoNodeSize := nodeSize == 0, nodeSize := if nodeSize == 0 then 256 else nodeSize }

/-- `CurrentSize` (queue.cpp:200-208). -/
def currentSize (q : BQ) : Nat :=
  (q.hd :: q.tl).foldl (fun size n => size + n.currentSize) 0 + q.lazyLen

/-- `IsEmpty` (queue.cpp:210-213); `m_head==m_tail` iff the chain has one node. -/
def isEmpty (q : BQ) : Bool := q.tl.isEmpty && q.hd.currentSize == 0 && q.lazyLen == 0

/-- `Clear` (queue.cpp:215-227). -/
def clear (q : BQ) : BQ := { q with hd := q.hd.clear, tl := [], lazyLen := 0 }

/-- `IsolatedInitialize` (queue.cpp:194-198) with the value of the "NodeSize" parameter (default 256). -/
def isolatedInitialize (q : BQ) (nodeSize : Nat) : BQ := ({ q with nodeSize := nodeSize }).clear

/-- The loop `do m_nodeSize *= 2; while (m_nodeSize < length && m_nodeSize < s_maxAutoNodeSize)`
(queue.cpp:242-246). Doubling zero never makes progress: with `m_nodeSize == 0` (and `length > 0`) the loop does
not end, which is the outcome `none`. -/
def grow (nodeSize length : Nat) : Option Nat :=
  if h0 : nodeSize = 0 then none
  else
    let n := nodeSize * 2
    if n < length ∧ n < maxAutoNodeSize then grow n length else some n
termination_by maxAutoNodeSize - nodeSize
decreasing_by omega

/-- The `while` loop of `Put2` (queue.cpp:236-251): fill the tail node; while bytes remain, grow the node size when
automatic, and append a node with room for at least the remaining length. -/
def putLoop (q : BQ) (bs : List Byte) : Except Err BQ :=
  let l := (q.tailNode.put bs).1
  let q' := q.setTail (q.tailNode.put bs).2
  if l < bs.length then
    let ns :=
      if q.autoNodeSize && q.nodeSize < maxAutoNodeSize then grow q.nodeSize (bs.length - l) else some q.nodeSize
    match ns with
    | none => .error .diverges
    | some ns =>
      putLoop ({ q' with nodeSize := ns }.appendNode (Node.new (max ns (bs.length - l)))) (bs.drop l)
  else .ok q'
termination_by 2 * bs.length + (if q.tailNode.tail < q.tailNode.maxSize then 0 else 1)
decreasing_by
  rename_i hlt _
  have hlast : ∀ (p : BQ) (n : Node), (p.appendNode n).tailNode = n := by
    intro p n; simp only [tailNode, appendNode, ← List.cons_append, List.getLast_concat]
  have hl : (q.tailNode.put bs).1 =
      if bs.length = 0 then bs.length else min bs.length (q.tailNode.maxSize - q.tailNode.tail) := by
    simp only [Node.put]; split <;> rfl
  have hmax : ∀ k, (Node.new k).maxSize = k := fun k => by simp [Node.new, Node.maxSize]
  have htail : ∀ k, (Node.new k).tail = 0 := fun _ => rfl
  rw [hlast]
  simp only [l, hl, hmax, htail, List.length_drop] at hlt ⊢
  split at hlt
  · omega
  · rename_i h0
    simp only [h0, if_false]
    split <;> split <;> omega

/-- `FinalizeLazyPut` (queue.cpp:303-309). (`Put(m_lazyString, len)` calls `Put2`, which finds `m_lazyLength == 0`.) -/
def finalizeLazyPut (q : BQ) : Except Err BQ :=
  let len := q.lazyLen
  let q := { q with lazyLen := 0 }
  if len ≠ 0 then q.putLoop (q.lazyStr.take len) else .ok q

/-- `Put2` (queue.cpp:229-254). -/
def put (q : BQ) (bs : List Byte) : Except Err BQ := do
  let q ← if q.lazyLen > 0 then q.finalizeLazyPut else .ok q
  q.putLoop bs

/-- `CleanupUsedNodes` (queue.cpp:256-269): drop leading used-up nodes except the last node, then reset an
empty head node. -/
def cleanup (q : BQ) : BQ :=
  let rec go (hd : Node) (tl : List Node) : Node × List Node :=
    match tl with
    | [] => (hd, [])
    | n :: tl' => if hd.usedUp then go n tl' else (hd, n :: tl')
  let r := go q.hd q.tl
  let hd := if r.1.currentSize == 0 then r.1.clear else r.1
  { q with hd := hd, tl := r.2 }

/-- `LazyPut` (queue.cpp:271-284) of a string that does not lie at the tail node's write position. -/
def lazyPut (q : BQ) (bs : List Byte) : Except Err BQ := do
  let q ← if q.lazyLen > 0 then q.finalizeLazyPut else .ok q
  .ok { q with lazyStr := bs, lazyLen := bs.length }

/-- `LazyPutModifiable` (queue.cpp:286-293). -/
def lazyPutModifiable (q : BQ) (bs : List Byte) : Except Err BQ := do
  let q ← if q.lazyLen > 0 then q.finalizeLazyPut else .ok q
  .ok { q with lazyStr := bs, lazyLen := bs.length }

/-- `UndoLazyPut` (queue.cpp:295-301). -/
def undoLazyPut (q : BQ) (size : Nat) : Except Err BQ :=
  if q.lazyLen < size then .error .invalidArgument else .ok { q with lazyLen := q.lazyLen - size }

/-- `Get(byte &)` (queue.cpp:311-327). -/
def get1 (q : BQ) : Option Byte × BQ :=
  match q.hd.get1 with
  | (some b, hd) =>
    let q := { q with hd := hd }
    (some b, if hd.usedUp then q.cleanup else q)
  | (none, _) =>
    if q.lazyLen > 0 then
      (q.lazyStr[0]?, { q with lazyStr := q.lazyStr.drop 1, lazyLen := q.lazyLen - 1 })
    else (none, q)

/-- `Peek(byte &)` (queue.cpp:335-346). -/
def peek1 (q : BQ) : Option Byte :=
  match q.hd.peek1 with
  | some b => some b
  | none => if q.lazyLen > 0 then q.lazyStr[0]? else none

/-- The `for` loop of the blocking `TransferTo2` (queue.cpp:361-363): bytes output, `bytesLeft`, nodes after. -/
def transferNodes : Nat → List Node → List Byte × Nat × List Node
  | bytesLeft, [] => ([], bytesLeft, [])
  | bytesLeft, n :: ns =>
    if bytesLeft = 0 then ([], 0, n :: ns)
    else
      let (out, n') := n.transferTo bytesLeft
      let (outs, left, ns') := transferNodes (bytesLeft - out.length) ns
      (out ++ outs, left, n' :: ns')

/-- `TransferTo2` with `blocking = true` (queue.cpp:354-379): the bytes given to the target and the queue after.
The returned `transferBytes` is the number of bytes output. -/
def transferTo (q : BQ) (transferBytes : Nat) : List Byte × BQ :=
  match transferNodes transferBytes (q.hd :: q.tl) with
  | (out, bytesLeft, hd :: tl) =>
    let q := { q with hd := hd, tl := tl }.cleanup
    let len := min bytesLeft q.lazyLen
    if len ≠ 0 then
      (out ++ q.lazyStr.take len, { q with lazyStr := q.lazyStr.drop len, lazyLen := q.lazyLen - len })
    else (out, q)
  | (out, _, []) => (out, q)   -- not reachable: the loop keeps every node

/-- `Get(byte *, size_t)` (queue.cpp:329-333): `TransferTo` into an `ArraySink` of capacity `getMax`. -/
def getN (q : BQ) (getMax : Nat) : List Byte × BQ := q.transferTo getMax

/-- `BufferedTransformation::Skip` (cryptlib.cpp:574-582): `TransferTo(TheBitBucket(), skipMax)`. -/
def skip (q : BQ) (skipMax : Nat) : Nat × BQ :=
  let (out, q') := q.transferTo skipMax
  (out.length, q')

/-- `Unget(const byte *, size_t)` (queue.cpp:405-422). -/
def unget (q : BQ) (bs : List Byte) : BQ :=
  let len := min bs.length q.hd.head
  let length := bs.length - len
  let h := q.hd.head - len
  let hd := { q.hd with buf := q.hd.buf.take h ++ bs.drop length ++ q.hd.buf.drop (h + len), head := h }
  let q := { q with hd := hd }
  if length > 0 then
    { q with hd := ((Node.new length).put (bs.take length)).2, tl := q.hd :: q.tl }
  else q

/-- `Spy` (queue.cpp:424-434): the contiguous bytes the returned pointer and size denote. -/
def spy (q : BQ) : List Byte :=
  let contiguousSize := q.hd.tail - q.hd.head
  if contiguousSize == 0 && q.lazyLen > 0 then q.lazyStr.take q.lazyLen
  else q.hd.bytes contiguousSize

/-- `CreatePutSpace` (queue.cpp:436-454): the size of the space offered (at `m_tail->m_buf + m_tail->m_tail`). -/
def createPutSpace (q : BQ) (size : Nat) : Except Err (Nat × BQ) := do
  let q ← if q.lazyLen > 0 then q.finalizeLazyPut else .ok q
  let q := if q.tailNode.tail == q.tailNode.maxSize then q.appendNode (Node.new (max q.nodeSize size)) else q
  .ok (q.tailNode.maxSize - q.tailNode.tail, q)

/-- `CreatePutSpace(size)`, the caller writes `bs` into the space, then `Put(space, bs.length)`: the documented use.
Writing more bytes than offered is undefined behaviour. The pointer passed to `Put2` equals `m_buf+m_tail`, so the
in-place path of `ByteQueueNode::Put` is taken; it takes all bytes since they fit. -/
def putViaSpace (q : BQ) (size : Nat) (bs : List Byte) : Except Err BQ := do
  let (offered, q) ← q.createPutSpace size
  if bs.length ≤ offered then
    .ok (q.setTail ((q.tailNode.writeSpace bs).putInPlace bs.length).2)
  else .error .undefinedBehaviour

/-- `operator[]` (queue.cpp:480-492); `none` is an out-of-bounds read. -/
def index (q : BQ) (i : Nat) : Option Byte :=
  let rec go : List Node → Nat → Option Byte
    | [], i => if i < q.lazyLen then q.lazyStr[i]? else none
    | n :: ns, i => if i < n.currentSize then n.at? i else go ns (i - n.currentSize)
  go (q.hd :: q.tl) i

/-- `CopyFrom` (queue.cpp:162-178) into a queue whose fields are overwritten: copies the chain, then `Put`s the
pending lazy string. Used by the copy constructor (queue.cpp:156-160) and by `operator=` (queue.cpp:456-461;
for distinct objects: self-assignment would first destroy the nodes it then copies). -/
def copyFrom (src : BQ) (oldLazyStr : List Byte) : Except Err BQ :=
  put ⟨src.hd, src.tl, oldLazyStr, 0, src.nodeSize, src.autoNodeSize⟩ (src.lazyStr.take src.lazyLen)

/-! ### Walker (queue.h:164-196, queue.cpp:507-597) -/

/-- `ByteQueue::Walker`'s fields: the remaining chain from `m_node` (empty when it is null), position and offset,
and its own lazy cursor. -/
structure Walker where
  nodes : List Node
  position : Nat
  offset : Nat
  lazyStr : List Byte
  lazyLen : Nat
deriving DecidableEq, Repr

/-- `Walker(queue)` / `IsolatedInitialize` (queue.cpp:507-516). -/
def walker (q : BQ) : Walker := ⟨q.hd :: q.tl, 0, 0, q.lazyStr, q.lazyLen⟩

/-- A `BufferedTransformation` target as seen by a transfer: `put2 t bytes` returns the number of blocked bytes
(0 when the bytes were accepted) and the target's next state. -/
structure Target (τ : Type) where
  put2 : τ → List Byte → Nat × τ

/-- `Walker::TransferTo2` (queue.cpp:542-586). Returns blocked bytes, the number of bytes transferred, the walker and
the target. The recursion is the `while (m_node)` loop. -/
def Walker.transferTo2 {τ : Type} (tg : Target τ) (w : Walker) (t : τ) (bytesLeft transferBytes : Nat) :
    Nat × Nat × Walker × τ :=
  match w with
  | ⟨n :: ns, pos, off, ls, ll⟩ =>
    let len := min bytesLeft (n.currentSize - off)
    let (blocked, t') := tg.put2 t ((n.buf.drop (n.head + off)).take len)
    if blocked ≠ 0 then (blocked, transferBytes - bytesLeft, ⟨n :: ns, pos, off, ls, ll⟩, t')
    else
      let bytesLeft := bytesLeft - len
      if bytesLeft = 0 then (0, transferBytes - bytesLeft, ⟨n :: ns, pos + len, off + len, ls, ll⟩, t')
      else transferTo2 tg ⟨ns, pos + len, 0, ls, ll⟩ t' bytesLeft transferBytes
  | ⟨[], pos, off, ls, ll⟩ =>
    if bytesLeft ≠ 0 ∧ ll ≠ 0 then
      let len := min bytesLeft ll
      let (blocked, t') := tg.put2 t (ls.take len)
      if blocked ≠ 0 then (blocked, transferBytes - bytesLeft, ⟨[], pos, off, ls, ll⟩, t')
      else (0, transferBytes - (bytesLeft - len), ⟨[], pos, off, ls.drop len, ll - len⟩, t')
    else (0, transferBytes - bytesLeft, ⟨[], pos, off, ls, ll⟩, t)
termination_by w.nodes.length

/-- A target that never blocks and records what it is given (`StringSink`, `TheBitBucket`, an `ArraySink` with room). -/
def recorder : Target (List Byte) := ⟨fun t bs => (0, t ++ bs)⟩

/-- `Walker::Get(byte *, n)` / `TransferTo(sink, n)` with a sink that has room (queue.cpp:518-528). -/
def Walker.get (w : Walker) (n : Nat) : List Byte × Walker :=
  let r := w.transferTo2 recorder [] n n
  (r.2.2.2, r.2.2.1)

/-- `Walker::MaxRetrievable` (queue.h:175-176). -/
def Walker.maxRetrievable (q : BQ) (w : Walker) : Nat := q.currentSize - w.position

/-- `CopyRangeTo2` (queue.cpp:389-398): blocked bytes, the new value of `begin`, the target.
`end - begin` is an unsigned 64-bit subtraction. -/
def copyRangeTo2 {τ : Type} (tg : Target τ) (q : BQ) (t : τ) (begin end_ : Nat) : Nat × Nat × τ :=
  let w := (q.walker.get begin).2
  let transferBytes := (end_ + 2 ^ 64 - begin) % 2 ^ 64
  let (blocked, moved, _, t') := w.transferTo2 tg t transferBytes transferBytes
  (blocked, begin + moved, t')

/-- `TransferTo2` with `blocking = false` (queue.cpp:380-386): walk, then skip what was transferred. -/
def transferTo2NonBlocking {τ : Type} (tg : Target τ) (q : BQ) (t : τ) (transferBytes : Nat) : Nat × Nat × BQ × τ :=
  let (blocked, moved, _, t') := q.walker.transferTo2 tg t transferBytes transferBytes
  (blocked, moved, (q.skip moved).2, t')

/-- The comparison loop of `operator==` (queue.cpp:473-475). `fuel` bounds the iterations; the walkers are
exhausted after at most `CurrentSize` steps. -/
def eqLoop : Nat → Walker → Walker → Bool
  | 0, _, _ => true
  | fuel + 1, w1, w2 =>
    match w1.get 1 with
    | (b1 :: _, w1') =>
      match w2.get 1 with
      | (b2 :: _, w2') => if b1 ≠ b2 then false else eqLoop fuel w1' w2'
      | ([], _) => true
    | ([], _) => true

/-- `operator==` (queue.cpp:463-478). -/
def eq (q r : BQ) : Bool :=
  if q.currentSize ≠ r.currentSize then false
  else eqLoop (q.currentSize + 1) q.walker r.walker

end BQ
end Verif.Queue
