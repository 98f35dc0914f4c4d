import Verif.Ida.Interp
import Verif.Gf.Model
import Verif.MQueue.Model
import Verif.Words

/-! # Secret sharing and information dispersal (ida.h, ida.cpp) -/
namespace Verif.Ida
open Verif.MQueue Verif.Gf

/-- `GF2_32` with its default modulus, `m_gf32` (ida.h:64; gf2_32.h:22). The inversion loops are given 64 rounds, which is enough
(`Verif.Gf.gf2_32_inverse`). -/
def gf32 (fastRotate : Bool) : RingOps W32 where
  zero := 0
  one := 1
  add := add32
  sub := add32
  mul := mul32 fastRotate 0x8D
  inv := inv32 64 0x8D

/-- What a target receives: the channel (`none` is the default channel) with a byte or a message end. -/
abbrev Ev := Option W32 × Tok

/-- Which class: `RawIDA`, `SecretRecovery`, `InformationRecovery`; the flag is `m_pad`. -/
inductive Kind where
  | raw
  | secret (pad : Bool)
  | info (pad : Bool)
deriving DecidableEq

/-- The parts that do not change while data is processed. `prop` is `GetAutoSignalPropagation() != 0`. `split` says in which pieces a
`ByteQueue` hands its content to a target (one per node). `m_threshold` is positive after `IsolatedInitialize` (ida.cpp:29-30). -/
structure Cfg where
  kind : Kind
  threshold : Nat
  prop : Bool
  split : List Byte → List (List Byte)

/-- The output side: `m_outputQueues` (used through the list contract of `ByteQueue`), `InformationRecovery::m_queue`, and
everything sent to the attached transformation. -/
structure Sink where
  outQ : List (List Byte)
  queue : List Byte
  out : List Ev
deriving DecidableEq

/-- `RawIDA` (ida.h:22-65). `m_inputChannelMap` holds the pairs of `inIds[i]` and `i`; looking up is finding the position in `inIds`.
`m_lastMapPosition` is a cache of the last lookup and is not modelled. -/
structure Ida where
  inIds : List W32
  inQ : List MQ
  w : List W32
  outIds : List W32
  outToIn : List Nat
  v : List (List W32)
  ready : Nat
  finished : Nat
  sink : Sink

/-! ## PaddingRemover -/

/-- `PaddingRemover` (ida.h:162-178): the state and what it has put out. -/
structure PR where
  possible : Bool
  zeros : Nat
  out : List Byte
deriving DecidableEq

def PR.init : PR := ⟨false, 0, []⟩

/-- The part of `PaddingRemover::Put2` after the first `if` (ida.cpp:400-408), on the bytes from `begin` to `end`. -/
def PR.tail (p : PR) (bs : List Byte) : PR :=
  let z := (bs.reverse.takeWhile (· == 0)).length
  let body := bs.take (bs.length - z)
  if body.getLast? = some 1 then ⟨true, z, p.out ++ body.dropLast⟩
  else { p with out := p.out ++ bs }

/-- `PaddingRemover::Put2` without a message end (ida.cpp:378-408). -/
def PR.put (p : PR) (bs : List Byte) : PR :=
  if p.possible then
    let len := (bs.takeWhile (· == 0)).length
    let zeros := p.zeros + len
    match bs.drop len with
    | [] => { p with zeros := zeros }
    | b :: rest => PR.tail ⟨false, zeros, p.out ++ 1 :: List.replicate zeros 0 ++ [b]⟩ rest
  else PR.tail p bs

/-- What `TransferAllTo(paddingRemover)` makes the remover put out, the content coming in these pieces. -/
def removePadding (pieces : List (List Byte)) : List Byte := (pieces.foldl PR.put PR.init).out

/-! ## RawIDA -/

/-- `vector::resize`. -/
def resize {α : Type} (l : List α) (n : Nat) (d : α) : List α := l.take n ++ List.replicate (n - l.length) d

/-- `LookupInputChannel` (ida.cpp:84-91). -/
def Ida.lookup (cfg : Cfg) (s : Ida) (id : W32) : Nat := if id ∈ s.inIds then s.inIds.idxOf id else cfg.threshold

/-- `ComputeV` (ida.cpp:131-145). -/
def Ida.computeV (R : RingOps W32) (cfg : Cfg) (s : Ida) (i : Nat) : Ida :=
  let s := if s.v.length ≤ i then { s with v := resize s.v (i + 1) [], outToIn := resize s.outToIn (i + 1) 0 } else s
  let id := s.outIds.getD i 0
  let j := s.lookup cfg id
  let s := { s with outToIn := s.outToIn.set i j }
  if j = cfg.threshold ∧ i * cfg.threshold ≤ 1000 * 1000 then { s with v := s.v.set i (prepareAt R id s.inIds s.w) } else s

/-- The loop of `PrepareInterpolation` (ida.cpp:160-161), `n` outputs to go. -/
def Ida.computeAll (R : RingOps W32) (cfg : Cfg) : Nat → Ida → Ida
  | 0, s => s
  | n + 1, s => (Ida.computeAll R cfg n s).computeV R cfg n

/-- `PrepareInterpolation` (ida.cpp:156-162). -/
def Ida.prepareInterpolation (R : RingOps W32) (cfg : Cfg) (s : Ida) : Except Err Ida :=
  match prepare R s.inIds with
  | .error e => .error e
  | .ok w => .ok (({ s with w := w }).computeAll R cfg s.outIds.length)

/-- `InsertInputChannel` (ida.cpp:56-82). -/
def Ida.insert (R : RingOps W32) (cfg : Cfg) (s : Ida) (id : W32) : Except Err (Nat × Ida) :=
  if id ∈ s.inIds then .ok (s.inIds.idxOf id, s)
  else if s.inIds.length = cfg.threshold then .ok (cfg.threshold, s)
  else
    let i := s.inIds.length
    let s := { s with inQ := s.inQ ++ [MQ.init], inIds := s.inIds ++ [id] }
    if s.inIds.length = cfg.threshold then
      match s.prepareInterpolation R cfg with
      | .error e => .error e
      | .ok s => .ok (i, s)
    else .ok (i, s)

/-- `IsolatedInitialize` (ida.cpp:23-54) with the given output channels (`AddOutputChannel`, ida.cpp:147-154). -/
def Ida.init (outIds : List W32) : Ida :=
  ⟨[], [], [], outIds, [], [], 0, 0, ⟨outIds.map fun _ => [], [], []⟩⟩

/-- Four bytes as a word (cryptlib.cpp:790-792). -/
def word (bs : List Byte) : W32 := BitVec.ofNat 32 (beVal bs)

/-- `PutWord32` in big-endian order (cryptlib.cpp:746-760). -/
def wordBytes (x : W32) : List Byte := beBytes 4 x.toNat

/-- `GetWord32` (cryptlib.cpp:785-798, 822-825): up to four bytes, zeros for the missing ones. -/
def getWord32 (q : MQ) : W32 × MQ :=
  let bs := q.copyRange 0 4
  (word (bs ++ List.replicate (4 - bs.length) 0), (q.transferTo bs.length).2)

/-- The first inner loop of `ProcessInputQueues` (ida.cpp:171-180): the words, the new `m_channelsReady` and the queues. -/
def readRound (fin : Bool) : List MQ → List W32 × Nat × List MQ
  | [] => ([], 0, [])
  | q :: qs =>
    let r := getWord32 q
    let s := readRound fin qs
    let more := if fin then r.2.anyRetrievable else 0 < r.2.numberOfMessages || 4 ≤ r.2.maxRetrievable
    (r.1 :: s.1, (if more then 1 else 0) + s.2.1, r.2 :: s.2.2)

/-- The word for output `i` (ida.cpp:184-193). -/
def Ida.outWord (R : RingOps W32) (cfg : Cfg) (s : Ida) (y : List W32) (i : Nat) : W32 :=
  if s.outToIn.getD i 0 ≠ cfg.threshold then y.getD (s.outToIn.getD i 0) 0
  else if (s.v.getD i []).length = cfg.threshold then interpolateAt R y (s.v.getD i []) R.zero
  else interpolateAt R y (prepareAt R (s.outIds.getD i 0) s.inIds s.w) R.zero

/-- Append a word to every output queue (ida.cpp:182-194). -/
def Sink.column (k : Sink) (col : List W32) : Sink := { k with outQ := List.zipWith (fun q x => q ++ wordBytes x) k.outQ col }

/-- The main loop of `ProcessInputQueues` (ida.cpp:169-195). -/
def Ida.loop (R : RingOps W32) (cfg : Cfg) (fin : Bool) : Nat → Ida → Except Err Ida
  | 0, _ => .error .diverges
  | f + 1, s =>
    if (if fin then 0 < s.ready else s.ready = cfg.threshold) then
      let r := readRound fin s.inQ
      let col := (List.range s.outIds.length).map (s.outWord R cfg r.1)
      Ida.loop R cfg fin f { s with inQ := r.2.2, ready := r.2.1, sink := s.sink.column col }
    else .ok s

/-- The loop of `InformationRecovery::FlushOutputQueues` (ida.cpp:354-358): a byte from each output queue in turn while the first has any. -/
def interleave : Nat → List (List Byte) → List Byte × List (List Byte)
  | 0, qs => ([], qs)
  | f + 1, qs =>
    match qs with
    | [] => ([], [])
    | [] :: _ => ([], qs)
    | _ =>
      let r := interleave f (qs.map (·.drop 1))
      ((qs.map (·.take 1)).flatten ++ r.1, r.2)

/-- `FlushOutputQueues` (ida.cpp:225-229, 291-297, 352-364). `MaxRetrievable()-4` is unsigned: with fewer bytes it is huge and
everything is transferred. -/
def Sink.flush (cfg : Cfg) (outIds : List W32) (k : Sink) : Sink :=
  match cfg.kind with
  | .raw => { k with outQ := k.outQ.map fun _ => [],
                     out := k.out ++ (List.zipWith (fun id q => q.map fun b => (some id, some b)) outIds k.outQ).flatten }
  | .secret pad =>
    let q := k.outQ.headD []
    let n := if pad ∧ 4 ≤ q.length then q.length - 4 else q.length
    { k with outQ := k.outQ.set 0 (q.drop n), out := k.out ++ (q.take n).map fun b => (none, some b) }
  | .info pad =>
    let r := interleave (k.outQ.headD []).length k.outQ
    let q := k.queue ++ r.1
    let n := if pad ∧ 4 * cfg.threshold ≤ q.length then q.length - 4 * cfg.threshold else q.length
    { k with outQ := r.2, queue := q.drop n, out := k.out ++ (q.take n).map fun b => (none, some b) }

/-- `OutputMessageEnds` (ida.cpp:231-238, 299-309, 366-376). -/
def Sink.ends (cfg : Cfg) (outIds : List W32) (k : Sink) : Sink :=
  match cfg.kind with
  | .raw => if cfg.prop then { k with out := k.out ++ outIds.map fun id => (some id, none) } else k
  | .secret pad =>
    let k := if pad then { k with outQ := k.outQ.set 0 [], out := k.out ++ (removePadding (cfg.split (k.outQ.headD []))).map fun b => (none, some b) } else k
    if cfg.prop then { k with out := k.out ++ [(none, none)] } else k
  | .info pad =>
    let k := if pad then { k with queue := [], out := k.out ++ (removePadding (cfg.split k.queue)).map fun b => (none, some b) } else k
    if cfg.prop then { k with out := k.out ++ [(none, none)] } else k

/-- What `GetNextMessage` and `TransferAllTo` at the end of `ProcessInputQueues` (ida.cpp:217-221) send on the input channel: what the
queue holds beyond the message just processed. (By `Verif.MQueue.queue_history`, `TransferAllTo` sends everything in the queue.) -/
def leftover (id : W32) (q : MQ) : List Ev :=
  let q := q.getNextMessage.2
  let rec toks : List Nat → List Byte → List Tok
    | [], _ => []
    | [n], bs => (bs.take n).map some
    | n :: l, bs => (bs.take n).map some ++ none :: toks l (bs.drop n)
  (toks q.lengths q.content).map fun t => (some id, t)

/-- `ProcessInputQueues` (ida.cpp:164-223). The main loop removes at least a byte in every round. -/
def Ida.process (R : RingOps W32) (cfg : Cfg) (s : Ida) : Except Err Ida :=
  let fin := s.finished == cfg.threshold
  match s.loop R cfg fin ((s.inQ.map fun q => q.content.length).sum + 1) with
  | .error e => .error e
  | .ok s =>
    let s := if 0 < s.outIds.length ∧ s.sink.outQ.headD [] ≠ [] then { s with sink := s.sink.flush cfg s.outIds } else s
    if fin then
      let k := s.sink.ends cfg s.outIds
      .ok { s with ready := 0, finished := 0, v := [], inQ := [], inIds := [],
                   sink := { k with out := k.out ++ (List.zipWith leftover s.inIds s.inQ).flatten } }
    else .ok s

/-- `ChannelData` (ida.cpp:93-123). -/
def Ida.channelData (R : RingOps W32) (cfg : Cfg) (s : Ida) (id : W32) (bs : List Byte) (messageEnd : Bool) : Except Err Ida :=
  match s.insert R cfg id with
  | .error e => .error e
  | .ok (i, s) =>
    if i < cfg.threshold then
      let size := (s.inQ.getD i MQ.init).maxRetrievable
      let s := { s with inQ := s.inQ.modify i (·.put2 bs false) }
      match (if size < 4 ∧ 4 ≤ size + bs.length then
          let s := { s with ready := s.ready + 1 }
          if s.ready = cfg.threshold then s.process R cfg else .ok s
        else .ok s) with
      | .error e => .error e
      | .ok s =>
        if messageEnd then
          let s := { s with inQ := s.inQ.modify i (·.put2 [] true) }
          if (s.inQ.getD i MQ.init).numberOfMessages = 1 then
            let s := { s with finished := s.finished + 1 }
            if s.finished = cfg.threshold then
              ({ s with ready := (s.inQ.map fun q : MQ => if q.anyRetrievable then 1 else 0).sum }).process R cfg
            else .ok s
          else .ok s
        else .ok s
    else .ok s

/-- `InputBuffered` (ida.cpp:125-129). -/
def Ida.inputBuffered (cfg : Cfg) (s : Ida) (id : W32) : Nat :=
  let i := s.lookup cfg id
  if i < cfg.threshold then (s.inQ.getD i MQ.init).maxRetrievable else 0

/-- A call of `ChannelPut2`. -/
structure Call where
  id : W32
  bytes : List Byte
  last : Bool

/-- A history of calls. -/
def Ida.run (R : RingOps W32) (cfg : Cfg) (s : Ida) : List Call → Except Err Ida
  | [] => .ok s
  | c :: l =>
    match s.channelData R cfg c.id c.bytes c.last with
    | .error e => .error e
    | .ok s => Ida.run R cfg s l

/-! ## SecretSharing and InformationDispersal -/

/-- The random bytes (ida.cpp:259-263): channels `i ..< m`, `len` bytes each, from the generator's stream at position `pos`. -/
def randomCalls (rng : Nat → Byte) (len : Nat) : Nat → Nat → Nat → List Call
  | _, 0, _ => []
  | i, m + 1, pos => ⟨BitVec.ofNat 32 i, (List.range len).map fun j => rng (pos + j), false⟩ :: randomCalls rng len (i + 1) m (pos + len)

/-- The loop of `SecretSharing::Put2` (ida.cpp:253-267): the calls made on `m_ida`, for input in pieces of at most `size` bytes. -/
def shareCalls (rng : Nat → Byte) (t size : Nat) : Nat → List Byte → Nat → List Call × Nat
  | 0, _, pos => ([], pos)
  | f + 1, bs, pos =>
    if bs.length = 0 then ([], pos) else
      let len := min bs.length size
      let r := shareCalls rng t size f (bs.drop len) (pos + (t - 1) * len)
      (⟨0xffffffff, bs.take len, false⟩ :: randomCalls rng len 0 (t - 1) pos ++ r.1, r.2)

/-- `SecretSharing` (ida.h:71-90): the `RawIDA` and the position in the generator's stream. -/
structure Sharing where
  ida : Ida
  pos : Nat

/-- `SecretSharing::Put2` without a message end. -/
def Sharing.put (R : RingOps W32) (cfg : Cfg) (rng : Nat → Byte) (s : Sharing) (bs : List Byte) : Except Err Sharing :=
  let r := shareCalls rng cfg.threshold (min 256 bs.length) bs.length bs s.pos
  match s.ida.run R cfg r.1 with
  | .error e => .error e
  | .ok ida => .ok ⟨ida, r.2⟩

/-- ida.cpp:274-275 `while (m_ida.InputBuffered(0xffffffff) > 0) SecretSharing::Put(0)`. -/
def Sharing.padLoop (R : RingOps W32) (cfg : Cfg) (rng : Nat → Byte) : Nat → Sharing → Except Err Sharing
  | 0, _ => .error .diverges
  | f + 1, s => if 0 < s.ida.inputBuffered cfg 0xffffffff then
      match s.put R cfg rng [0] with
      | .error e => .error e
      | .ok s => Sharing.padLoop R cfg rng f s
    else .ok s

/-- The end of a message in `SecretSharing::Put2` (ida.cpp:269-280). `cfg.prop` is what `SetAutoSignalPropagation(messageEnd-1)`
makes of it. -/
def Sharing.messageEnd (R : RingOps W32) (cfg : Cfg) (rng : Nat → Byte) (fuel : Nat) (pad : Bool) (s : Sharing) : Except Err Sharing :=
  match (if pad then
      (match s.put R cfg rng [1] with
      | .error e => .error e
      | .ok s => s.padLoop R cfg rng fuel : Except Err Sharing)
    else .ok s) with
  | .error e => .error e
  | .ok s =>
    match s.ida.run R cfg (⟨0xffffffff, [], true⟩ :: (List.range (cfg.threshold - 1)).map fun i => ⟨BitVec.ofNat 32 i, [], true⟩) with
    | .error e => .error e
    | .ok ida => .ok { s with ida := ida }

/-- Input in pieces. -/
def Sharing.puts (R : RingOps W32) (cfg : Cfg) (rng : Nat → Byte) (s : Sharing) : List (List Byte) → Except Err Sharing
  | [] => .ok s
  | bs :: l =>
    match s.put R cfg rng bs with
    | .error e => .error e
    | .ok s => s.puts R cfg rng l

/-- A message: the input in pieces, then the end. -/
def Sharing.message (R : RingOps W32) (cfg : Cfg) (rng : Nat → Byte) (fuel : Nat) (pad : Bool) (pieces : List (List Byte)) (s : Sharing) : Except Err Sharing :=
  match s.puts R cfg rng pieces with
  | .error e => .error e
  | .ok s => s.messageEnd R cfg rng fuel pad

/-- The calls `InformationDispersal::Put2` makes (ida.cpp:325-333), starting at channel `next`, and the next channel. -/
def disperseCalls (t : Nat) : Nat → List Byte → List Call × Nat
  | next, [] => ([], next)
  | next, b :: bs =>
    let r := disperseCalls t (if next + 1 = t then 0 else next + 1) bs
    (⟨BitVec.ofNat 32 next, [b], false⟩ :: r.1, r.2)

/-- `InformationDispersal` (ida.h:119-138): the `RawIDA` and `m_nextChannel`. -/
structure Dispersal where
  ida : Ida
  next : Nat

/-- `InformationDispersal::Put2` without a message end (ida.cpp:320-333). -/
def Dispersal.put (R : RingOps W32) (cfg : Cfg) (s : Dispersal) (bs : List Byte) : Except Err Dispersal :=
  let r := disperseCalls cfg.threshold s.next bs
  match s.ida.run R cfg r.1 with
  | .error e => .error e
  | .ok ida => .ok ⟨ida, r.2⟩

/-- The end of a message (ida.cpp:334-341). -/
def Dispersal.messageEnd (R : RingOps W32) (cfg : Cfg) (pad : Bool) (s : Dispersal) : Except Err Dispersal :=
  match (if pad then s.put R cfg [1] else .ok s) with
  | .error e => .error e
  | .ok s =>
    match s.ida.run R cfg ((List.range cfg.threshold).map fun i => ⟨BitVec.ofNat 32 i, [], true⟩) with
    | .error e => .error e
    | .ok ida => .ok { s with ida := ida }

/-- Input in pieces. -/
def Dispersal.puts (R : RingOps W32) (cfg : Cfg) (s : Dispersal) : List (List Byte) → Except Err Dispersal
  | [] => .ok s
  | bs :: l =>
    match s.put R cfg bs with
    | .error e => .error e
    | .ok s => s.puts R cfg l

/-- A message: the input in pieces, then the end. -/
def Dispersal.message (R : RingOps W32) (cfg : Cfg) (pad : Bool) (pieces : List (List Byte)) (s : Dispersal) : Except Err Dispersal :=
  match s.puts R cfg pieces with
  | .error e => .error e
  | .ok s => s.messageEnd R cfg pad

end Verif.Ida
