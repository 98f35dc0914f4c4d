import Verif.Flate.Bits

/-!
# Model of `LowFirstBitWriter` (zdeflate.cpp) and `LowFirstBitReader` (zinflate.cpp)

`unsigned long` is taken to have 32 bits, the smallest size it may have; with more, fewer bits could be lost, and the
proofs show that none are.
-/
namespace Verif.Flate

/-- `LowFirstBitWriter`.  `pend` is `m_outputBuffer[0 .. m_bytesBuffered)`, `out` what the attached transformation has
received. -/
structure Writer where
  counting : Bool := false
  count : Nat := 0
  buf : Nat := 0
  bits : Nat := 0
  pend : List Byte := []
  out : List Byte := []
deriving DecidableEq, Repr, Inhabited

/-- zdeflate.cpp:54-64, one turn of the loop. -/
def Writer.drain1 (w : Writer) : Writer :=
  let pend := w.pend ++ [BitVec.ofNat 8 w.buf]
  if pend.length = 256 then { w with out := w.out ++ pend, pend := [], buf := w.buf >>> 8, bits := w.bits - 8 }
  else { w with pend := pend, buf := w.buf >>> 8, bits := w.bits - 8 }

/-- zdeflate.cpp:54 `while (m_bitsBuffered >= 8)`; the loop turns at most `k` times. -/
def Writer.drain : Nat → Writer → Writer
  | 0, w => w
  | k + 1, w => if 8 ≤ w.bits then Writer.drain k w.drain1 else w

/-- zdeflate.cpp:44 `PutBits(value, length)` -/
def Writer.putBits (w : Writer) (value length : Nat) : Writer :=
  if w.counting then { w with count := w.count + length }
  else Writer.drain (w.bits + length) { w with buf := w.buf ||| ((value <<< w.bits) % 2 ^ 32), bits := w.bits + length }

/-- zdeflate.cpp:68 `FlushBitBuffer` -/
def Writer.flush (w : Writer) : Writer :=
  if w.counting then { w with count := w.count + 8 * (if w.bits > 0 then 1 else 0) }
  else
    let w := if w.pend.length > 0 then { w with out := w.out ++ w.pend, pend := [] } else w
    if w.bits > 0 then { w with out := w.out ++ [BitVec.ofNat 8 w.buf], buf := 0, bits := 0 } else w

/-- `AttachedTransformation()->Put(...)`, past the buffer.  (In counting mode EncodeBlock is never asked for a stored
block, zdeflate.cpp:772-784.) -/
def Writer.putBytes (w : Writer) (l : List Byte) : Writer := { w with out := w.out ++ l }

/-- zdeflate.cpp:89 `ClearBitBuffer` -/
def Writer.clear (w : Writer) : Writer := { w with buf := 0, pend := [], bits := 0 }

/-- zdeflate.cpp:30 `StartCounting` -/
def Writer.startCounting (w : Writer) : Writer := { w with counting := true, count := 0 }

/-- zdeflate.cpp:37 `FinishCounting`: the count is in `count`. -/
def Writer.finishCounting (w : Writer) : Writer := { w with counting := false }

/-- `LowFirstBitReader` together with the queue it reads from. -/
structure Reader where
  buf : Nat := 0
  bits : Nat := 0
  queue : List Byte := []
deriving DecidableEq, Repr, Inhabited

/-- zinflate.cpp:25 `FillBuffer(length)`: the loop, over the bytes of the queue. -/
def fillLoop (length : Nat) : List Byte → Nat → Nat → Bool × Reader
  | [], buf, n => if n < length then (false, ⟨buf, n, []⟩) else (true, ⟨buf, n, []⟩)
  | b :: q, buf, n => if n < length then fillLoop length q (buf ||| ((b.toNat <<< n) % 2 ^ 32)) (n + 8) else (true, ⟨buf, n, b :: q⟩)

/-- zinflate.cpp:25 `FillBuffer(length)` -/
def Reader.fill (r : Reader) (length : Nat) : Bool × Reader := fillLoop length r.queue r.buf r.bits

/-- zinflate.cpp:46 `SkipBits(length)`; `unsigned int` wraps around. -/
def Reader.skip (r : Reader) (length : Nat) : Reader := { r with buf := r.buf >>> length, bits := (r.bits + 2 ^ 32 - length) % 2 ^ 32 }

/-- zinflate.cpp:53 `GetBits(length)`, with zinflate.cpp:39 `PeekBits`: whether or not there were enough bits. -/
def Reader.get (r : Reader) (length : Nat) : Nat × Reader :=
  ((r.fill length).2.buf &&& (2 ^ length - 1), (r.fill length).2.skip length)

end Verif.Flate
