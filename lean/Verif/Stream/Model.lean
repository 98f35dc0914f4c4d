import Verif.Mem

/-!
# `AdditiveCipherTemplate` (strciphr.h, strciphr.cpp)

Over any keystream policy. Output is returned as a value: the code combines input and keystream byte by byte in increasing
order, so it may run in place. Lengths are natural numbers.
-/
namespace Verif.Stream

/-- `AdditiveCipherAbstractPolicy` (strciphr.h:88-210): state `π`, initialisation vectors `ι`. -/
structure Policy (π ι : Type) where
  /-- `GetBytesPerIteration` -/
  bpi : Nat
  /-- `GetIterationsToBuffer` -/
  iters : Nat
  /-- `CanOperateKeystream` -/
  canOperate : Bool
  /-- `WriteKeystream` -/
  write : π → Nat → π × List Byte
  /-- `OperateKeystream` with an input -/
  operate : π → List Byte → Nat → π × List Byte
  /-- `SeekToIteration` -/
  seek : π → Nat → Except Err π
  /-- `CipherResynchronize` -/
  resync : π → ι → π

/-- The policy object, `m_buffer`, `m_leftOver`. -/
structure State (π : Type) where
  pol : π
  buf : List Byte
  leftOver : Nat

/-- `RoundUpToMultipleOf` (misc.h:1189-1196); overflow is not modelled. -/
def roundUp (n m : Nat) : Nat := (n + m - 1) - (n + m - 1) % m

variable {π ι : Type} (P : Policy π ι)

/-- `GetBufferByteSize` (strciphr.h:355). -/
def bufferByteSize : Nat := P.bpi * P.iters

/-- `UncheckedSetKey` (strciphr.cpp:17-32) after `CipherSetKey` gave `p`; `junk` is the new buffer's content. -/
def setKey (p : π) (iv : ι) (junk : Mem) : State π :=
  let size := if P.canOperate then bufferByteSize P else roundUp 1024 (bufferByteSize P)
  ⟨P.resync p iv, load junk 0 size, 0⟩

/-- `Resynchronize` (strciphr.cpp:140-146). -/
def resynchronize (s : State π) (iv : ι) (junk : Mem) : State π := ⟨P.resync s.pol iv, load junk 0 (bufferByteSize P), 0⟩

/-- `n` bytes at `KeystreamBufferEnd() - m`. -/
def readEnd (buf : List Byte) (m n : Nat) : Except Err (List Byte) :=
  if m ≤ buf.length ∧ n ≤ m then .ok ((buf.drop (buf.length - m)).take n) else .error .undefinedBehaviour

/-- `policy.WriteKeystream(KeystreamBufferEnd() - size, iterations)` -/
def writeEnd (s : State π) (size iterations : Nat) : Except Err (State π) :=
  let (p, ks) := P.write s.pol iterations
  if size ≤ s.buf.length ∧ ks.length ≤ size then
    .ok { s with pol := p, buf := s.buf.take (s.buf.length - size) ++ ks ++ s.buf.drop (s.buf.length - size + ks.length) }
  else .error .undefinedBehaviour

/-- The last part of `GenerateBlock` and `ProcessData` (strciphr.cpp:56-64, 125-134): `length` bytes of keystream. -/
def lastPart (s : State π) (length : Nat) : Except Err (State π × List Byte) :=
  if length > 0 then do
    let size := roundUp length P.bpi
    let s ← writeEnd P s size (size / P.bpi)
    let ks ← readEnd s.buf size length
    .ok ({ s with leftOver := size - length }, ks)
  else .ok (s, [])

/-- `GenerateBlock` (strciphr.cpp:34-66). -/
def generateBlock (s : State π) (length : Nat) : Except Err (State π × List Byte) := do
  let len := if s.leftOver > 0 then min s.leftOver length else 0
  let out1 ← readEnd s.buf s.leftOver len
  let s := { s with leftOver := s.leftOver - len }
  let length := length - len
  if length = 0 then .ok (s, out1)
  else do
    let iterations := if length ≥ P.bpi then length / P.bpi else 0
    let (p, out2) := if length ≥ P.bpi then P.write s.pol iterations else (s.pol, [])
    let (s, out3) ← lastPart P { s with pol := p } (length - iterations * P.bpi)
    .ok (s, out1 ++ out2 ++ out3)

/-- `while (length >= bufferByteSize)` (strciphr.cpp:113-122). -/
def bufferLoop : Nat → State π → List Byte → Except Err (State π × List Byte × List Byte)
  | 0, _, _ => .error .diverges
  | fuel + 1, s, input =>
    if input.length ≥ s.buf.length then do
      let s' ← writeEnd P s s.buf.length (s.buf.length / P.bpi)
      let (s'', out, rest) ← bufferLoop fuel s' (input.drop s.buf.length)
      .ok (s'', xorBytes (input.take s.buf.length) s'.buf ++ out, rest)
    else .ok (s, [], input)

/-- The part of `ProcessData` that uses `OperateKeystream` (strciphr.cpp:94-106). -/
def operatePart (s : State π) (input : List Byte) : State π × List Byte × List Byte :=
  if P.canOperate ∧ input.length ≥ P.bpi then
    let iterations := input.length / P.bpi
    let (p, out) := P.operate s.pol (input.take (iterations * P.bpi)) iterations
    ({ s with pol := p }, out, input.drop (iterations * P.bpi))
  else (s, [], input)

/-- `ProcessData` (strciphr.cpp:68-138). -/
def processData (s : State π) (input : List Byte) : Except Err (State π × List Byte) := do
  let len := if s.leftOver > 0 then min s.leftOver input.length else 0
  let ks ← readEnd s.buf s.leftOver len
  let out1 := xorBytes (input.take len) ks
  let s := { s with leftOver := s.leftOver - len }
  let input := input.drop len
  if input.length = 0 then .ok (s, out1)
  else do
    let (s, out2, input) := operatePart P s input
    let (s, out3, input) ← bufferLoop P (input.length + 1) s input
    let (s, ks) ← lastPart P s input.length
    .ok (s, out1 ++ out2 ++ out3 ++ xorBytes input ks)

/-- `Seek` (strciphr.cpp:148-164). -/
def seek (s : State π) (position : Nat) : Except Err (State π) := do
  let p ← P.seek s.pol (position / P.bpi)
  let position := position % P.bpi
  if position > 0 then do
    let s ← writeEnd P { s with pol := p } P.bpi 1
    .ok { s with leftOver := P.bpi - position }
  else .ok { s with pol := p, leftOver := 0 }

end Verif.Stream
