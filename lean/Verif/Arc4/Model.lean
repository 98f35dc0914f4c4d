import Verif.Common

/-!
# ARC4 and MARC4 (arc4.h, arc4.cpp)

Buffers are lists: `ProcessData` writes to the input buffer or to a disjoint one, and its two loops (arc4.cpp:82-96) then give the same bytes.
-/
namespace Verif.Arc4

/-- `ARC4_Base` (arc4.h:43-44). -/
structure State where
  x : Byte
  y : Byte
  s : List Byte
deriving DecidableEq

/-- `m_state[i]`; the index is a byte or was masked with `0xff`. -/
def at' (s : List Byte) (i : Byte) : Byte := s.getD i.toNat 0

/-- `MakeByte` (arc4.cpp:55-65). -/
def makeByte (st : State) : State × Byte :=
  let a := at' st.s st.x
  let y := st.y + a
  let b := at' st.s y
  let s := (st.s.set st.x.toNat b).set y.toNat a
  (⟨st.x + 1, y, s⟩, at' s (a + b))

/-- The loop of `GenerateBlock` (arc4.cpp:67-71). -/
def generateBlock : State → Nat → State × List Byte
  | st, 0 => (st, [])
  | st, n + 1 =>
    let (st, k) := makeByte st
    let (st, out) := generateBlock st n
    (st, k :: out)

/-- The loops of `ProcessData` (arc4.cpp:73-101). -/
def processData : State → List Byte → State × List Byte
  | st, [] => (st, [])
  | st, c :: cs =>
    let (st, k) := makeByte st
    let (st, out) := processData st cs
    (st, (c ^^^ k) :: out)

/-- `DiscardBytes` (arc4.cpp:103-120). -/
def discardBytes : State → Nat → State
  | st, 0 => st
  | st, n + 1 => discardBytes (makeByte st).1 n

/-- The loop over the key (arc4.cpp:39-48), with `n` rounds left, at `i`. -/
def keyLoop (key : List Byte) : Nat → Nat → Nat → Byte → List Byte → List Byte
  | 0, _, _, _, s => s
  | n + 1, i, keyIndex, stateIndex, s =>
    let a := s.getD i 0
    let stateIndex := stateIndex + (key.getD keyIndex 0 + a)
    let s := s.set i (at' s stateIndex)
    let s := s.set stateIndex.toNat a
    let keyIndex := if keyIndex + 1 ≥ key.length then 0 else keyIndex + 1
    keyLoop key n (i + 1) keyIndex stateIndex s

/-- `SetKey` (cryptlib.cpp:58-62) and `UncheckedSetKey` (arc4.cpp:28-52). `discard` is the `int` parameter `DiscardBytes`, `dflt` is 0 for ARC4 and 256 for MARC4 (arc4.h:41, 68); passing it as a `size_t` wraps. The keys have 1 to 256 bytes (arc4.h:22). -/
def setKey (dflt : Int) (key : List Byte) (discard : Option Int) : Except Err State :=
  if ¬ (1 ≤ key.length ∧ key.length ≤ 256) then .error .invalidArgument else
  let s := (List.range 256).map (BitVec.ofNat 8)
  let st : State := ⟨1, 0, keyLoop key 256 0 0 0 s⟩
  .ok (discardBytes st (((discard.getD dflt) % 2 ^ 64).toNat))

/-- The calls on a keyed object. -/
inductive Op where
  | process (x : List Byte)
  | generate (n : Nat)
  | discard (n : Nat)

/-- A sequence of calls and the bytes they return. -/
def run : State → List Op → List (List Byte)
  | _, [] => []
  | st, .process x :: ops => (processData st x).2 :: run (processData st x).1 ops
  | st, .generate n :: ops => (generateBlock st n).2 :: run (generateBlock st n).1 ops
  | st, .discard n :: ops => [] :: run (discardBytes st n) ops

end Verif.Arc4
