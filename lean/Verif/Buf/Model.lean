import Verif.XorWords
import Verif.Modes.Apb

/-!
# Buffer utilities (misc.cpp:70-258, misc.h:1500-1560): model

Pointers are addresses in a flat memory. Words wider than a byte are read and written in the machine's byte order `o`; the vector
registers of the AVX, SSE2, NEON and PowerPC paths are words of 32 or 16 bytes.
-/
namespace Verif.Buf

/-- The arguments of `xorbuf`, as its loops advance them. -/
structure Args where
  mem : Mem
  out : Nat
  inp : Nat
  mask : Nat
  count : Nat

/-- One pass of `while (count >= w) {load, xor, store, advance}` (misc.cpp:79-131, 153-206). The fuel is `count`. -/
def strideLoop (o : ByteOrder) (w : Nat) : Nat → Args → Args
  | 0, a => a
  | f + 1, a =>
    if w ≤ a.count then
      let b := o.val (load a.mem a.inp w)
      let m := o.val (load a.mem a.mask w)
      strideLoop o w f ⟨store a.mem a.out (o.bytes w (b ^^^ m)), a.out + w, a.inp + w, a.mask + w, a.count - w⟩
    else a

/-- The last loop, `output[i] = input[i] ^ mask[i]` (misc.cpp:135-136, 210-211), from index `i` on, `n` bytes left. -/
def byteLoop (a : Args) : Nat → Nat → Mem → Mem
  | 0, _, m => m
  | n + 1, i, m => byteLoop a n (i + 1) (store m (a.out + i) [m (a.inp + i) ^^^ m (a.mask + i)])

/-- `xorbuf(output, input, mask, count)` (misc.cpp:144-212). `wide` lists the vector strides compiled in: `[32, 16]` with AVX and
SSE2, `[16]` with SSE2, NEON or PowerPC, `[]` otherwise. -/
def xorbuf3 (o : ByteOrder) (wide : List Nat) (m : Mem) (out inp mask count : Nat) : Mem :=
  let a := wide.foldl (fun a w => strideLoop o w a.count a) ⟨m, out, inp, mask, count⟩
  if a.count = 0 then a.mem
  else
    let a := strideLoop o 4 a.count a
    byteLoop a a.count 0 a.mem

/-- `xorbuf(buf, mask, count)` (misc.cpp:70-137): the same loops with `buf` as input and output. -/
def xorbuf2 (o : ByteOrder) (wide : List Nat) (m : Mem) (buf mask count : Nat) : Mem := xorbuf3 o wide m buf buf mask count

/-- The word loop of `VerifyBufsEqual` (misc.cpp:226-233, 240-247): accumulated differences, addresses and bytes left. -/
def verifyLoop (o : ByteOrder) (m : Mem) (w : Nat) : Nat → Nat → Nat → Nat → Nat → Nat × Nat × Nat × Nat
  | 0, buf, mask, count, acc => (acc, buf, mask, count)
  | f + 1, buf, mask, count, acc =>
    if w ≤ count then verifyLoop o m w f (buf + w) (mask + w) (count - w) (acc ||| (o.val (load m buf w) ^^^ o.val (load m mask w)))
    else (acc, buf, mask, count)

/-- Folding a 32-bit accumulator to a byte (misc.cpp:236-237, 250-251). -/
def fold8 (x : Nat) : Nat := x % 256 ||| x / 2 ^ 8 % 256 ||| x / 2 ^ 16 % 256 ||| x / 2 ^ 24 % 256

/-- The last loop (misc.cpp:254-255). -/
def verifyBytes (m : Mem) : Nat → Nat → Nat → Nat → Nat
  | 0, _, _, acc => acc
  | n + 1, buf, mask, acc => verifyBytes m n (buf + 1) (mask + 1) (acc ||| (m buf ^^^ m mask).toNat)

/-- `VerifyBufsEqual(buf, mask, count)` (misc.cpp:218-262); `wide`: the 64-bit code path. -/
def verifyBufsEqual (o : ByteOrder) (wide : Bool) (m : Mem) (buf mask count : Nat) : Bool :=
  if wide then
    let (acc64, buf, mask, count) := verifyLoop o m 8 count buf mask count 0
    let acc8 := (acc64 / 2 ^ 32 ||| acc64 % 2 ^ 32) % 2 ^ 32
    verifyBytes m count buf mask (fold8 acc8) == 0
  else
    let (acc32, buf, mask, count) := verifyLoop o m 4 count buf mask count 0
    verifyBytes m count buf mask (fold8 acc32) == 0

/-- `IncrementCounterByOne(inout, size)` (misc.h:1508-1519) in memory. -/
def incrementInPlace (m : Mem) (p size : Nat) : Mem := store m p (Modes.incrementCounterByOne size (load m p size))

/-- `ConditionalSwap(c, a, b)` (misc.h:1554-1560). -/
def conditionalSwap {w : Nat} (c : Bool) (a b : BitVec w) : BitVec w × BitVec w :=
  let t := (if c then 1#w else 0#w) * (a ^^^ b)
  (a ^^^ t, b ^^^ t)

end Verif.Buf
