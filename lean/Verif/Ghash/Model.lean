import Verif.Words
import Verif.Mem
import Verif.Common

/-!
# GHASH by tables (gcm.cpp)

`GCM_Base::SetKeyWithoutResync` and `GCM_Base::AuthenticateBlocks` without assembly and intrinsics, for both table sizes and both byte orders of the machine.
A table is a map from the number of a 16-byte entry to its bytes. `Xor16` (gcm.cpp:55-62) is exclusive or of bytes.
-/
namespace Verif.Ghash

/-- A table written. -/
def setT {α : Type} (t : Nat → α) (i : Nat) (b : α) : Nat → α := fun j => if j = i then b else t j

/-- One step of the loop over bits (gcm.cpp:192-194, 249-251). -/
def shiftKey (v : Nat × Nat) : Nat × Nat :=
  let x := v.2 &&& 1
  ((v.1 >>> 1) ^^^ (if x ≠ 0 then 0xe1 <<< 56 else 0), (v.2 >>> 1) ||| (v.1 <<< 63 % 2 ^ 64))

/-- `Block::Put` of `V0` and `V1`, most significant byte first. -/
def putBlock (v : Nat × Nat) : List Byte := beBytes 8 v.1 ++ beBytes 8 v.2

/-- The loop over bits: entry `pos i`, if there is one, gets the key shifted `i` times; `n` rounds from `i`. -/
def bitLoop (pos : Nat → Option Nat) : Nat → Nat → Nat × Nat → (Nat → List Byte) → (Nat → List Byte)
  | 0, _, _, t => t
  | n + 1, i, v, t =>
    let t := match pos i with
      | some p => setT t p (putBlock v)
      | none => t
    bitLoop pos n (i + 1) (shiftKey v) t

/-- `mulTable+(i/8)*256*16+(1<<(11-k))` with `k = i%8`, as the number of an entry (gcm.cpp:187-190). -/
def pos64 (i : Nat) : Option Nat := some ((i / 8) * 256 + 2 ^ (11 - i % 8) / 16)

/-- The same for the small table (gcm.cpp:241-247). -/
def pos2 (i : Nat) : Option Nat :=
  let k := i % 32
  if k < 4 then some (64 + (i / 32) * 16 + 2 ^ (7 - k) / 16)
  else if k < 8 then some ((i / 32) * 16 + 2 ^ (11 - k) / 16)
  else none

section
variable {α : Type} (op : α → α → α)

/-- Entry `j+k` is the sum of `j` and `k`, at each of the bases (gcm.cpp:219-221, 287-291). -/
def xorAt (j k : Nat) : List Nat → (Nat → α) → (Nat → α)
  | [], t => t
  | b :: bs, t => xorAt j k bs (setT t (b + (j + k)) (op (t (b + j)) (t (b + k))))

/-- `for (k=1; k<j; k++)`: `n` rounds from `k`. -/
def xorRow (bases : List Nat) (j : Nat) : Nat → Nat → (Nat → α) → (Nat → α)
  | 0, _, t => t
  | n + 1, k, t => xorRow bases j n (k + 1) (xorAt op j k bases t)

/-- `for (j=2; j<=...; j*=2)`: `n` rounds from `j`. -/
def xorRows (bases : List Nat) : Nat → Nat → (Nat → α) → (Nat → α)
  | 0, _, t => t
  | n + 1, j, t => xorRows bases n (j * 2) (xorRow op bases j (j - 1) 1 t)
end

/-- The entries 0 of the bases are cleared (gcm.cpp:199, 256-257). -/
def clear : List Nat → (Nat → List Byte) → (Nat → List Byte)
  | [], t => t
  | b :: bs, t => clear bs (setT t b (List.replicate 16 0))

/-- The loop over parts of the table (gcm.cpp:197-222, 254-290): `n` parts from `i`; `m` powers of 2. -/
def parts (bases : Nat → List Nat) (m : Nat) : Nat → Nat → (Nat → List Byte) → (Nat → List Byte)
  | 0, _, t => t
  | n + 1, i, t => parts bases m n (i + 1) (xorRows xorBytes (bases i) m 2 (clear (bases i) t))

/-- The multiplication table for the hash key, in 64 KB or 2 KB (gcm.cpp:179-292). `t` is what the memory held. -/
def mulTable (large : Bool) (hashKey : List Byte) (t : Nat → List Byte) : Nat → List Byte :=
  let v := (beVal (hashKey.take 8), beVal (hashKey.drop 8))
  if large then parts (fun i => [i * 256]) 7 16 0 (bitLoop pos64 128 0 v t)
  else parts (fun i => [i * 16, 64 + i * 16]) 3 4 0 (bitLoop pos2 (128 - 24) 0 v t)

/-- `ByteReverse` of a `word16`. -/
def reverse16 (x : Nat) : Nat := leVal (beBytes 2 x)

/-- The loop that makes `s_reductionTable` (gcm.cpp:231-237): `n` rounds. -/
def reductionLoop : Nat → Nat → Nat → (Nat → Nat) → (Nat → Nat)
  | 0, _, _, t => t
  | n + 1, ii, x, t =>
    let x := x <<< 1 % 2 ^ 16
    let t := setT t ii (reverse16 x)
    let t := xorRow (· ^^^ ·) [0] ii (ii - 1) 1 t
    reductionLoop n (ii * 2) x t

/-- `s_reductionTable` (gcm.cpp:226-239). -/
def reductionTable (t : Nat → Nat) : Nat → Nat :=
  let t := setT t 0 0
  let t := setT t 1 (reverse16 0x01c2)
  reductionLoop 7 2 0x01c2 t

/-- `*(word64 *)(void *)(mulTable + off)` for a multiple of 8 -/
def readWord (o : ByteOrder) (t : Nat → List Byte) (off : Nat) : Nat := o.val (((t (off / 16)).drop (off % 16)).take 8)

/-- The part of the offset that comes from nibble `d+8*b` of a word, in the two byte orders (gcm.cpp:445, 450). -/
def nibble (o : ByteOrder) (x b d : Nat) : Nat :=
  match o with
  | .little => if d + 8 * b ≠ 0 then (x >>> ((d + 8 * b - 1) * 4)) &&& 0xf0 else (x &&& 0xf) <<< 4
  | .big => if 15 - d - 8 * b ≠ 0 then (x >>> ((15 - d - 8 * b - 1) * 4)) &&& 0xf0 else (x &&& 0xf) <<< 4

/-- `READ_TABLE_WORD64(a, b, c, d, e)` for the 2 KB table, with `x` for `x##a` (gcm.cpp:435-450). -/
def read2 (o : ByteOrder) (t : Nat → List Byte) (x b c d e : Nat) : Nat :=
  readWord o t ((match o with | .little => d % 2 | .big => 1 - d % 2) * 1024 + c * 256 + nibble o x b d + e * 8)

/-- `GF_MOST_SIG_8BITS` (gcm.cpp:447, 451). -/
def most8 (o : ByteOrder) (a : Nat × Nat) : Nat :=
  match o with
  | .little => a.2 >>> (7 * 8)
  | .big => a.2 &&& 0xff

/-- `GF_SHIFT_8` (gcm.cpp:448, 452). -/
def shift8 (o : ByteOrder) (a : Nat × Nat) : Nat × Nat :=
  match o with
  | .little => (a.1 <<< 8 % 2 ^ 64, (a.2 <<< 8 % 2 ^ 64) ^^^ (a.1 >>> (7 * 8)))
  | .big => (a.1 >>> 8, (a.2 >>> 8) ^^^ (a.1 <<< (7 * 8) % 2 ^ 64))

/-- Exclusive or of two pairs of words. -/
def xor2 (a b : Nat × Nat) : Nat × Nat := (a.1 ^^^ b.1, a.2 ^^^ b.2)

/-- A line pair of `GF_MUL_32BY128`: nibbles `d` and `d+1` (gcm.cpp:455-463). -/
def mulPair (o : ByteOrder) (t : Nat → List Byte) (x b c d : Nat) : Nat × Nat :=
  (read2 o t x b c d 0 ^^^ read2 o t x b c (d + 1) 0, read2 o t x b c d 1 ^^^ read2 o t x b c (d + 1) 1)

/-- `GF_MUL_32BY128` four times (gcm.cpp:465-468), for one of the accumulators. -/
def mul32 (o : ByteOrder) (t : Nat → List Byte) (x : Nat × Nat) (d : Nat) : Nat × Nat :=
  xor2 (xor2 (xor2 (mulPair o t x.1 0 0 d) (mulPair o t x.1 1 1 d)) (mulPair o t x.2 0 2 d)) (mulPair o t x.2 1 3 d)

/-- The body of the loop for 2 KB (gcm.cpp:425-480), after the input has been added. -/
def step2 (o : ByteOrder) (t : Nat → List Byte) (red : Nat → Nat) (x : Nat × Nat) : Nat × Nat :=
  let a := mul32 o t x 0
  let b := mul32 o t x 2
  let c := mul32 o t x 4
  let d := mul32 o t x 6
  let r := red (most8 o d) <<< 16 % 2 ^ 32
  let d := shift8 o d
  let c := xor2 c d
  let r := r ^^^ (red (most8 o c) <<< 8 % 2 ^ 32)
  let c := shift8 o c
  let b := xor2 b c
  let r := r ^^^ red (most8 o b)
  let b := shift8 o b
  let a := xor2 a b
  (a.1 ^^^ o.val (leBytes 8 r), a.2)

/-- The part of the offset that comes from a byte of a word (gcm.cpp:516, 519); `m` is `d+4*(c%2)`. -/
def byteOff (o : ByteOrder) (x m : Nat) : Nat :=
  match o with
  | .little => if m ≠ 0 then (x >>> (m * 8 - 4)) &&& 0xff0 else (x &&& 0xff) <<< 4
  | .big => if 7 - m ≠ 0 then (x >>> ((7 - m) * 8 - 4)) &&& 0xff0 else (x &&& 0xff) <<< 4

/-- `GF_MUL_8BY128` (gcm.cpp:522-524), with `x` for `x##b`. -/
def mul8 (o : ByteOrder) (t : Nat → List Byte) (x c d : Nat) : Nat × Nat :=
  let off := byteOff o x (d + 4 * (c % 2))
  (readWord o t ((c * 4 + d) * 256 * 16 + off + 0 * 8), readWord o t ((c * 4 + d) * 256 * 16 + off + 1 * 8))

/-- The body of the loop for 64 KB (gcm.cpp:526-543), after the input has been added. -/
def step64 (o : ByteOrder) (t : Nat → List Byte) (x : Nat × Nat) : Nat × Nat :=
  [(x.1, 0, 0), (x.1, 0, 1), (x.1, 0, 2), (x.1, 0, 3), (x.1, 1, 0), (x.1, 1, 1), (x.1, 1, 2), (x.1, 1, 3), (x.2, 2, 0), (x.2, 2, 1), (x.2, 2, 2), (x.2, 2, 3), (x.2, 3, 0), (x.2, 3, 1), (x.2, 3, 2), (x.2, 3, 3)].foldl
    (fun a p => xor2 a (mul8 o t p.1 p.2.1 p.2.2)) (0, 0)

/-- Two words in the machine's order. -/
def getWords (o : ByteOrder) (b : List Byte) : Nat × Nat := (o.val (b.take 8), o.val ((b.drop 8).take 8))
def putWords (o : ByteOrder) (x : Nat × Nat) : List Byte := o.bytes 8 x.1 ++ o.bytes 8 x.2

/-- The loop of `AuthenticateBlocks` (gcm.cpp:420-486, 489-549): `n` rounds. -/
def blockLoop (o : ByteOrder) (step : Nat × Nat → Nat × Nat) : Nat → Nat × Nat → List Byte → Nat × Nat
  | 0, x, _ => x
  | n + 1, x, data => blockLoop o step n (step (xor2 x (getWords o data))) (data.drop 16)

/-- `AuthenticateBlocks` (gcm.cpp:389-549): the new hash buffer, and how many bytes are left. The `do` loop takes the first block before it looks at the length: with fewer bytes it reads past the input. -/
def authenticateBlocks (o : ByteOrder) (large : Bool) (t : Nat → List Byte) (red : Nat → Nat) (hash data : List Byte) : Except Err (List Byte × Nat) :=
  if data.length < 16 then .error .undefinedBehaviour
  else .ok (putWords o (blockLoop o (if large then step64 o t else step2 o t red) (data.length / 16) (getWords o hash) data), data.length % 16)

end Verif.Ghash
