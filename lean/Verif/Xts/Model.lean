import Verif.Mem
import Verif.Words

/-!
# XTS mode (xts.h, xts.cpp)

The caller's buffers are in flat memory, so that in-place use is covered; the object's own buffers `m_xregister` (blocks `reg 0`, `reg 1`, …) and `m_xworkspace`
are its own. The block cipher is a function `E` on blocks of `s` bytes, in the direction of the object; the tweak cipher always encrypts. `P` is `ParallelBlocks`:
4, 8 or 12 (xts.h:152-156, xts.cpp:264-267). `w` is the size of the words of `GF_Double`: 16, 8 or 4, depending on the build (xts.cpp:94-121).
-/
namespace Verif.Xts

/-- The loop of `GF_Double` (xts.cpp:94-121): words of `w` bytes, least significant first. -/
def gfLoop (w : Nat) : Nat → Nat → List Byte → List Byte × Nat
  | 0, carry, _ => ([], carry)
  | n + 1, carry, inp =>
    let x := leVal (inp.take w)
    let y := x / 2 ^ (8 * w - 1)
    let x := (x * 2 % 2 ^ (8 * w) + carry) % 2 ^ (8 * w)
    let (r, c) := gfLoop w n y (inp.drop w)
    (leBytes w x ++ r, c)

/-- `k[i] ^= v` -/
def xorByteAt (k : List Byte) (i : Nat) (v : Byte) : List Byte := k.set i (k.getD i 0 ^^^ v)

/-- `GF_Double` (xts.cpp:92-182). Without `CRYPTOPP_XTS_WIDE_BLOCK_CIPHERS` only the first case is there. -/
def gfDouble (w len : Nat) (inp : List Byte) : List Byte :=
  let (k, carry) := gfLoop w (len / w) 0 inp
  if carry ≠ 0 then
    if len = 16 then xorByteAt k (16 - 1 - 15) 0x87
    else if len = 32 then xorByteAt (xorByteAt k (32 - 1 - 30) 4) (32 - 1 - 31) 0x25
    else if len = 64 then xorByteAt (xorByteAt k (64 - 1 - 62) 1) (64 - 1 - 63) 0x25
    else if len = 128 then xorByteAt (xorByteAt (xorByteAt k (128 - 1 - 125) 8) (128 - 1 - 126) 0) (128 - 1 - 127) 0x43
    else k
  else k

/-- `ThrowIfInvalidBlockSize` (xts.cpp:193-205). -/
def validBlockSize (wide : Bool) (s : Nat) : Bool := if wide then s == 16 || s == 32 || s == 64 || s == 128 else s == 16

/-- Block `i` of the register is written. -/
def setReg (r : Nat → List Byte) (i : Nat) (b : List Byte) : Nat → List Byte := fun j => if j = i then b else r j

section
variable (E : List Byte → List Byte) (w s P : Nat)

/-- `GF_Double(m_xregister+1*blockSize, m_xregister+0*blockSize, blockSize)` and so on, `n` of them (xts.cpp:279-296, 321-323, 345). -/
def spread : Nat → (Nat → List Byte) → (Nat → List Byte)
  | 0, r => r
  | n + 1, r =>
    let r := spread n r
    setReg r (n + 1) (gfDouble w s (r n))

/-- `AdvancedProcessBlocks(m_xworkspace, m_xregister, outString, …)` without flags that matter (cryptlib.cpp:141-191): blocks `i`, `i + 1`, … -/
def processBlocks (r : Nat → List Byte) : Nat → Nat → List Byte → Mem → Nat → Mem
  | 0, _, _, m, _ => m
  | n + 1, i, ws, m, outP => processBlocks r n (i + 1) (ws.drop s) (store m outP (xorBytes (E (ws.take s)) (r i))) (outP + s)

/-- `m_xregister` as bytes. -/
def regBytes (r : Nat → List Byte) (n : Nat) : List Byte := ((List.range n).map r).flatten

/-- The body of the loops that take several blocks (xts.cpp:276-315, 319-338, 342-359): `c` blocks, after `d` doublings. -/
def parStep (d c : Nat) (m : Mem) (r : Nat → List Byte) (outP inP : Nat) : Mem × (Nat → List Byte) :=
  let r := spread w s d r
  let ws := xorBytes (load m inP (c * s)) (regBytes r c)
  let m := processBlocks E s r c 0 ws m outP
  (m, setReg r 0 (gfDouble w s (r (c - 1))))

/-- `n` rounds of such a loop. -/
def parLoop (d c : Nat) : Nat → Mem → (Nat → List Byte) → Nat → Nat → Mem × (Nat → List Byte)
  | 0, m, r, _, _ => (m, r)
  | n + 1, m, r, outP, inP =>
    let (m, r) := parStep E w s d c m r outP inP
    parLoop d c n m r (outP + c * s) (inP + c * s)

/-- The body of the loop over single blocks (xts.cpp:363-374). -/
def oneStep (m : Mem) (r : Nat → List Byte) (outP inP : Nat) : Mem × (Nat → List Byte) :=
  let ws := xorBytes (load m inP s) (r 0)
  let ws := E ws
  let m := store m outP (xorBytes ws (r 0))
  (m, setReg r 0 (gfDouble w s (r 0)))

/-- `n` rounds of it. -/
def oneLoop : Nat → Mem → (Nat → List Byte) → Nat → Nat → Mem × (Nat → List Byte)
  | 0, m, r, _, _ => (m, r)
  | n + 1, m, r, outP, inP =>
    let (m, r) := oneStep E w s m r outP inP
    oneLoop n m r (outP + s) (inP + s)

/-- How many doublings before a full set of `ParallelBlocks` (xts.cpp:279-296). -/
def doublings : Nat := 3 + (if P > 4 then 4 else 0) + (if P > 8 then 4 else 0)

/-- `XTS_ModeBase::ProcessData` (xts.cpp:263-379). If the length is not a multiple of the block size the last loop goes below zero and on through memory. -/
def processData (m : Mem) (r : Nat → List Byte) (outP inP length : Nat) : Except Err (Mem × (Nat → List Byte)) :=
  let n := length / (P * s)
  let (m, r) := parLoop E w s (doublings P) P n m r outP inP
  let outP := outP + n * (P * s)
  let inP := inP + n * (P * s)
  let length := length % (P * s)
  let n := if P = 12 then length / (4 * s) else 0
  let (m, r) := parLoop E w s 3 4 n m r outP inP
  let outP := outP + n * (4 * s)
  let inP := inP + n * (4 * s)
  let length := length - n * (4 * s)
  let n := if P = 8 then length / (2 * s) else 0
  let (m, r) := parLoop E w s 1 2 n m r outP inP
  let outP := outP + n * (2 * s)
  let inP := inP + n * (2 * s)
  let length := length - n * (2 * s)
  if length % s ≠ 0 then .error .undefinedBehaviour
  else .ok (oneLoop E w s (length / s) m r outP inP)

/-- `memcpy` within the caller's memory. -/
def copy (m : Mem) (dst src n : Nat) : Mem := store m dst (load m src n)

/-- `ProcessLastPlainBlock` from "handle the full block" on (xts.cpp:415-453). -/
def lastPlainTail (m : Mem) (r : Nat → List Byte) (outP inP inLength : Nat) : Mem × (Nat → List Byte) :=
  let (m, r) := oneStep E w s m r outP inP
  let inP := inP + s
  let outP := outP + s
  let len := inLength - s
  let ws := load m inP len
  let m := copy m outP (outP - s) len
  let ws := ws ++ load m (outP - s + len) (s - len)
  let ws := xorBytes ws (r 0)
  let ws := E ws
  (store m (outP - s) (xorBytes ws (r 0)), r)

/-- `ProcessLastPlainBlock` (xts.cpp:395-456): memory, register, bytes written. -/
def processLastPlain (m : Mem) (r : Nat → List Byte) (outP inP inLength : Nat) : Except Err (Mem × (Nat → List Byte) × Nat) :=
  let blocks := inLength / s
  let tail := inLength % s
  let outLength := inLength
  if tail = 0 then do
    let (m, r) ← processData E w s P m r outP inP inLength
    .ok (m, r, inLength)
  else if blocks > 1 then do
    let head := (blocks - 1) * s
    let (m, r) ← processData E w s P m r outP inP (inLength - head)
    let (m, r) := lastPlainTail E w s m r (outP + head) (inP + head) (inLength - head)
    .ok (m, r, outLength)
  else
    let (m, r) := lastPlainTail E w s m r outP inP inLength
    .ok (m, r, outLength)

/-- `ProcessLastCipherBlock` from the second tweak on (xts.cpp:483-524). -/
def lastCipherTail (m : Mem) (r : Nat → List Byte) (outP inP inLength : Nat) : Mem × (Nat → List Byte) :=
  let r := setReg r 1 (gfDouble w s (r 0))
  let inP := inP + s
  let outP := outP + s
  let len := inLength - s
  let ws := xorBytes (load m (inP - s) s) (r 1)
  let ws := E ws
  let ws := xorBytes ws (r 1)
  let m := copy m (outP - s) inP len
  let m := store m outP (ws.take len)
  let m := store m (outP - s + len) ((ws.drop len).take (s - len))
  let outP := outP - s
  let ws := xorBytes (load m outP s) (r 0)
  let ws := E ws
  (store m outP (xorBytes ws (r 0)), r)

/-- `ProcessLastCipherBlock` (xts.cpp:458-527). -/
def processLastCipher (m : Mem) (r : Nat → List Byte) (outP inP inLength : Nat) : Except Err (Mem × (Nat → List Byte) × Nat) :=
  let blocks := inLength / s
  let tail := inLength % s
  let outLength := inLength
  if tail = 0 then do
    let (m, r) ← processData E w s P m r outP inP inLength
    .ok (m, r, inLength)
  else if blocks > 1 then do
    let head := (blocks - 1) * s
    let (m, r) ← processData E w s P m r outP inP (inLength - head)
    let (m, r) := lastCipherTail E w s m r (outP + head) (inP + head) (inLength - head)
    .ok (m, r, outLength)
  else
    let (m, r) := lastCipherTail E w s m r outP inP inLength
    .ok (m, r, outLength)

/-- `ProcessLastBlock` (xts.cpp:381-393). -/
def processLast (forward : Bool) (m : Mem) (r : Nat → List Byte) (outP inP inLength : Nat) : Except Err (Mem × (Nat → List Byte) × Nat) :=
  if inLength < s then .error .invalidArgument
  else if forward then processLastPlain E w s P m r outP inP inLength
  else processLastCipher E w s P m r outP inP inLength

/-- `Resynchronize(iv, ivLength)` (xts.cpp:230-235) with `ThrowIfInvalidIVLength` (cryptlib.cpp:92-105) and `BlockOrientedCipherModeBase::Resynchronize` (modes.h:260-261);
the IV has the size of a block. The default `ivLength` of -1 is taken as a size by `memcpy`. -/
def resynchronize (T : List Byte → List Byte) (r : Nat → List Byte) (iv : List Byte) (ivLength : Int) : Except Err (Nat → List Byte) :=
  if 0 ≤ ivLength ∧ ivLength ≠ s then .error .invalidArgument
  else if ivLength < 0 then .error .undefinedBehaviour
  else .ok (setReg r 0 (T (iv.take s)))

/-- `Resynchronize(sector, order)` (xts.cpp:237-246). -/
def resynchronizeSector (T : List Byte → List Byte) (r : Nat → List Byte) (sector : Nat) (order : ByteOrder) : Nat → List Byte :=
  setReg r 0 (T (order.bytes 8 sector ++ List.replicate (s - 8) 0))
end

end Verif.Xts
