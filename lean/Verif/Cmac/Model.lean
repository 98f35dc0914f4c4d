import Verif.Modes.Apb
import Verif.Hash.Obj

/-!
# `CMAC_Base` (cmac.h, cmac.cpp) and `CBC_MAC_Base` (cbcmac.h, cbcmac.cpp)

The block cipher is any function on blocks of `b` bytes. Writing beyond the first block of `m_reg` is an error of its own here.
-/
namespace Verif.Cmac

open Verif.Modes (apb)

/-- The loop of `MulU` (cmac.cpp:17-24); the first argument is `i + 1`. -/
def mulLoop : Nat → List Byte → Byte → List Byte × Byte
  | n + 2, k, carry =>
    let carry2 := k.getD (n + 1) 0 >>> 7
    let k := k.set (n + 1) (k.getD (n + 1) 0 + (k.getD (n + 1) 0 + carry))
    let carry := k.getD n 0 >>> 7
    let k := k.set n (k.getD n 0 + (k.getD n 0 + carry2))
    mulLoop n k carry
  | _, k, carry => (k, carry)

/-- `k[i] ^= x` -/
def xorByte (k : List Byte) (i : Nat) (x : Byte) : List Byte := k.set i (k.getD i 0 ^^^ x)

/-- `MulU` (cmac.cpp:15-71), with `CRYPTOPP_CMAC_WIDE_BLOCK_CIPHERS`. -/
def mulU (k : List Byte) : List Byte :=
  let len := k.length
  let r := mulLoop len k 0
  if r.2 ≠ 0 then
    match len with
    | 8 => xorByte r.1 7 0x1b
    | 16 => xorByte r.1 15 0x87
    | 32 => xorByte (xorByte r.1 30 4) 31 0x25
    | 64 => xorByte (xorByte r.1 62 1) 63 0x25
    | 128 => xorByte (xorByte (xorByte r.1 125 8) 126 0) 127 0x43
    | _ => r.1
  else r.1

/-- The cipher, the three blocks of `m_reg`, and `m_counter`. -/
structure St where
  E : List Byte → List Byte
  acc : List Byte
  k1 : List Byte
  k2 : List Byte
  counter : Nat

/-- `CMAC_Base::UncheckedSetKey` (cmac.cpp:77-90), the cipher keyed. -/
def setKey (b : Nat) (E : List Byte → List Byte) : St :=
  let k1 := mulU (E (List.replicate b 0))
  { E := E, acc := List.replicate b 0, k1 := k1, k2 := mulU k1, counter := 0 }

/-- `xorbuf(m_reg + at, x, len)` -/
def xorAt (b : Nat) (acc : List Byte) (at_ : Nat) (x : List Byte) : Except Err (List Byte) :=
  if at_ + x.length > b then .error .undefinedBehaviour
  else .ok (acc.take at_ ++ xorBytes (acc.drop at_) x ++ acc.drop (at_ + x.length))

/-- `cipher.AdvancedProcessBlocks(m_reg, input, m_reg, len, BT_DontIncrementInOutPointers | BT_XorInput)`: `m_reg` is at address 0, the input at `b`. -/
def chainBlocks (E : List Byte → List Byte) (b : Nat) (acc input : List Byte) (len : Nat) : Except Err (List Byte) :=
  match apb E b (store (store (fun _ => 0) 0 acc) b input) 0 (some b) 0 len { dontIncrement := true, xorInput := true } with
  | .error e => .error e
  | .ok m => .ok (load m 0 b)

/-- `CMAC_Base::Update`, the data that completes a block (cmac.cpp:101-117): the object and the rest of the input. -/
def updateFirst (b : Nat) (s : St) (input : List Byte) : Except Err (St × List Byte) :=
  if s.counter > 0 then do
    let len := min (b - s.counter) input.length
    let acc ← xorAt b s.acc s.counter (input.take len)
    let s := { s with acc := acc, counter := s.counter + len }
    let input := input.drop len
    if s.counter = b ∧ input.length > 0 then .ok ({ s with acc := s.E s.acc, counter := 0 }, input) else .ok (s, input)
  else .ok (s, input)

/-- `CMAC_Base::Update`, all blocks but the last (cmac.cpp:119-125). -/
def updateBlocks (b : Nat) (s : St) (input : List Byte) : Except Err (St × List Byte) :=
  if input.length > b then do
    let acc ← chainBlocks s.E b s.acc input (input.length - 1)
    let leftOver := 1 + (input.length - 1) % b
    .ok ({ s with acc := acc }, input.drop (input.length - leftOver))
  else .ok (s, input)

/-- `CMAC_Base::Update`, the last block (cmac.cpp:127-132). -/
def updateLast (b : Nat) (s : St) (input : List Byte) : Except Err St :=
  if input.length > 0 then do
    let acc ← xorAt b s.acc s.counter input
    .ok { s with acc := acc, counter := s.counter + input.length }
  else .ok s

/-- `CMAC_Base::Update` (cmac.cpp:92-135). -/
def update (b : Nat) (s : St) (input : List Byte) : Except Err St :=
  if input.length = 0 then .ok s
  else do
    let (s, input) ← updateFirst b s input
    let (s, input) ← updateBlocks b s input
    updateLast b s input

/-- `CMAC_Base::TruncatedFinal` (cmac.cpp:137-159). -/
def truncatedFinal (b : Nat) (s : St) (size : Nat) : Except Err (St × List Byte) :=
  if size > b then .error .invalidArgument
  else do
    let acc ← (if s.counter < b then chainBlocks s.E b (xorByte s.acc s.counter 0x80) s.k2 b else chainBlocks s.E b s.acc s.k1 b)
    .ok ({ s with acc := List.replicate b 0, counter := 0 }, acc.take size)

/-- `HashTransformation::Restart` (cryptlib.h:1143-1144): `TruncatedFinal(NULLPTR, 0)`. -/
def restart (b : Nat) (s : St) : St :=
  match truncatedFinal b s 0 with
  | .ok (s, _) => s
  | .error _ => s

/-- `CMAC<T>` as a hash object. -/
def obj (b : Nat) : Hash.Obj St where
  digestSize := b
  blockSize := b
  update := update b
  restart := restart b
  final := truncatedFinal b

/-! ## CBC-MAC -/

/-- The cipher, `m_reg`, `m_counter`. -/
structure Cbc where
  E : List Byte → List Byte
  reg : List Byte
  counter : Nat

/-- `CBC_MAC_Base::UncheckedSetKey` (cbcmac.cpp:9-14). -/
def cbcSetKey (b : Nat) (E : List Byte → List Byte) : Cbc := { E := E, reg := List.replicate b 0, counter := 0 }

/-- `ProcessBuf` (cbcmac.cpp:53-57). -/
def processBuf (s : Cbc) : Cbc := { s with reg := s.E s.reg, counter := 0 }

/-- The body of both loops (cbcmac.cpp:22-24, 37-39). -/
def cbcByte (b : Nat) (s : Cbc) (x : Byte) : Cbc :=
  let s := { s with reg := xorByte s.reg s.counter x, counter := s.counter + 1 }
  if s.counter = b then processBuf s else s

/-- The first loop (cbcmac.cpp:20-26): `while (m_counter && length)`. -/
def cbcFirst (b : Nat) : Cbc → List Byte → Cbc × List Byte
  | s, [] => (s, [])
  | s, x :: xs => if s.counter ≠ 0 then cbcFirst b (cbcByte b s x) xs else (s, x :: xs)

/-- `CBC_MAC_Base::Update` (cbcmac.cpp:16-41). -/
def cbcUpdate (b : Nat) (s : Cbc) (input : List Byte) : Except Err Cbc := do
  let (s, input) := cbcFirst b s input
  let (s, input) ← (if input.length ≥ b then do
      let reg ← chainBlocks s.E b s.reg input input.length
      .ok ({ s with reg := reg }, input.drop (input.length - input.length % b))
    else .ok (s, input))
  .ok (input.foldl (cbcByte b) s)

/-- `CBC_MAC_Base::TruncatedFinal` (cbcmac.cpp:43-52). -/
def cbcFinal (b : Nat) (s : Cbc) (size : Nat) : Except Err (Cbc × List Byte) :=
  if size > b then .error .invalidArgument
  else
    let s := if s.counter ≠ 0 then processBuf s else s
    .ok ({ s with reg := List.replicate b 0 }, s.reg.take size)

/-- `CBC_MAC<T>` as a hash object; `Restart` is as above. -/
def cbcObj (b : Nat) : Hash.Obj Cbc where
  digestSize := b
  blockSize := b
  update := cbcUpdate b
  restart := fun s => match cbcFinal b s 0 with
    | .ok (s, _) => s
    | .error _ => s
  final := cbcFinal b

end Verif.Cmac
