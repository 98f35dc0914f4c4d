import Verif.Hash.Obj

/-!
# `HMAC_Base` (hmac.h, hmac.cpp)

Over any hash object. The buffer `m_buf` (`ipad`, `opad`, inner hash) is bytes; access outside it is undefined behaviour.
-/
namespace Verif.Hmac
open Verif.Hash

/-- `m_hash`, `m_buf`, `m_innerHashKeyed` (hmac.h:40-41). `m_buf` is empty before the first `SetKey`. -/
structure State (σ : Type) where
  hash : σ
  buf : List Byte
  keyed : Bool

variable {σ : Type} (O : Obj σ)

/-- `memcpy(m_buf + pos, x, x.length)` -/
def write (buf : List Byte) (pos : Nat) (x : List Byte) : Except Err (List Byte) :=
  if pos + x.length ≤ buf.length then .ok (buf.take pos ++ x ++ buf.drop (pos + x.length)) else .error .undefinedBehaviour

/-- `n` bytes of `m_buf` at `pos`. -/
def read (buf : List Byte) (pos n : Nat) : Except Err (List Byte) :=
  if pos + n ≤ buf.length then .ok ((buf.drop pos).take n) else .error .undefinedBehaviour

/-- `Restart` (hmac.cpp:55-62). -/
def restart (s : State σ) : State σ := if s.keyed then { s with hash := O.restart s.hash, keyed := false } else s

/-- The last loop of `UncheckedSetKey` (hmac.cpp:39-43), `i` from `n` up to the block size. -/
def padLoop : Nat → Nat → List Byte → Except Err (List Byte)
  | 0, _, buf => .ok buf
  | n + 1, i, buf => do
    let x ← read buf i 1
    let buf ← write buf (O.blockSize + i) (x.map (· ^^^ 0x5c))
    let buf ← write buf i (x.map (· ^^^ 0x36))
    padLoop n (i + 1) buf

/-- The key, or its hash, copied into `ipad` (hmac.cpp:24-34): hash object, buffer and `keylength`. -/
def copyKey (hash : σ) (buf : List Byte) (key : List Byte) : Except Err (σ × List Byte × Nat) :=
  if key.length ≤ O.blockSize then do
    let buf ← write buf 0 key
    .ok (hash, buf, key.length)
  else do
    let (hash, d) ← O.calculateDigest hash key
    let buf ← write buf 0 d
    .ok (hash, buf, O.digestSize)

/-- `UncheckedSetKey` (hmac.cpp:11-44). `fresh` is the content of `m_buf` after `resize`: old bytes and uninitialised ones. -/
def setKey (s : State σ) (fresh : List Byte) (key : List Byte) : Except Err (State σ) :=
  let s := restart O s
  if O.blockSize = 0 then .error .invalidArgument
  else do
    let (hash, buf, keylength) ← copyKey O s.hash (fresh.take (2 * O.blockSize + O.digestSize)) key
    if keylength > O.blockSize then .error .undefinedBehaviour
    else do
      let buf ← write buf keylength (List.replicate (O.blockSize - keylength) 0)
      let buf ← padLoop O O.blockSize 0 buf
      .ok { s with hash := hash, buf := buf }

/-- `KeyInnerHash` (hmac.cpp:46-52). -/
def keyInnerHash (s : State σ) : Except Err (State σ) := do
  let ipad ← read s.buf 0 O.blockSize
  let h ← O.update s.hash ipad
  .ok { s with hash := h, keyed := true }

/-- `if (!m_innerHashKeyed) KeyInnerHash();` -/
def ensureKeyed (s : State σ) : Except Err (State σ) := if s.keyed then .ok s else keyInnerHash O s

/-- `Update` (hmac.cpp:64-69). -/
def update (s : State σ) (input : List Byte) : Except Err (State σ) := do
  let s ← ensureKeyed O s
  let h ← O.update s.hash input
  .ok { s with hash := h }

/-- `TruncatedFinal` (hmac.cpp:71-87). -/
def truncatedFinal (s : State σ) (size : Nat) : Except Err (State σ × List Byte) :=
  if size > O.digestSize then .error .invalidArgument
  else do
    let s ← ensureKeyed O s
    let (h, inner) ← O.final s.hash O.digestSize
    let buf ← write s.buf (2 * O.blockSize) inner
    let opad ← read buf O.blockSize O.blockSize
    let h ← O.update h opad
    let inner ← read buf (2 * O.blockSize) O.digestSize
    let h ← O.update h inner
    let (h, mac) ← O.final h size
    .ok ({ hash := h, buf := buf, keyed := false }, mac)

/-- `TruncatedVerify` (cryptlib.cpp:406-413). -/
def truncatedVerify (s : State σ) (mac : List Byte) : Except Err (State σ × Bool) := do
  let (s, calculated) ← truncatedFinal O s mac.length
  .ok (s, calculated = mac)

end Verif.Hmac
