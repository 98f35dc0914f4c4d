import Verif.Words
import Verif.Hash.Obj

/-!
# Poly1305 (poly1305.h, poly1305.cpp)

Words are numbers below 2^32 or 2^64; every operation that can wrap carries the reduction the C++ type makes. Both classes (`Poly1305_Base<T>` and `Poly1305TLS_Base`)
have the same `Update`, `TruncatedFinal` and `Restart` (poly1305.cpp:237-294 and 338-391), apart from the flag `m_used`, which only assertions read.
-/
namespace Verif.Poly1305

/-- `m_h`: five words. -/
structure Acc where
  h0 : Nat
  h1 : Nat
  h2 : Nat
  h3 : Nat
  h4 : Nat
deriving DecidableEq

/-- `m_r` or `m_n`: four words. -/
structure Quad where
  w0 : Nat
  w1 : Nat
  w2 : Nat
  w3 : Nat
deriving DecidableEq

/-- Reduction of a `word32`. -/
def w32 (x : Nat) : Nat := x % 4294967296
/-- Reduction of a `word64`. -/
def w64 (x : Nat) : Nat := x % 18446744073709551616

/-- `CONSTANT_TIME_CARRY` (poly1305.cpp:34-37). -/
def carry (a b : Nat) : Nat :=
  let a := BitVec.ofNat 32 a
  let b := BitVec.ofNat 32 b
  ((a ^^^ ((a ^^^ b) ||| ((a - b) ^^^ b))) >>> 31).toNat

/-- `GetWord<word32>(false, LITTLE_ENDIAN_ORDER, input + i)` -/
def word (input : List Byte) (i : Nat) : Nat := leVal ((input.drop i).take 4)

/-- The body of the loop of `Poly1305_HashBlocks` (poly1305.cpp:58-107). -/
def hashBlock (h : Acc) (r : Quad) (input : List Byte) (padbit : Nat) : Acc :=
  let s1 := w32 (r.w1 + r.w1 / 4)
  let s2 := w32 (r.w2 + r.w2 / 4)
  let s3 := w32 (r.w3 + r.w3 / 4)
  let d0 := w64 (h.h0 + word input 0)
  let h0 := w32 d0
  let d1 := w64 (h.h1 + d0 / 4294967296 + word input 4)
  let h1 := w32 d1
  let d2 := w64 (h.h2 + d1 / 4294967296 + word input 8)
  let h2 := w32 d2
  let d3 := w64 (h.h3 + d2 / 4294967296 + word input 12)
  let h3 := w32 d3
  let h4 := w32 (h.h4 + (w32 (d3 / 4294967296) + padbit))
  let d0 := w64 (h0 * r.w0 + h1 * s3 + h2 * s2 + h3 * s1)
  let d1 := w64 (h0 * r.w1 + h1 * r.w0 + h2 * s3 + h3 * s2 + w32 (h4 * s1))
  let d2 := w64 (h0 * r.w2 + h1 * r.w1 + h2 * r.w0 + h3 * s3 + w32 (h4 * s2))
  let d3 := w64 (h0 * r.w3 + h1 * r.w2 + h2 * r.w1 + h3 * r.w0 + w32 (h4 * s3))
  let h4 := w32 (h4 * r.w0)
  let h0 := w32 d0
  let d1 := w64 (d1 + d0 / 4294967296)
  let h1 := w32 d1
  let d2 := w64 (d2 + d1 / 4294967296)
  let h2 := w32 d2
  let d3 := w64 (d3 + d2 / 4294967296)
  let h3 := w32 d3
  let h4 := w32 (h4 + w32 (d3 / 4294967296))
  let c := w32 (h4 / 4 + (h4 &&& 4294967292))
  let h4 := h4 &&& 3
  let h0 := w32 (h0 + c)
  let c := carry h0 c
  let h1 := w32 (h1 + c)
  let c := carry h1 c
  let h2 := w32 (h2 + c)
  let c := carry h2 c
  let h3 := w32 (h3 + c)
  let h4 := w32 (h4 + carry h3 c)
  ⟨h0, h1, h2, h3, h4⟩

/-- `Poly1305_HashBlocks` (poly1305.cpp:39-111) on `n` blocks. -/
def hashBlocks (r : Quad) (padbit : Nat) : Nat → Acc → List Byte → Acc
  | 0, h, _ => h
  | n + 1, h, input => hashBlocks r padbit n (hashBlock h r (input.take 16) padbit) (input.drop 16)

/-- `Poly1305_HashFinal` (poly1305.cpp:113-167). -/
def hashFinal (h : Acc) (n : Quad) (size : Nat) : List Byte :=
  let t := w64 (h.h0 + 5)
  let g0 := w32 t
  let t := w64 (h.h1 + t / 4294967296)
  let g1 := w32 t
  let t := w64 (h.h2 + t / 4294967296)
  let g2 := w32 t
  let t := w64 (h.h3 + t / 4294967296)
  let g3 := w32 t
  let g4 := w32 (h.h4 + w32 (t / 4294967296))
  let mask := w32 (4294967296 - g4 / 4)
  let g0 := g0 &&& mask
  let g1 := g1 &&& mask
  let g2 := g2 &&& mask
  let g3 := g3 &&& mask
  let mask := 4294967295 - mask
  let h0 := (h.h0 &&& mask) ||| g0
  let h1 := (h.h1 &&& mask) ||| g1
  let h2 := (h.h2 &&& mask) ||| g2
  let h3 := (h.h3 &&& mask) ||| g3
  let t := w64 (h0 + n.w0)
  let h0 := w32 t
  let t := w64 (h1 + t / 4294967296 + n.w1)
  let h1 := w32 t
  let t := w64 (h2 + t / 4294967296 + n.w2)
  let h2 := w32 t
  let t := w64 (h3 + t / 4294967296 + n.w3)
  let h3 := w32 t
  (leBytes 4 h0 ++ leBytes 4 h1 ++ leBytes 4 h2 ++ leBytes 4 h3).take size

/-- An object of either class. -/
structure St where
  h : Acc
  r : Quad
  n : Quad
  acc : List Byte
  idx : Nat

/-- `memcpy` into `m_acc`. -/
def put (acc : List Byte) (i : Nat) (x : List Byte) : List Byte := acc.take i ++ x ++ acc.drop (i + x.length)

/-- `Update` (poly1305.cpp:237-276, 338-377). -/
def update (s : St) (input : List Byte) : St :=
  if input.length = 0 then s
  else
    let num := s.idx
    let rem := 16 - num
    if num ≠ 0 ∧ input.length < rem then { s with acc := put s.acc num input, idx := num + input.length }
    else
      let (s, input) := if num ≠ 0 then
          let acc := put s.acc num (input.take rem)
          ({ s with acc := acc, h := hashBlocks s.r 1 1 s.h acc }, input.drop rem)
        else (s, input)
      let rem := input.length % 16
      let length := input.length - rem
      let s := if length ≥ 16 then { s with h := hashBlocks s.r 1 (length / 16) s.h input } else s
      let input := input.drop length
      let s := if rem ≠ 0 then { s with acc := put s.acc 0 input } else s
      { s with idx := rem }

/-- `Restart` (poly1305.cpp:318-322, 393-397). -/
def restart (s : St) : St := { s with h := ⟨0, 0, 0, 0, 0⟩, idx := 0 }

/-- `TruncatedFinal` (poly1305.cpp:278-301, 379-401) with `ThrowIfInvalidTruncatedSize` (cryptlib.cpp:415-419). -/
def truncatedFinal (s : St) (size : Nat) : Except Err (St × List Byte) :=
  if size > 16 then .error .invalidArgument
  else
    let s := if s.idx ≠ 0 then
        let acc := put s.acc s.idx (1 :: List.replicate (16 - (s.idx + 1)) 0)
        { s with acc := acc, h := hashBlocks s.r 0 1 s.h acc }
      else s
    .ok (restart s, hashFinal s.h s.n size)

/-- The clamped half of the key (poly1305.cpp:209-213, 316-320). -/
def clampedKey (key : List Byte) : Quad :=
  ⟨word key 0 &&& 0x0fffffff, word key 4 &&& 0x0ffffffc, word key 8 &&& 0x0ffffffc, word key 12 &&& 0x0ffffffc⟩

/-- Four words. -/
def quad (b : List Byte) : Quad := ⟨word b 0, word b 4, word b 8, word b 12⟩

/-- `Poly1305TLS_Base::UncheckedSetKey` (poly1305.cpp:310-336): 32 bytes, `r` and then `s`. -/
def setKeyTLS (s : St) (key : List Byte) : St := restart { s with r := clampedKey key, n := quad (key.drop 16) }

/-- An object of `Poly1305_Base<T>`: the cipher with its key as well. -/
structure Base where
  E : List Byte → List Byte
  st : St

/-- `Poly1305_Base<T>::Resynchronize` (poly1305.cpp:296-310). -/
def resynchronize (b : Base) (nonce : List Byte) : Base := { b with st := { b.st with n := quad (b.E nonce) } }

/-- `Poly1305_Base<T>::UncheckedSetKey` (poly1305.cpp:197-235): the cipher's key, then `r`; the nonce if there is one. -/
def setKey (cipher : List Byte → List Byte → List Byte) (b : Base) (key : List Byte) (nonce : Option (List Byte)) : Base :=
  let length := key.length - 16
  let b : Base := ⟨cipher (key.take length), { b.st with r := clampedKey (key.drop length) }⟩
  let b := match nonce with
    | some iv => resynchronize b iv
    | none => b
  { b with st := restart b.st }

/-- As a `HashTransformation`. -/
def obj : Hash.Obj St where
  digestSize := 16
  blockSize := 16
  update := fun s x => .ok (update s x)
  restart := restart
  final := truncatedFinal

end Verif.Poly1305
