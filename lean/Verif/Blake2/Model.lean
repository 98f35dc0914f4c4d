import Verif.Cipher.Rounds
import Verif.Hash.Obj

/-!
# BLAKE2b and BLAKE2s (blake2.h, blake2.cpp)

The portable C++ code. The two classes are written out twice in blake2.cpp with the same text but for the word size, the constants and the tables; here the text
is written once and `Alg` holds what differs. The words of `h` are kept in memory least significant byte first on every machine (`PutBlock` and
`ConditionalByteReverse` with `LITTLE_ENDIAN_ORDER`); `h` here is those words' values. Bytes of `m_buf` after `m_len` are not represented: nothing reads them before
they are written.
-/
namespace Verif.Blake2
open Verif.Cipher (rotr nth words unwords)

/-- What differs between the two classes: bytes of a word (`word64`, `word32`), rotations, `BLAKE2x_IV`, `BLAKE2x_SIGMA`. -/
structure Alg where
  k : Nat
  r1 : Nat
  r2 : Nat
  r3 : Nat
  r4 : Nat
  iv : List (BitVec (8 * k))
  sigma : List (List Nat)

abbrev Alg.Word (a : Alg) := BitVec (8 * a.k)

/-- `BLOCKSIZE` (blake2.h:36, 54): 64 and 128 -/
def Alg.block (a : Alg) : Nat := 16 * a.k
/-- `DIGESTSIZE`, also the greatest key length (blake2.h:26, 37, 44, 55): 32 and 64 -/
def Alg.digest (a : Alg) : Nat := 8 * a.k
/-- `SALTSIZE` and `PERSONALIZATIONSIZE` (blake2.h:38-39, 56-57): 8 and 16 -/
def Alg.salt (a : Alg) : Nat := 2 * a.k

/-- blake2.cpp:89-104 `BLAKE2S_SIGMA` -/
def sigmaS : List (List Nat) := [
  [ 0,  1,  2,  3,  4,  5,  6,  7,  8,  9, 10, 11, 12, 13, 14, 15],
  [14, 10,  4,  8,  9, 15, 13,  6,  1, 12,  0,  2, 11,  7,  5,  3],
  [11,  8, 12,  0,  5,  2, 15, 13, 10, 14,  3,  6,  7,  1,  9,  4],
  [ 7,  9,  3,  1, 13, 12, 11, 14,  2,  6,  5, 10,  4,  0, 15,  8],
  [ 9,  0,  5,  7,  2,  4, 10, 15, 14,  1, 11, 12,  6,  8,  3, 13],
  [ 2, 12,  6, 10,  0, 11,  8,  3,  4, 13,  7,  5, 15, 14,  1,  9],
  [12,  5,  1, 15, 14, 13,  4, 10,  0,  7,  6,  3,  9,  2,  8, 11],
  [13, 11,  7, 14, 12,  1,  3,  9,  5,  0, 15,  4,  8,  6,  2, 10],
  [ 6, 15, 14,  9, 11,  3,  0,  8, 12,  2, 13,  7,  1,  4, 10,  5],
  [10,  2,  8,  4,  7,  6,  1,  5, 15, 11,  9, 14,  3, 12, 13,  0]]

/-- blake2.cpp:106-120 `BLAKE2B_SIGMA` -/
def sigmaB : List (List Nat) := [
  [ 0,  1,  2,  3,  4,  5,  6,  7,  8,  9, 10, 11, 12, 13, 14, 15],
  [14, 10,  4,  8,  9, 15, 13,  6,  1, 12,  0,  2, 11,  7,  5,  3],
  [11,  8, 12,  0,  5,  2, 15, 13, 10, 14,  3,  6,  7,  1,  9,  4],
  [ 7,  9,  3,  1, 13, 12, 11, 14,  2,  6,  5, 10,  4,  0, 15,  8],
  [ 9,  0,  5,  7,  2,  4, 10, 15, 14,  1, 11, 12,  6,  8,  3, 13],
  [ 2, 12,  6, 10,  0, 11,  8,  3,  4, 13,  7,  5, 15, 14,  1,  9],
  [12,  5,  1, 15, 14, 13,  4, 10,  0,  7,  6,  3,  9,  2,  8, 11],
  [13, 11,  7, 14, 12,  1,  3,  9,  5,  0, 15,  4,  8,  6,  2, 10],
  [ 6, 15, 14,  9, 11,  3,  0,  8, 12,  2, 13,  7,  1,  4, 10,  5],
  [10,  2,  8,  4,  7,  6,  1,  5, 15, 11,  9, 14,  3, 12, 13,  0],
  [ 0,  1,  2,  3,  4,  5,  6,  7,  8,  9, 10, 11, 12, 13, 14, 15],
  [14, 10,  4,  8,  9, 15, 13,  6,  1, 12,  0,  2, 11,  7,  5,  3]]

/-- `BLAKE2s`: blake2.cpp:63-67, 150-163 -/
def blake2s : Alg where
  k := 4
  r1 := 16
  r2 := 12
  r3 := 8
  r4 := 7
  iv := [0x6A09E667, 0xBB67AE85, 0x3C6EF372, 0xA54FF53A, 0x510E527F, 0x9B05688C, 0x1F83D9AB, 0x5BE0CD19]
  sigma := sigmaS

/-- `BLAKE2b`: blake2.cpp:69-75, 122-133 -/
def blake2b : Alg where
  k := 8
  r1 := 32
  r2 := 24
  r3 := 16
  r4 := 63
  iv := [0x6a09e667f3bcc908, 0xbb67ae8584caa73b, 0x3c6ef372fe94f82b, 0xa54ff53a5f1d36f1,
    0x510e527fade682d1, 0x9b05688c2b3e6c1f, 0x1f83d9abfb41bd6b, 0x5be0cd19137e2179]
  sigma := sigmaB

/-! ## The compression function -/

/-- blake2.cpp:122-133, 150-161 `BLAKE2B_G`, `BLAKE2S_G` with the references `a`, `b`, `c`, `d` to entries of `v`; `n` is the template argument `N`. -/
def G (A : Alg) (row : List Nat) (m : List A.Word) (n : Nat) (a b c d : Nat) (v : List A.Word) : List A.Word :=
  let v := v.set a (nth v a + nth v b + nth m (row.getD (2 * n + 0) 0))
  let v := v.set d (rotr (nth v d ^^^ nth v a) A.r1)
  let v := v.set c (nth v c + nth v d)
  let v := v.set b (rotr (nth v b ^^^ nth v c) A.r2)
  let v := v.set a (nth v a + nth v b + nth m (row.getD (2 * n + 1) 0))
  let v := v.set d (rotr (nth v d ^^^ nth v a) A.r3)
  let v := v.set c (nth v c + nth v d)
  v.set b (rotr (nth v b ^^^ nth v c) A.r4)

/-- blake2.cpp:135-146, 163-174 `BLAKE2B_ROUND`, `BLAKE2S_ROUND`; `row` is the row of the template argument. -/
def round (A : Alg) (m : List A.Word) (v : List A.Word) (row : List Nat) : List A.Word :=
  let v := G A row m 0 0 4 8 12 v
  let v := G A row m 1 1 5 9 13 v
  let v := G A row m 2 2 6 10 14 v
  let v := G A row m 3 3 7 11 15 v
  let v := G A row m 4 0 5 10 15 v
  let v := G A row m 5 1 6 11 12 v
  let v := G A row m 6 2 7 8 13 v
  G A row m 7 3 4 9 14 v

/-- `BLAKE2x_State` (blake2.h:147-205): `m_hft` as `h`, `t`, `f`; the first `m_len` bytes of `m_buf`. -/
structure State (A : Alg) where
  h : List A.Word
  t0 : A.Word
  t1 : A.Word
  f0 : A.Word
  f1 : A.Word
  buf : List Byte
deriving DecidableEq

/-- blake2.cpp:721-796 `BLAKE2_Compress64_CXX`, `BLAKE2_Compress32_CXX`; the rounds are written one below the other, one for each row of the table. -/
def compress (A : Alg) (s : State A) (input : List Byte) : State A :=
  let m := words .little A.k input
  let v := s.h ++ [nth A.iv 0, nth A.iv 1, nth A.iv 2, nth A.iv 3, s.t0 ^^^ nth A.iv 4, s.t1 ^^^ nth A.iv 5, s.f0 ^^^ nth A.iv 6, s.f1 ^^^ nth A.iv 7]
  let v := A.sigma.foldl (round A m) v
  { s with h := (List.range 8).map fun i => nth s.h i ^^^ (nth v i ^^^ nth v (i + 8)) }

/-- blake2.cpp:659-671 `IncrementCounter` -/
def increment (A : Alg) (s : State A) (count : Nat) : State A :=
  let t0 := s.t0 + BitVec.ofNat (8 * A.k) count
  { s with t0 := t0, t1 := s.t1 + (if t0.toNat < count then 1 else 0) }

/-! ## The object -/

/-- The members of `BLAKE2x` that stay the same between two calls of `SetKey`: `m_block`, `m_key`, `m_digestSize`, `m_keyLength`, `m_treeMode`. -/
structure Config where
  block : List Byte
  key : List Byte
  digestSize : Nat
  keyLength : Nat
  treeMode : Bool

/-- blake2.cpp:556-561, 593-599: the loop over whole blocks; the bytes left are returned. The first argument bounds the number of rounds. -/
def blocks (A : Alg) : Nat → State A → List Byte → State A × List Byte
  | 0, s, x => (s, x)
  | n + 1, s, x => if x.length > A.block then blocks A n (compress A (increment A s A.block) (x.take A.block)) (x.drop A.block) else (s, x)

/-- blake2.cpp:533-609 `Update` -/
def update (A : Alg) (s : State A) (x : List Byte) : State A :=
  let (s, x) :=
    if x.length > A.block - s.buf.length then
      let (s, x) :=
        if s.buf.length ≠ 0 then
          let fill := A.block - s.buf.length
          ({ compress A (increment A s A.block) (s.buf ++ x.take fill) with buf := [] }, x.drop fill)
        else (s, x)
      blocks A x.length s x
    else (s, x)
  if x.length ≠ 0 then { s with buf := s.buf ++ x } else s

/-- blake2.cpp:463-531 `Restart()`, which is `Restart(m_block, zero)`: `m_block` gets the digest size and the key length again, which it already has. -/
def restart (A : Alg) (c : Config) : State A :=
  let block := (c.block.set 0 (BitVec.ofNat 8 c.digestSize)).set 1 (BitVec.ofNat 8 c.keyLength)
  let p := words .little A.k block
  let s : State A := { h := (List.range 8).map fun i => nth A.iv i ^^^ nth p i, t0 := 0, t1 := 0, f0 := 0, f1 := 0, buf := [] }
  if c.keyLength ≠ 0 then update A s c.key else s

/-- blake2.cpp:611-657 `TruncatedFinal`. `memcpy` reads from `m_hft`, where `t` and `f` come after `h`: 12 words. (Those of `t` and `f` as on a little-endian machine.) -/
def final (A : Alg) (c : Config) (s : State A) (size : Nat) : Except Err (State A × List Byte) :=
  if c.digestSize < size then .error .invalidArgument
  else
    let s := { s with f0 := ~~~0 }
    let s := if c.treeMode then { s with f1 := ~~~0 } else s
    let s := increment A s s.buf.length
    let s := compress A s (s.buf ++ List.replicate (A.block - s.buf.length) 0)
    if 12 * A.k < size then .error .undefinedBehaviour
    else .ok (restart A c, (unwords .little A.k (s.h ++ [s.t0, s.t1, s.f0, s.f1])).take size)

/-- The object as the rest of the library sees it. -/
def obj (A : Alg) (c : Config) : Hash.Obj (State A) where
  digestSize := c.digestSize
  blockSize := A.block
  update s x := .ok (update A s x)
  restart _ := restart A c
  final := final A c

/-! ## Setting the key -/

/-- `memcpy_s(dst + off, room, src, src.size())` (misc.h:527-553) -/
def copyTo (dst : List Byte) (off room : Nat) (src : List Byte) : Except Err (List Byte) :=
  if src.length > room then .error .invalidArgument else .ok (dst.take off ++ src ++ dst.drop (off + src.length))

/-- blake2.cpp:311-326 `BLAKE2x_ParameterBlock::Reset` -/
def resetBlock (A : Alg) (digestLen keyLen : Nat) : List Byte :=
  (((List.replicate (8 * A.k) 0).set 0 (BitVec.ofNat 8 digestLen)).set 1 (BitVec.ofNat 8 keyLen)).set 2 1 |>.set 3 1

/-- blake2.cpp:397-461 `UncheckedSetKey`, with `m_digestSize` and `m_treeMode` as the parameters or the constructor give them; an empty `salt` or `pers` is one that is
not given. Copying a key longer than a block writes beyond `m_key`. The result of `Restart` is in `restart`. -/
def uncheckedSetKey (A : Alg) (key : List Byte) (digestSize : Nat) (treeMode : Bool) (salt pers : List Byte) : Except Err Config := do
  let m_key ← (if key.length > A.block then .error .undefinedBehaviour
    else .ok (if key.length ≠ 0 then key ++ List.replicate (A.block - key.length) 0 else []) : Except Err _)
  let block := resetBlock A digestSize key.length
  let block ← (if salt.length ≠ 0 then copyTo block (4 * A.k) A.salt salt else .ok block : Except Err _)
  let block ← (if pers.length ≠ 0 then copyTo block (6 * A.k) A.salt pers else .ok block : Except Err _)
  return { block := block, key := m_key, digestSize := digestSize, keyLength := key.length, treeMode := treeMode }

/-- `SetKey` (cryptlib.cpp:58-62): `ThrowIfInvalidKeyLength` first, with the lengths of blake2.h:26, 44. -/
def setKey (A : Alg) (key : List Byte) (digestSize : Nat) (treeMode : Bool) (salt pers : List Byte) : Except Err Config :=
  if key.length > A.digest then .error .invalidArgument else uncheckedSetKey A key digestSize treeMode salt pers

/-- The constructors (blake2.cpp:328-395): nothing is checked in a release build. -/
def construct (A : Alg) (key : List Byte) (digestSize : Nat) (treeMode : Bool) (salt pers : List Byte) : Except Err Config :=
  uncheckedSetKey A key digestSize treeMode salt pers

end Verif.Blake2
