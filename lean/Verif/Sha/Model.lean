import Verif.Cipher.Basic
import Verif.IterHash.Spec

/-!
# SHA-1, SHA-2 and MD5 (sha.cpp, md5.cpp, sha.h, md5.h): the portable compression functions

The assembler and vector-unit versions are not modelled.  `rotlConstant`, `rotrConstant` and `rotlFixed` are `Cipher.rotl` and `Cipher.rotr`.
-/
namespace Verif.Sha
open Verif.Cipher (rotl rotr)

/-- An element of an array of words. -/
def at_ {w : Nat} (l : List (BitVec w)) (i : Nat) : BitVec w := l.getD i 0

/-! ## SHA-2 -/

/-- What differs between SHA-256 and SHA-512. -/
structure Fns (w : Nat) where
  s0 : BitVec w → BitVec w
  s1 : BitVec w → BitVec w
  S0 : BitVec w → BitVec w
  S1 : BitVec w → BitVec w
  K : List Nat
  /-- the number of rounds over 16 -/
  turns : Nat

/-- sha.cpp:152-170 `SHA256_K` -/
def k256 : List Nat :=
  [0x428a2f98, 0x71374491, 0xb5c0fbcf, 0xe9b5dba5, 0x3956c25b, 0x59f111f1, 0x923f82a4, 0xab1c5ed5,
   0xd807aa98, 0x12835b01, 0x243185be, 0x550c7dc3, 0x72be5d74, 0x80deb1fe, 0x9bdc06a7, 0xc19bf174,
   0xe49b69c1, 0xefbe4786, 0x0fc19dc6, 0x240ca1cc, 0x2de92c6f, 0x4a7484aa, 0x5cb0a9dc, 0x76f988da,
   0x983e5152, 0xa831c66d, 0xb00327c8, 0xbf597fc7, 0xc6e00bf3, 0xd5a79147, 0x06ca6351, 0x14292967,
   0x27b70a85, 0x2e1b2138, 0x4d2c6dfc, 0x53380d13, 0x650a7354, 0x766a0abb, 0x81c2c92e, 0x92722c85,
   0xa2bfe8a1, 0xa81a664b, 0xc24b8b70, 0xc76c51a3, 0xd192e819, 0xd6990624, 0xf40e3585, 0x106aa070,
   0x19a4c116, 0x1e376c08, 0x2748774c, 0x34b0bcb5, 0x391c0cb3, 0x4ed8aa4a, 0x5b9cca4f, 0x682e6ff3,
   0x748f82ee, 0x78a5636f, 0x84c87814, 0x8cc70208, 0x90befffa, 0xa4506ceb, 0xbef9a3f7, 0xc67178f2]

/-- sha.cpp:105-149 `SHA512_K` -/
def k512 : List Nat :=
  [0x428a2f98d728ae22, 0x7137449123ef65cd, 0xb5c0fbcfec4d3b2f, 0xe9b5dba58189dbbc,
   0x3956c25bf348b538, 0x59f111f1b605d019, 0x923f82a4af194f9b, 0xab1c5ed5da6d8118,
   0xd807aa98a3030242, 0x12835b0145706fbe, 0x243185be4ee4b28c, 0x550c7dc3d5ffb4e2,
   0x72be5d74f27b896f, 0x80deb1fe3b1696b1, 0x9bdc06a725c71235, 0xc19bf174cf692694,
   0xe49b69c19ef14ad2, 0xefbe4786384f25e3, 0x0fc19dc68b8cd5b5, 0x240ca1cc77ac9c65,
   0x2de92c6f592b0275, 0x4a7484aa6ea6e483, 0x5cb0a9dcbd41fbd4, 0x76f988da831153b5,
   0x983e5152ee66dfab, 0xa831c66d2db43210, 0xb00327c898fb213f, 0xbf597fc7beef0ee4,
   0xc6e00bf33da88fc2, 0xd5a79147930aa725, 0x06ca6351e003826f, 0x142929670a0e6e70,
   0x27b70a8546d22ffc, 0x2e1b21385c26c926, 0x4d2c6dfc5ac42aed, 0x53380d139d95b3df,
   0x650a73548baf63de, 0x766a0abb3c77b2a8, 0x81c2c92e47edaee6, 0x92722c851482353b,
   0xa2bfe8a14cf10364, 0xa81a664bbc423001, 0xc24b8b70d0f89791, 0xc76c51a30654be30,
   0xd192e819d6ef5218, 0xd69906245565a910, 0xf40e35855771202a, 0x106aa07032bbd1b8,
   0x19a4c116b8d2d0c8, 0x1e376c085141ab53, 0x2748774cdf8eeb99, 0x34b0bcb5e19b48a8,
   0x391c0cb3c5c95a63, 0x4ed8aa4ae3418acb, 0x5b9cca4f7763e373, 0x682e6ff3d6b2b8a3,
   0x748f82ee5defb2fc, 0x78a5636f43172f60, 0x84c87814a1f0ab72, 0x8cc702081a6439ec,
   0x90befffa23631e28, 0xa4506cebde82bde9, 0xbef9a3f7b2c67915, 0xc67178f2e372532b,
   0xca273eceea26619c, 0xd186b8c721c0c207, 0xeada7dd6cde0eb1e, 0xf57d4f7fee6ed178,
   0x06f067aa72176fba, 0x0a637dc5a2c898a6, 0x113f9804bef90dae, 0x1b710b35131c471b,
   0x28db77f523047d84, 0x32caab7b40c72493, 0x3c9ebe0a15c9bebc, 0x431d67c49c100d4c,
   0x4cc5d4becb3e42b6, 0x597f299cfc657e2a, 0x5fcb6fab3ad6faec, 0x6c44198c4a475817]

/-- sha.cpp:415-418; the loop runs for `j < 64` (427). -/
def fns256 : Fns 32 where
  s0 x := rotr x 7 ^^^ rotr x 18 ^^^ (x >>> 3)
  s1 x := rotr x 17 ^^^ rotr x 19 ^^^ (x >>> 10)
  S0 x := rotr x 2 ^^^ rotr x 13 ^^^ rotr x 22
  S1 x := rotr x 6 ^^^ rotr x 11 ^^^ rotr x 25
  K := k256
  turns := 4

/-- sha.cpp: `s0`, `s1`, `S0`, `S1` before `SHA512_HashBlock_CXX`; the loop runs for `j < 80`. -/
def fns512 : Fns 64 where
  s0 x := rotr x 1 ^^^ rotr x 8 ^^^ (x >>> 7)
  s1 x := rotr x 19 ^^^ rotr x 61 ^^^ (x >>> 6)
  S0 x := rotr x 28 ^^^ rotr x 34 ^^^ rotr x 39
  S1 x := rotr x 14 ^^^ rotr x 18 ^^^ rotr x 41
  K := k512
  turns := 5

/-- sha.cpp:408 `Ch` -/
def ch {w : Nat} (x y z : BitVec w) : BitVec w := z ^^^ (x &&& (y ^^^ z))
/-- sha.cpp:409 `Maj` -/
def maj {w : Nat} (x y z : BitVec w) : BitVec w := y ^^^ ((x ^^^ y) &&& (y ^^^ z))

/-- sha.cpp:396-403: variable `p` (0 for `a`, ..., 7 for `h`) in round `i` is `T[(p-i)&7]`. -/
def slot (p i : Nat) : Nat := (p + 16 - i) % 8

/-- sha.cpp:405-406 `blk0`, `blk2`: the array `W` after round `i` of turn `j / 16`. -/
def blk {w : Nat} (F : Fns w) (data : List (BitVec w)) (j i : Nat) (W : List (BitVec w)) : List (BitVec w) :=
  if j = 0 then W.set i (at_ data i)
  else W.set i (at_ W i + (F.s1 (at_ W ((i + 14) % 16)) + at_ W ((i + 9) % 16) + F.s0 (at_ W ((i + 1) % 16))))

/-- sha.cpp:411-412 `R(i)`; the state is `(W, T)`. -/
def round {w : Nat} (F : Fns w) (data : List (BitVec w)) (j i : Nat) (s : List (BitVec w) × List (BitVec w)) : List (BitVec w) × List (BitVec w) :=
  let W := blk F data j i s.1
  let T := s.2
  let T := T.set (slot 7 i) (at_ T (slot 7 i) + (F.S1 (at_ T (slot 4 i)) + ch (at_ T (slot 4 i)) (at_ T (slot 5 i)) (at_ T (slot 6 i)) +
    BitVec.ofNat w (F.K.getD (i + j) 0) + at_ W i))
  let T := T.set (slot 3 i) (at_ T (slot 3 i) + at_ T (slot 7 i))
  let T := T.set (slot 7 i) (at_ T (slot 7 i) + (F.S0 (at_ T (slot 0 i)) + maj (at_ T (slot 0 i)) (at_ T (slot 1 i)) (at_ T (slot 2 i))))
  (W, T)

/-- sha.cpp:420-442 `SHA256_HashBlock_CXX`, and `SHA512_HashBlock_CXX`. -/
def hashBlock {w : Nat} (F : Fns w) (state data : List (BitVec w)) : List (BitVec w) :=
  let s := (List.range F.turns).foldl (fun s q => (List.range 16).foldl (fun s i => round F data (16 * q) i s) s) (List.replicate 16 0, state)
  (List.range 8).map fun p => at_ state p + at_ s.2 (slot p 0)

/-- sha.cpp:509-515 `SHA256::InitState` -/
def init256 : List Nat := [0x6a09e667, 0xbb67ae85, 0x3c6ef372, 0xa54ff53a, 0x510e527f, 0x9b05688c, 0x1f83d9ab, 0x5be0cd19]
/-- sha.cpp:501-507 `SHA224::InitState` -/
def init224 : List Nat := [0xc1059ed8, 0x367cd507, 0x3070dd17, 0xf70e5939, 0xffc00b31, 0x68581511, 0x64f98fa7, 0xbefa4fa4]
/-- sha.cpp: `SHA512::InitState` -/
def init512 : List Nat :=
  [0x6a09e667f3bcc908, 0xbb67ae8584caa73b, 0x3c6ef372fe94f82b, 0xa54ff53a5f1d36f1,
   0x510e527fade682d1, 0x9b05688c2b3e6c1f, 0x1f83d9abfb41bd6b, 0x5be0cd19137e2179]
/-- sha.cpp: `SHA384::InitState` -/
def init384 : List Nat :=
  [0xcbbb9d5dc1059ed8, 0x629a292a367cd507, 0x9159015a3070dd17, 0x152fecd8f70e5939,
   0x67332667ffc00b31, 0x8eb44a8768581511, 0xdb0c2e0d64f98fa7, 0x47b5481dbefa4fa4]

/-- A compression function on words as `IterHash` has it, on natural numbers. -/
def onNat {w : Nat} (f : List (BitVec w) → List (BitVec w) → List (BitVec w)) (st ws : List Nat) : List Nat :=
  (f (st.map (BitVec.ofNat w)) (ws.map (BitVec.ofNat w))).map BitVec.toNat

/-- sha.h: `SHA256`, on a machine with the given byte order. -/
def sha256 (native : ByteOrder) : IterHash.Params := ⟨4, 64, .big, native, 32, init256, onNat (hashBlock fns256)⟩
/-- sha.h: `SHA224` -/
def sha224 (native : ByteOrder) : IterHash.Params := ⟨4, 64, .big, native, 28, init224, onNat (hashBlock fns256)⟩
/-- sha.h: `SHA512` -/
def sha512 (native : ByteOrder) : IterHash.Params := ⟨8, 128, .big, native, 64, init512, onNat (hashBlock fns512)⟩
/-- sha.h: `SHA384` -/
def sha384 (native : ByteOrder) : IterHash.Params := ⟨8, 128, .big, native, 48, init384, onNat (hashBlock fns512)⟩

/-! ## SHA-1 -/

/-- sha.cpp:205-224: argument `p` of the macro for round `i` is variable `(p - i) mod 5` of `a, b, c, d, e`. -/
def slot1 (p i : Nat) : Nat := (p + 80 - i) % 5

/-- sha.cpp:180-190: the function of round `i`. -/
def f1 (i : Nat) (x y z : BitVec 32) : BitVec 32 :=
  if i < 20 then z ^^^ (x &&& (y ^^^ z)) else if i < 40 then x ^^^ y ^^^ z else if i < 60 then (x &&& y) ||| (z &&& (x ||| y)) else x ^^^ y ^^^ z

/-- sha.cpp:186-190: the constant of round `i`. -/
def kst1 (i : Nat) : BitVec 32 := if i < 20 then 0x5A827999 else if i < 40 then 0x6ED9EBA1 else if i < 60 then 0x8F1BBCDC else 0xCA62C1D6

/-- sha.cpp:177-178 `blk0`, `blk1` -/
def blk1 (data : List (BitVec 32)) (i : Nat) (W : List (BitVec 32)) : List (BitVec 32) :=
  if i < 16 then W.set i (at_ data i)
  else W.set (i % 16) (rotl (at_ W ((i + 13) % 16) ^^^ at_ W ((i + 8) % 16) ^^^ at_ W ((i + 2) % 16) ^^^ at_ W (i % 16)) 1)

/-- sha.cpp:186-190 `R0` to `R4` in round `i` -/
def round1 (data : List (BitVec 32)) (i : Nat) (s : List (BitVec 32) × List (BitVec 32)) : List (BitVec 32) × List (BitVec 32) :=
  let W := blk1 data i s.1
  let T := s.2
  let T := T.set (slot1 4 i) (at_ T (slot1 4 i) + (f1 i (at_ T (slot1 1 i)) (at_ T (slot1 2 i)) (at_ T (slot1 3 i)) + at_ W (i % 16) + kst1 i + rotl (at_ T (slot1 0 i)) 5))
  let T := T.set (slot1 1 i) (rotl (at_ T (slot1 1 i)) 30)
  (W, T)

/-- sha.cpp:192-231 `SHA1_HashBlock_CXX`; `W` is not initialized there, and written before it is read. -/
def hashBlock1 (state data : List (BitVec 32)) : List (BitVec 32) :=
  let s := (List.range 80).foldl (fun s i => round1 data i s) (List.replicate 16 0, state)
  (List.range 5).map fun p => at_ state p + at_ s.2 p

/-- sha.cpp:276-283 `SHA1::InitState` -/
def init1 : List Nat := [0x67452301, 0xEFCDAB89, 0x98BADCFE, 0x10325476, 0xC3D2E1F0]

/-- sha.h:30 `SHA1` -/
def sha1 (native : ByteOrder) : IterHash.Params := ⟨4, 64, .big, native, 20, init1, onNat hashBlock1⟩

/-! ## MD5 -/

/-- md5.cpp:47-113: function, index into `data`, constant and rotation of each step. -/
def md5Steps : List (Nat × Nat × Nat × Nat) :=
  [(1, 0, 0xd76aa478, 7), (1, 1, 0xe8c7b756, 12), (1, 2, 0x242070db, 17), (1, 3, 0xc1bdceee, 22),
   (1, 4, 0xf57c0faf, 7), (1, 5, 0x4787c62a, 12), (1, 6, 0xa8304613, 17), (1, 7, 0xfd469501, 22),
   (1, 8, 0x698098d8, 7), (1, 9, 0x8b44f7af, 12), (1, 10, 0xffff5bb1, 17), (1, 11, 0x895cd7be, 22),
   (1, 12, 0x6b901122, 7), (1, 13, 0xfd987193, 12), (1, 14, 0xa679438e, 17), (1, 15, 0x49b40821, 22),
   (2, 1, 0xf61e2562, 5), (2, 6, 0xc040b340, 9), (2, 11, 0x265e5a51, 14), (2, 0, 0xe9b6c7aa, 20),
   (2, 5, 0xd62f105d, 5), (2, 10, 0x02441453, 9), (2, 15, 0xd8a1e681, 14), (2, 4, 0xe7d3fbc8, 20),
   (2, 9, 0x21e1cde6, 5), (2, 14, 0xc33707d6, 9), (2, 3, 0xf4d50d87, 14), (2, 8, 0x455a14ed, 20),
   (2, 13, 0xa9e3e905, 5), (2, 2, 0xfcefa3f8, 9), (2, 7, 0x676f02d9, 14), (2, 12, 0x8d2a4c8a, 20),
   (3, 5, 0xfffa3942, 4), (3, 8, 0x8771f681, 11), (3, 11, 0x6d9d6122, 16), (3, 14, 0xfde5380c, 23),
   (3, 1, 0xa4beea44, 4), (3, 4, 0x4bdecfa9, 11), (3, 7, 0xf6bb4b60, 16), (3, 10, 0xbebfbc70, 23),
   (3, 13, 0x289b7ec6, 4), (3, 0, 0xeaa127fa, 11), (3, 3, 0xd4ef3085, 16), (3, 6, 0x04881d05, 23),
   (3, 9, 0xd9d4d039, 4), (3, 12, 0xe6db99e5, 11), (3, 15, 0x1fa27cf8, 16), (3, 2, 0xc4ac5665, 23),
   (4, 0, 0xf4292244, 6), (4, 7, 0x432aff97, 10), (4, 14, 0xab9423a7, 15), (4, 5, 0xfc93a039, 21),
   (4, 12, 0x655b59c3, 6), (4, 3, 0x8f0ccc92, 10), (4, 10, 0xffeff47d, 15), (4, 1, 0x85845dd1, 21),
   (4, 8, 0x6fa87e4f, 6), (4, 15, 0xfe2ce6e0, 10), (4, 6, 0xa3014314, 15), (4, 13, 0x4e0811a1, 21),
   (4, 4, 0xf7537e82, 6), (4, 11, 0xbd3af235, 10), (4, 2, 0x2ad7d2bb, 15), (4, 9, 0xeb86d391, 21)]

/-- md5.cpp:34-37 `F1` to `F4` -/
def f5 (n : Nat) (x y z : BitVec 32) : BitVec 32 :=
  if n = 1 then z ^^^ (x &&& (y ^^^ z)) else if n = 2 then y ^^^ (z &&& (x ^^^ y)) else if n = 3 then x ^^^ y ^^^ z else y ^^^ (x ||| ~~~z)

/-- md5.cpp:47-113: argument `p` of step `i` is variable `(p - i) mod 4` of `a, b, c, d`. -/
def slot5 (p i : Nat) : Nat := (p + 64 - i) % 4

/-- md5.cpp:39-40 `MD5STEP` as step `i` -/
def step5 (data : List (BitVec 32)) (i : Nat) (T : List (BitVec 32)) : List (BitVec 32) :=
  let t := md5Steps.getD i (0, 0, 0, 0)
  T.set (slot5 0 i) (rotl (at_ T (slot5 0 i) + f5 t.1 (at_ T (slot5 1 i)) (at_ T (slot5 2 i)) (at_ T (slot5 3 i)) +
    (at_ data t.2.1 + BitVec.ofNat 32 t.2.2.1)) t.2.2.2 + at_ T (slot5 1 i))

/-- md5.cpp:28-119 `MD5::Transform` -/
def hashBlock5 (state data : List (BitVec 32)) : List (BitVec 32) :=
  let T := (List.range 64).foldl (fun T i => step5 data i T) state
  (List.range 4).map fun p => at_ state p + at_ T p

/-- md5.cpp:20-26 `MD5::InitState` -/
def init5 : List Nat := [0x67452301, 0xefcdab89, 0x98badcfe, 0x10325476]

/-- md5.h:13 `MD5` -/
def md5 (native : ByteOrder) : IterHash.Params := ⟨4, 64, .little, native, 16, init5, onNat hashBlock5⟩

end Verif.Sha
