import Verif.Words

/-!
# The secure hash standard (FIPS 180-4) and MD5 (RFC 1321)

Written from the standards: message schedules of 64 or 80 words, and rounds that rename the working variables.  The constants of
SHA-2 are computed from the primes, as the standard says.
-/
namespace Verif.Sha.Spec

/-! ## The constants: fractional parts of roots of primes -/

/-- The primes below `n`. -/
def primesBelow (n : Nat) : List Nat := (List.range n).filter fun p => 2 ≤ p && (List.range p).all fun d => d < 2 || p % d != 0

/-- The largest `y < acc + 2^b` with `y^r ≤ x`, given `acc^r ≤ x`; bit by bit. -/
def rootBits (r x : Nat) : Nat → Nat → Nat
  | 0, acc => acc
  | b + 1, acc => if (acc + 2 ^ b) ^ r ≤ x then rootBits r x b (acc + 2 ^ b) else rootBits r x b acc

/-- The first `w` bits of the fractional part of the `r`-th root of `p` (for `p < 2^16`): `⌊2^w · p^(1/r)⌋ mod 2^w`. -/
def rootFrac (r w p : Nat) : Nat := rootBits r (p * 2 ^ (r * w)) (w + 8) 0 % 2 ^ w

/-- FIPS 180-4, 4.2.2 and 4.2.3: the first `w` bits of the fractional parts of the cube roots of the first `n` primes. -/
def cubeRoots (w n : Nat) : List Nat := ((primesBelow 410).take n).map (rootFrac 3 w)

/-- FIPS 180-4, 5.3.3 and 5.3.5: the first `w` bits of the fractional parts of the square roots of the first eight primes. -/
def squareRoots (w : Nat) : List Nat := ((primesBelow 20).take 8).map (rootFrac 2 w)

/-- FIPS 180-4, 5.3.4: the same for the ninth through sixteenth primes. -/
def squareRoots' (w : Nat) : List Nat := ((primesBelow 54).drop 8).map (rootFrac 2 w)

/-! ## SHA-2 -/

/-- 4.1.2, 4.1.3 -/
def Ch {w : Nat} (x y z : BitVec w) : BitVec w := (x &&& y) ^^^ (~~~x &&& z)
def Maj {w : Nat} (x y z : BitVec w) : BitVec w := (x &&& y) ^^^ (x &&& z) ^^^ (y &&& z)

/-- What differs between SHA-256 and SHA-512. -/
structure Variant (w : Nat) where
  sig0 : BitVec w → BitVec w
  sig1 : BitVec w → BitVec w
  Sig0 : BitVec w → BitVec w
  Sig1 : BitVec w → BitVec w
  K : List Nat
  rounds : Nat

/-- 4.1.2, 4.2.2, 6.2.2 -/
def v256 : Variant 32 where
  Sig0 x := x.rotateRight 2 ^^^ x.rotateRight 13 ^^^ x.rotateRight 22
  Sig1 x := x.rotateRight 6 ^^^ x.rotateRight 11 ^^^ x.rotateRight 25
  sig0 x := x.rotateRight 7 ^^^ x.rotateRight 18 ^^^ (x >>> 3)
  sig1 x := x.rotateRight 17 ^^^ x.rotateRight 19 ^^^ (x >>> 10)
  K := cubeRoots 32 64
  rounds := 64

/-- 4.1.3, 4.2.3, 6.4.2 -/
def v512 : Variant 64 where
  Sig0 x := x.rotateRight 28 ^^^ x.rotateRight 34 ^^^ x.rotateRight 39
  Sig1 x := x.rotateRight 14 ^^^ x.rotateRight 18 ^^^ x.rotateRight 41
  sig0 x := x.rotateRight 1 ^^^ x.rotateRight 8 ^^^ (x >>> 7)
  sig1 x := x.rotateRight 19 ^^^ x.rotateRight 61 ^^^ (x >>> 6)
  K := cubeRoots 64 80
  rounds := 80

/-- The message schedule after `n` words beyond the sixteen of the block: `W_t = σ1(W_{t-2}) + W_{t-7} + σ0(W_{t-15}) + W_{t-16}`. -/
def schedule {w : Nat} (v : Variant w) (M : List (BitVec w)) : Nat → List (BitVec w)
  | 0 => M
  | n + 1 =>
    let W := schedule v M n
    W ++ [v.sig1 (W.getD (n + 14) 0) + W.getD (n + 9) 0 + v.sig0 (W.getD (n + 1) 0) + W.getD n 0]

/-- The working variables. -/
structure Vars (w : Nat) where
  (a b c d e f g h : BitVec w)

/-- Round `t` (6.2.2 step 3). -/
def round {w : Nat} (v : Variant w) (W : List (BitVec w)) (x : Vars w) (t : Nat) : Vars w :=
  let T1 := x.h + v.Sig1 x.e + Ch x.e x.f x.g + BitVec.ofNat w (v.K.getD t 0) + W.getD t 0
  let T2 := v.Sig0 x.a + Maj x.a x.b x.c
  ⟨T1 + T2, x.a, x.b, x.c, x.d + T1, x.e, x.f, x.g⟩

/-- One block (6.2.2, 6.4.2). -/
def compress {w : Nat} (v : Variant w) (H : Vars w) (M : List (BitVec w)) : Vars w :=
  let x := (List.range v.rounds).foldl (round v (schedule v M (v.rounds - 16))) H
  ⟨H.a + x.a, H.b + x.b, H.c + x.c, H.d + x.d, H.e + x.e, H.f + x.f, H.g + x.g, H.h + x.h⟩

def Vars.list {w : Nat} (x : Vars w) : List (BitVec w) := [x.a, x.b, x.c, x.d, x.e, x.f, x.g, x.h]
def Vars.of (w : Nat) : List Nat → Vars w
  | [a, b, c, d, e, f, g, h] => ⟨.ofNat w a, .ofNat w b, .ofNat w c, .ofNat w d, .ofNat w e, .ofNat w f, .ofNat w g, .ofNat w h⟩
  | _ => ⟨0, 0, 0, 0, 0, 0, 0, 0⟩

/-- Padding (5.1): a one bit, the fewest zero bits, and the length in bits in the last `L` bytes of a block of `B` bytes. -/
def pad (o : ByteOrder) (B L : Nat) (m : List Byte) : List Byte :=
  m ++ 0x80 :: List.replicate ((B - (m.length + 1 + L) % B) % B) 0 ++ o.bytes L (8 * m.length)

/-- Parsing (5.2): the blocks of `B` bytes as words of `k` bytes, `w` bits. -/
def blocks (o : ByteOrder) (w k B : Nat) (p : List Byte) : List (List (BitVec w)) :=
  (chunks B p).map fun b => (chunks k b).map fun x => BitVec.ofNat w (o.val x)

/-- The bytes of words. -/
def bytes (o : ByteOrder) (k : Nat) {w : Nat} (ws : List (BitVec w)) : List Byte := ws.flatMap fun x => o.bytes k x.toNat

/-- 6.2, 6.3 -/
def SHA256 (m : List Byte) : List Byte := bytes .big 4 ((blocks .big 32 4 64 (pad .big 64 8 m)).foldl (compress v256) (.of 32 (squareRoots 32))).list
/-- SHA-224 starts from the second 32 bits of the fractional parts, and drops the last word. -/
def SHA224 (m : List Byte) : List Byte :=
  (bytes .big 4 ((blocks .big 32 4 64 (pad .big 64 8 m)).foldl (compress v256) (.of 32 ((squareRoots' 64).map (· % 2 ^ 32)))).list).take 28
/-- 6.4, 6.5 -/
def SHA512 (m : List Byte) : List Byte := bytes .big 8 ((blocks .big 64 8 128 (pad .big 128 16 m)).foldl (compress v512) (.of 64 (squareRoots 64))).list
def SHA384 (m : List Byte) : List Byte :=
  (bytes .big 8 ((blocks .big 64 8 128 (pad .big 128 16 m)).foldl (compress v512) (.of 64 (squareRoots' 64))).list).take 48

/-! ## SHA-1 -/

/-- 4.1.1 -/
def f (t : Nat) (x y z : BitVec 32) : BitVec 32 :=
  if t < 20 then Ch x y z else if t < 40 then x ^^^ y ^^^ z else if t < 60 then Maj x y z else x ^^^ y ^^^ z

/-- 4.2.1 -/
def K1 (t : Nat) : BitVec 32 := if t < 20 then 0x5a827999 else if t < 40 then 0x6ed9eba1 else if t < 60 then 0x8f1bbcdc else 0xca62c1d6

/-- 6.1.2 step 1: `W_t = ROTL^1(W_{t-3} ⊕ W_{t-8} ⊕ W_{t-14} ⊕ W_{t-16})` -/
def schedule1 (M : List (BitVec 32)) : Nat → List (BitVec 32)
  | 0 => M
  | n + 1 =>
    let W := schedule1 M n
    W ++ [(W.getD (n + 13) 0 ^^^ W.getD (n + 8) 0 ^^^ W.getD (n + 2) 0 ^^^ W.getD n 0).rotateLeft 1]

structure Vars1 where
  (a b c d e : BitVec 32)

/-- 6.1.2 step 3 -/
def round1 (W : List (BitVec 32)) (x : Vars1) (t : Nat) : Vars1 :=
  ⟨x.a.rotateLeft 5 + f t x.b x.c x.d + x.e + K1 t + W.getD t 0, x.a, x.b.rotateLeft 30, x.c, x.d⟩

def compress1 (H : Vars1) (M : List (BitVec 32)) : Vars1 :=
  let x := (List.range 80).foldl (round1 (schedule1 M 64)) H
  ⟨H.a + x.a, H.b + x.b, H.c + x.c, H.d + x.d, H.e + x.e⟩

def Vars1.list (x : Vars1) : List (BitVec 32) := [x.a, x.b, x.c, x.d, x.e]

/-- 6.1, 5.3.1 -/
def SHA1 (m : List Byte) : List Byte :=
  bytes .big 4 ((blocks .big 32 4 64 (pad .big 64 8 m)).foldl compress1 ⟨0x67452301, 0xefcdab89, 0x98badcfe, 0x10325476, 0xc3d2e1f0⟩).list

/-! ## MD5 -/

/-- RFC 1321, 3.4 -/
def g (r : Nat) (X Y Z : BitVec 32) : BitVec 32 :=
  if r = 0 then (X &&& Y) ||| (~~~X &&& Z) else if r = 1 then (X &&& Z) ||| (Y &&& ~~~Z) else if r = 2 then X ^^^ Y ^^^ Z else Y ^^^ (X ||| ~~~Z)

/-- The index of the word of the block operation `t` uses. -/
def word5 (t : Nat) : Nat := if t < 16 then t else if t < 32 then (5 * t + 1) % 16 else if t < 48 then (3 * t + 5) % 16 else 7 * t % 16

/-- The rotation of operation `t`. -/
def shift5 (t : Nat) : Nat := (([[7, 12, 17, 22], [5, 9, 14, 20], [4, 11, 16, 23], [6, 10, 15, 21]].getD (t / 16) []).getD (t % 4) 0)

/-- The table `T`: `T[i]` is the integer part of `4294967296 |sin i|` for `i = 1, ..., 64`. -/
def T5 : List Nat :=
  [0xd76aa478, 0xe8c7b756, 0x242070db, 0xc1bdceee, 0xf57c0faf, 0x4787c62a, 0xa8304613, 0xfd469501,
   0x698098d8, 0x8b44f7af, 0xffff5bb1, 0x895cd7be, 0x6b901122, 0xfd987193, 0xa679438e, 0x49b40821,
   0xf61e2562, 0xc040b340, 0x265e5a51, 0xe9b6c7aa, 0xd62f105d, 0x02441453, 0xd8a1e681, 0xe7d3fbc8,
   0x21e1cde6, 0xc33707d6, 0xf4d50d87, 0x455a14ed, 0xa9e3e905, 0xfcefa3f8, 0x676f02d9, 0x8d2a4c8a,
   0xfffa3942, 0x8771f681, 0x6d9d6122, 0xfde5380c, 0xa4beea44, 0x4bdecfa9, 0xf6bb4b60, 0xbebfbc70,
   0x289b7ec6, 0xeaa127fa, 0xd4ef3085, 0x04881d05, 0xd9d4d039, 0xe6db99e5, 0x1fa27cf8, 0xc4ac5665,
   0xf4292244, 0x432aff97, 0xab9423a7, 0xfc93a039, 0x655b59c3, 0x8f0ccc92, 0xffeff47d, 0x85845dd1,
   0x6fa87e4f, 0xfe2ce6e0, 0xa3014314, 0x4e0811a1, 0xf7537e82, 0xbd3af235, 0x2ad7d2bb, 0xeb86d391]

structure Vars5 where
  (a b c d : BitVec 32)

/-- Operation `t`: `a = b + ((a + g(b,c,d) + X[k] + T[i]) <<< s)`, and the variables are renamed. -/
def round5 (X : List (BitVec 32)) (x : Vars5) (t : Nat) : Vars5 :=
  ⟨x.d, x.b + (x.a + g (t / 16) x.b x.c x.d + X.getD (word5 t) 0 + BitVec.ofNat 32 (T5.getD t 0)).rotateLeft (shift5 t), x.b, x.c⟩

def compress5 (H : Vars5) (M : List (BitVec 32)) : Vars5 :=
  let x := (List.range 64).foldl (round5 M) H
  ⟨H.a + x.a, H.b + x.b, H.c + x.c, H.d + x.d⟩

def Vars5.list (x : Vars5) : List (BitVec 32) := [x.a, x.b, x.c, x.d]

def MD5 (m : List Byte) : List Byte :=
  bytes .little 4 ((blocks .little 32 4 64 (pad .little 64 8 m)).foldl compress5 ⟨0x67452301, 0xefcdab89, 0x98badcfe, 0x10325476⟩).list

end Verif.Sha.Spec
