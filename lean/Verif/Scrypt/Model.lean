import Verif.Kdf.Model
import Verif.Mem
import Verif.Cipher.Basic

/-!
# Scrypt (scrypt.h, scrypt.cpp) and the Salsa20 core (salsa.cpp)

Each buffer of the program is a byte-addressed memory of its own: `B` (the blocks), and for every iteration of the parallel loop `V` and `XY`, with whatever they hold before.
`size_t` has 64 bits and `word128` is available. Offsets are not reduced modulo `2^64`: `ValidateParameters` keeps them below (`accepted_no_wrap` in Props).
-/
namespace Verif.Scrypt

abbrev W := BitVec 32

/-- `x[d] ^= rotlConstant<n>(x[a]+x[b])`, a statement of `Salsa20_Core` (salsa.cpp:65-103). -/
def stmt (d n a b : Nat) (x : List W) : List W := x.set d (x.getD d 0 ^^^ Cipher.rotl (x.getD a 0 + x.getD b 0) n)

/-- The body of the loop of `Salsa20_Core` (salsa.cpp:65-103). -/
def doubleRound (x : List W) : List W :=
  let x := stmt 4 7 0 12 x
  let x := stmt 8 9 4 0 x
  let x := stmt 12 13 8 4 x
  let x := stmt 0 18 12 8 x
  let x := stmt 9 7 5 1 x
  let x := stmt 13 9 9 5 x
  let x := stmt 1 13 13 9 x
  let x := stmt 5 18 1 13 x
  let x := stmt 14 7 10 6 x
  let x := stmt 2 9 14 10 x
  let x := stmt 6 13 2 14 x
  let x := stmt 10 18 6 2 x
  let x := stmt 3 7 15 11 x
  let x := stmt 7 9 3 15 x
  let x := stmt 11 13 7 3 x
  let x := stmt 15 18 11 7 x
  let x := stmt 1 7 0 3 x
  let x := stmt 2 9 1 0 x
  let x := stmt 3 13 2 1 x
  let x := stmt 0 18 3 2 x
  let x := stmt 6 7 5 4 x
  let x := stmt 7 9 6 5 x
  let x := stmt 4 13 7 6 x
  let x := stmt 5 18 4 7 x
  let x := stmt 11 7 10 9 x
  let x := stmt 8 9 11 10 x
  let x := stmt 9 13 8 11 x
  let x := stmt 10 18 9 8 x
  let x := stmt 12 7 15 14 x
  let x := stmt 13 9 12 15 x
  let x := stmt 14 13 13 12 x
  stmt 15 18 14 13 x

/-- `Salsa20_Core` (salsa.cpp:52-116): `for (i = 0; i < rounds; i += 2)`, then `data[i] += x[i]`. -/
def core (data : List W) (rounds : Nat) : List W := List.zipWith (· + ·) data (Nat.repeat doubleRound ((rounds + 1) / 2) data)

/-- `Salsa20_8` (scrypt.cpp:94-105), with `LE32DEC` and `LE32ENC` (scrypt.cpp:43-51). -/
def salsa8 (b : List Byte) : List Byte :=
  (core ((List.range 16).map fun i => BitVec.ofNat 32 (leVal ((b.drop (i * 4)).take 4))) 8).flatMap fun w => leBytes 4 w.toNat

/-- Steps 2 to 4 of `BlockMix` (scrypt.cpp:115-123), `n` iterations, on the memory and the local array `X`. -/
def mixN (b y : Nat) : Nat → Mem × List Byte → Mem × List Byte
  | 0, s => s
  | n + 1, s =>
    let s := mixN b y n s
    let X := salsa8 (Verif.xorBytes s.2 (load s.1 (b + n * 64) 64))
    (store s.1 (y + n * 64) X, X)

/-- `for (i = 0; i < n; ++i) BlockCopy(d(i), s(i), 64)` (scrypt.cpp:126-130). -/
def copies (d s : Nat → Nat) : Nat → Mem → Mem
  | 0, m => m
  | n + 1, m =>
    let m := copies d s n m
    store m (d n) (load m (s n) 64)

/-- `BlockMix` (scrypt.cpp:107-131) with `B` and `Y` at addresses `b` and `y`. -/
def blockMix (b y r : Nat) (m : Mem) : Mem :=
  let X := load m (b + (2 * r - 1) * 64) 64
  let m := (mixN b y (2 * r) (m, X)).1
  let m := copies (fun i => b + i * 64) (fun i => y + (i * 2) * 64) r m
  copies (fun i => b + (i + r) * 64) (fun i => y + (i * 2 + 1) * 64) r m

/-- `Integerify` (scrypt.cpp:133-137). -/
def integerify (b r : Nat) (m : Mem) : Nat := leVal (load m (b + (2 * r - 1) * 64) 8)

/-- Steps 2 to 4 of `Smix` (scrypt.cpp:148-155), `n` iterations, on `V` and `XY`. -/
def fill (r : Nat) : Nat → Mem × Mem → Mem × Mem
  | 0, s => s
  | n + 1, s =>
    let s := fill r n s
    (store s.1 (n * (128 * r)) (load s.2 0 (128 * r)), blockMix 0 (128 * r) r s.2)

/-- Steps 6 to 8 of `Smix` (scrypt.cpp:158-166), `n` iterations, on `XY`. -/
def mix (r N : Nat) (V : Mem) : Nat → Mem → Mem
  | 0, XY => XY
  | n + 1, XY =>
    let XY := mix r N V n XY
    let j := integerify 0 r XY &&& (N - 1)
    let XY := store XY 0 (Verif.xorBytes (load XY 0 (128 * r)) (load V (j * (128 * r)) (128 * r)))
    blockMix 0 (128 * r) r XY

/-- `Smix` (scrypt.cpp:139-170) on the block at address `b` of `B`. -/
def smix (b r N : Nat) (B V XY : Mem) : Mem :=
  let XY := store XY 0 (load B b (128 * r))
  let s := fill r N (V, XY)
  let XY := mix r N s.1 N s.2
  store B b (load XY 0 (128 * r))

/-- `IsPowerOf2` (misc.h:1215-1218). -/
def isPowerOf2 (v : Nat) : Bool := decide (v > 0) && (v &&& (v - 1)) == 0

/-- `Scrypt::ValidateParameters` (scrypt.cpp:183-247). `bad_alloc` is `other`. -/
def validate (derivedLen cost blockSize parallel : Nat) : Except Err Unit :=
  if cost = 0 then .error .invalidArgument else
  if blockSize = 0 then .error .invalidArgument else
  if parallel = 0 then .error .invalidArgument else
  if derivedLen > (2 ^ 32 - 1) * 32 then .error .invalidArgument else
  if parallel > 2 ^ 31 - 1 then .error .invalidArgument else
  if isPowerOf2 cost = false then .error .invalidArgument else
  if blockSize * parallel % 2 ^ 64 ≥ 2 ^ 30 then .error .invalidArgument else
  let bLimit := decide (2 ^ 64 - 1 ≥ cost * blockSize * 128)
  let xyLimit := decide (2 ^ 64 - 1 ≥ parallel * blockSize * 128)
  let vLimit := decide (2 ^ 64 - 1 ≥ blockSize * 256 + 64)
  if !bLimit || !xyLimit || !vLimit then .error .other else .ok ()

/-- The parallel loop (scrypt.cpp:297-309): the iterations in the order in which they take effect, each with what `V` and `XY` of its thread hold before.
An iteration touches only its own part of `B` and memory of its own thread, so iterations that overlap in time have the effect of some order. -/
def run (r N : Nat) : List (Nat × Mem × Mem) → Mem → Mem
  | [], B => B
  | (i, V, XY) :: t, B => run r N t (smix (r * i * 128) r N B V XY)

/-- `Scrypt::DeriveKey` (scrypt.cpp:271-315) over the hash `O` of `PBKDF2_SHA256` (scrypt.cpp:83-92). `fresh1` and `fresh2` are what the buffers of the two HMAC objects hold before,
`B0` is what the new block `B` holds before and `sched` is the schedule of the parallel loop. `ThrowIfInvalidDerivedKeyLength` refuses nothing (scrypt.h:48-53). -/
def deriveKey {σ : Type} (O : Hash.Obj σ) (s : σ) (fresh1 fresh2 : List Byte) (B0 : Mem) (sched : List (Nat × Mem × Mem)) (derivedLen : Nat) (secret salt : List Byte)
    (cost blockSize parallel : Nat) : Except Err (List Byte) :=
  match validate derivedLen cost blockSize parallel with
  | .error e => .error e
  | .ok () =>
    let size := blockSize * parallel * 128
    match Kdf.pbkdf2 O s fresh1 none 1 size secret salt 1 with
    | .error e => .error e
    | .ok (bytes, _) =>
      let B := run blockSize cost sched (store B0 0 bytes)
      match Kdf.pbkdf2 O s fresh2 none 1 derivedLen secret (load B 0 size) 1 with
      | .error e => .error e
      | .ok (derived, _) => .ok derived

end Verif.Scrypt
