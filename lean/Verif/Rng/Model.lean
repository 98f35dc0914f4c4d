import Verif.Common
import Verif.Words
import Verif.Misc.Precision
import Verif.Modes.Apb

/-! # Random numbers: ranges, shuffling, the simple generators (cryptlib.cpp, cryptlib.h, integer.cpp, rng.cpp, mersenne.h) -/
namespace Verif.Rng
open Verif.Misc

abbrev W32 := BitVec 32

/-- A `RandomNumberGenerator`: `GenerateBlock` for a number of bytes, from a state. -/
structure Gen (σ : Type) where
  block : σ → Nat → List Byte × σ

/-- `Crop` (misc.h:1131-1137) for a type of `w` bits. -/
def crop (w value bits : Nat) : Nat := if bits < w then value &&& ((1 <<< bits) - 1) else value

/-- One round of the loop of `GenerateWord32` (cryptlib.cpp:290-294) on the four bytes generated: the value returned, or another round. -/
def tryWord (order : ByteOrder) (min max : W32) (bytes : List Byte) : Option W32 :=
  let range := max - min
  let value : W32 := BitVec.ofNat 32 (crop 32 (order.val bytes) (bitPrecision 4 range.toNat))
  if range < value then none else some (value + min)

/-- `RandomNumberGenerator::GenerateWord32` (cryptlib.cpp:283-297), at most `fuel` rounds. `order` is the machine's byte order. -/
def generateWord32 {σ : Type} (g : Gen σ) (order : ByteOrder) (min max : W32) : Nat → σ → Except Err (W32 × σ)
  | 0, _ => .error .diverges
  | f + 1, s =>
    let (bytes, s) := g.block s 4
    match tryWord order min max bytes with
    | some v => .ok (v, s)
    | none => generateWord32 g order min max f s

/-- `std::iter_swap(begin, begin + r)` on the elements from `begin` to `end`; `none` when `r` is past the end (undefined). -/
def iterSwap {α : Type} (l : List α) (r : Nat) : Option (List α) :=
  match l[0]?, l[r]? with
  | some a, some b => some ((l.set 0 b).set r a)
  | _, _ => none

/-- `RandomNumberGenerator::Shuffle` (cryptlib.h:1515-1520) on the elements from `begin` to `end`. `n` counts the rounds left. -/
def shuffle {σ α : Type} (g : Gen σ) (order : ByteOrder) (fuel : Nat) : Nat → List α → σ → Except Err (List α × σ)
  | 0, l, s => .ok (l, s)
  | n + 1, l, s =>
    if l.length = 0 then .ok (l, s) else
    match generateWord32 g order 0 (BitVec.ofNat 32 (l.length - 1)) fuel s with
    | .error e => .error e
    | .ok (r, s) =>
      match iterSwap l r.toNat with
      | none => .error .undefinedBehaviour
      | some l =>
        match shuffle g order fuel n l.tail s with
        | .error e => .error e
        | .ok (t, s) => .ok (l.take 1 ++ t, s)

/-! ## Integer::Randomize. `Integer` is taken as the mathematical integers: Verif.Integer proves its operations exact. -/

/-- What `Randomize(rng, nbits)` (integer.cpp:3520-3532) makes of the bytes generated. -/
def bitsValue (nbits : Nat) (buf : List Byte) : Nat :=
  match buf with
  | [] => 0
  | b :: bs => beVal (BitVec.ofNat 8 (crop 8 b.toNat (nbits % 8)) :: bs)

/-- One round of the loop of `Randomize(rng, min, max)` (integer.cpp:3542-3546) and the addition after it. -/
def tryInteger (min max : Int) (buf : List Byte) : Option Int :=
  let range := max - min
  let nbits := bitLen range.toNat
  let v : Int := bitsValue nbits buf
  if range < v then none else some (v + min)

/-- The loop, at most `fuel` rounds. -/
def randomizeLoop {σ : Type} (g : Gen σ) (min max : Int) : Nat → σ → Except Err (Int × σ)
  | 0, _ => .error .diverges
  | f + 1, s =>
    let (buf, s) := g.block s (bitLen (max - min).toNat / 8 + 1)
    match tryInteger min max buf with
    | some v => .ok (v, s)
    | none => randomizeLoop g min max f s

/-- `Integer::Randomize(rng, min, max)` (integer.cpp:3534-3549). -/
def randomize {σ : Type} (g : Gen σ) (min max : Int) (fuel : Nat) (s : σ) : Except Err (Int × σ) :=
  if max < min then .error .invalidArgument else randomizeLoop g min max fuel s

/-- `Integer::GenerateRandomNoThrow` with `RandomNumberType` ANY and no seed (integer.cpp:3588-3643); `none` is `return false`. -/
def randomizeEquiv {σ : Type} (g : Gen σ) (min max equiv mod : Int) (fuel : Nat) (s : σ) : Except Err (Option Int × σ) :=
  if max < min then .error .invalidArgument
  else if equiv < 0 ∨ mod ≤ equiv then .error .invalidArgument
  else if mod = 1 then
    match randomize g min max fuel s with
    | .error e => .error e
    | .ok (v, s) => .ok (some v, s)
  else
    let min1 := min + (equiv - min) % mod
    if max < min1 then .ok (none, s)
    else
      match randomize g 0 ((max - min1) / mod) fuel s with
      | .error e => .error e
      | .ok (v, s) => .ok (some (v * mod + min1), s)

/-! ## LC_RNG -/

/-- A step of `LC_RNG::GenerateBlock` (rng.cpp:43-53) on the seed. `a` and `r` are `word16` and are promoted to `int`, `lo` and `hi` are
`word32`: the products and the difference are computed in `word32` and only then converted to `sword64`. -/
def lcNext (seed : W32) : W32 :=
  let q : W32 := 44488
  let hi := seed / q
  let lo := seed % q
  let test : Int := ((48271 : W32) * lo - (3399 : W32) * hi).toNat
  if 0 < test then BitVec.ofInt 32 test else BitVec.ofInt 32 (test + 2147483647)

/-- `LC_RNG::GenerateBlock` (rng.cpp:41-57). -/
def lcBlock : Nat → W32 → List Byte × W32
  | 0, s => ([], s)
  | n + 1, s =>
    let s := lcNext s
    let r := lcBlock n s
    ((s.truncate 8 ^^^ (s >>> 8).truncate 8 ^^^ (s >>> 16).truncate 8 ^^^ (s >>> 24).truncate 8) :: r.1, r.2)

/-! ## MersenneTwister -/

/-- The template parameters (mersenne.h:32). -/
structure MTParams where
  K : W32
  M : Nat
  N : Nat
  F : W32

/-- The state (mersenne.h:192-196): `m_state` with `N+1` words, and `m_idx`. -/
structure MT where
  st : List W32
  idx : Nat

/-- `m_state[i]`. The indices used are below `N+1`. -/
def rd (l : List W32) (i : Nat) : W32 := l.getD i 0

/-- The loop of `Reset` (mersenne.h:139-141): `m_state[i]` for `i` from `k`, `n` of them. -/
def seedLoop (P : MTParams) : Nat → Nat → List W32 → List W32
  | 0, _, l => l
  | n + 1, i, l => seedLoop P n (i + 1) (l ++ [P.F * (rd l (i - 1) ^^^ (rd l (i - 1) >>> 30)) + BitVec.ofNat 32 i])

/-- `Reset` (mersenne.h:134-142). -/
def MT.reset (P : MTParams) (seed : W32) : MT := ⟨seedLoop P P.N 1 [seed], P.N⟩

/-- The word computed from neighbours and the word `M` further (mersenne.h:171-172). -/
def twistWord (P : MTParams) (a b c : W32) : W32 :=
  let temp := (a &&& 0x80000000) ||| (b &&& 0x7FFFFFFF)
  c ^^^ (temp >>> 1) ^^^ (if temp &&& 1 = 0 then 0 else P.K)

/-- The loops of `Twist` (mersenne.h:169-179), `n` rounds from `kk`, reading the word at distance `off`. -/
def twistLoop (P : MTParams) (off : Nat → Nat) : Nat → Nat → List W32 → List W32
  | 0, _, l => l
  | n + 1, kk, l => twistLoop P off n (kk + 1) (l.set kk (twistWord P (rd l kk) (rd l (kk + 1)) (rd l (off kk))))

/-- `Twist` (mersenne.h:163-189). -/
def MT.twist (P : MTParams) (m : MT) : MT :=
  let l := twistLoop P (fun kk => kk + P.M) (P.N - P.M) 0 m.st
  let l := twistLoop P (fun kk => kk + P.M - P.N) (P.M - 1) (P.N - P.M) l
  let l := l.set (P.N - 1) (twistWord P (rd l (P.N - 1)) (rd l 0) (rd l (P.M - 1)))
  ⟨l, 0⟩

/-- The tempering (mersenne.h:154-158). -/
def temper (x : W32) : W32 :=
  let x := x ^^^ (x >>> 11)
  let x := x ^^^ ((x <<< 7) &&& 0x9D2C5680)
  let x := x ^^^ ((x <<< 15) &&& 0xEFC60000)
  x ^^^ (x >>> 18)

/-- `NextMersenneWord` (mersenne.h:148-159). -/
def MT.next (P : MTParams) (m : MT) : W32 × MT :=
  let m := if P.N ≤ m.idx then m.twist P else m
  (temper (rd m.st m.idx), { m with idx := m.idx + 1 })

/-- `n` words. -/
def MT.words (P : MTParams) : Nat → MT → List W32 × MT
  | 0, m => ([], m)
  | n + 1, m => let (x, m) := m.next P; let r := MT.words P n m; (x :: r.1, r.2)

/-- `MersenneTwister::GenerateBlock` (mersenne.h:80-104): whole words by `memcpy` in the machine's order, the tail from the top byte down. -/
def MT.block (P : MTParams) (order : ByteOrder) (m : MT) (size : Nat) : List Byte × MT :=
  let r := m.words P (size / 4)
  let out := r.1.flatMap fun x => order.bytes 4 x.toNat
  if size % 4 = 0 then (out, r.2)
  else
    let (x, m) := r.2.next P
    (out ++ [(x >>> 24).truncate 8, (x >>> 16).truncate 8, (x >>> 8).truncate 8].take (size % 4), m)

/-- `MersenneTwister::GenerateWord32` (mersenne.h:110-124). -/
def MT.word32 (P : MTParams) (min max : W32) : Nat → MT → Except Err (W32 × MT)
  | 0, _ => .error .diverges
  | f + 1, m =>
    let range := max - min
    let (x, m) := m.next P
    if range = 0xffffffff then .ok (x, m) else
    let value : W32 := BitVec.ofNat 32 (crop 32 x.toNat (bitPrecision 4 range.toNat))
    if range < value then MT.word32 P min max f m else .ok (value + min, m)

/-- `DiscardBytes` (mersenne.h:126-130). -/
def MT.discard (P : MTParams) (n : Nat) (m : MT) : MT := (m.words P ((n + 3) / 4 * 4)).2

/-- `IncorporateEntropy` (mersenne.h:54-70). -/
def MT.incorporate (P : MTParams) (input : List Byte) : MT :=
  MT.reset P ((input.take 4).foldl (fun t b => (t <<< 8) ||| b.zeroExtend 32) 0)

/-! ## X917RNG -/

/-- `X917RNG` with a deterministic time vector (rng.h:46-74). -/
structure X917 where
  dtv : List Byte
  randseed : List Byte
  last : List Byte

/-- A round of the loop (rng.cpp:96-129): the block put out. `E` is the block cipher, `n` its block size. `SelfTestFailure` is `.other`. -/
def X917.round (E : List Byte → List Byte) (n : Nat) (x : X917) : Except Err (List Byte × X917) :=
  let datetime := E x.dtv
  let dtv := Verif.Modes.incrementCounterByOne n x.dtv
  let r := E (List.zipWith (· ^^^ ·) x.randseed datetime)
  if x.last = r then .error .other
  else .ok (r, ⟨dtv, E (List.zipWith (· ^^^ ·) r datetime), r⟩)

/-- `GenerateIntoBufferedTransformation` (rng.cpp:94-131). -/
def X917.generate (E : List Byte → List Byte) (n : Nat) : Nat → X917 → Nat → Except Err (List Byte × X917)
  | 0, x, size => if size = 0 then .ok ([], x) else .error .diverges
  | f + 1, x, size =>
    if size = 0 then .ok ([], x) else
    match x.round E n with
    | .error e => .error e
    | .ok (r, x) =>
      match X917.generate E n f x (size - min n size) with
      | .error e => .error e
      | .ok (out, x) => .ok (r.take (min n size) ++ out, x)

/-- The constructor (rng.cpp:63-92) with a time vector: `m_lastBlock` starts as zeros (for block sizes above 8; for 8 it is not
initialised, `last0` is what it holds) and one block is generated. -/
def X917.make (E : List Byte → List Byte) (n : Nat) (seed dtv last0 : List Byte) : Except Err X917 :=
  match X917.round E n ⟨dtv, seed, last0⟩ with
  | .error e => .error e
  | .ok (_, x) => .ok x

end Verif.Rng
