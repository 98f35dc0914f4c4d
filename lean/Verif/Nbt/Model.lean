import Verif.Rsa.Model
import Verif.Misc.Precision
import Verif.Nbt.Table

/-! # Number theory (nbtheory.cpp, algebra.cpp, integer.cpp)

`Integer` values are `Int`; `%` and `/` are the Euclidean remainder and quotient, which `Integer::Divide` computes (C25), `powMod` is
`a_exp_b_mod_c` (C27) and `invMod` is `InverseMod` (C28, Verif.Integer).  Each loop is given a number of rounds; one that has not ended by then is reported
as `diverges`. -/
namespace Verif.Nbt
open Verif.Dl (invMod)
open Verif.Rsa (powMod crt modularRoot)

/-! ## Greatest common divisors -/

/-- The loop of `AbstractEuclideanDomain::Gcd` (algebra.cpp:61-65) on `g[i0]`, `g[i1]`. -/
def gcdLoop : Nat → Int → Int → Except Err Int
  | 0, _, _ => .error .diverges
  | f + 1, g0, g1 => if g1 = 0 then .ok g0 else gcdLoop f g1 (g0 % g1)

/-- `GCD`, `Integer::Gcd`, `AbstractEuclideanDomain::Gcd` (nbtheory.h:146, integer.cpp:4472-4475, algebra.cpp:56-68). -/
def gcd (fuel : Nat) (a b : Int) : Except Err Int := gcdLoop fuel b a

/-- `RelativelyPrime` (nbtheory.h:153-154). -/
def relativelyPrime (fuel : Nat) (a b : Int) : Except Err Bool := do
  let g ← gcd fuel a b
  return g == 1

/-- `LCM` (nbtheory.h:160-161). -/
def lcm (fuel : Nat) (a b : Int) : Except Err Int := do
  let g ← gcd fuel a b
  if g = 0 then .error .divideByZero else return a / g * b

/-! ## The Jacobi symbol -/

/-- `while (a.GetBit(i)==0) i++;` (nbtheory.cpp:786-788). -/
def lowBit (a : Nat) : Nat → Nat → Except Err Nat
  | 0, _ => .error .diverges
  | f + 1, i => if a.testBit i then .ok i else lowBit a f (i + 1)

/-- The loop of `Jacobi` (nbtheory.cpp:784-803). -/
def jacobiLoop (F : Nat) : Nat → Int → Int → Int → Except Err Int
  | 0, _, _, _ => .error .diverges
  | f + 1, a, b, result =>
    if a = 0 then .ok (if b = 1 then result else 0)
    else
      match lowBit a.natAbs F 0 with
      | .error e => .error e
      | .ok i =>
        let a := a / 2 ^ i
        let result := if i % 2 = 1 ∧ (b % 8 = 3 ∨ b % 8 = 5) then -result else result
        let result := if a % 4 = 3 ∧ b % 4 = 3 then -result else result
        jacobiLoop F f (b % a) a result

/-- `Jacobi` (nbtheory.cpp:777-806). -/
def jacobi (fuel : Nat) (aIn bIn : Int) : Except Err Int :=
  if bIn = 0 then .error .divideByZero else jacobiLoop fuel fuel (aIn % bIn) bIn 1

/-! ## Square roots of integers -/

/-- The loop of `Integer::SquareRoot` (integer.cpp:4428-4432), entered with `x`. -/
def sqrtLoop (n : Int) : Nat → Int → Except Err Int
  | 0, _ => .error .diverges
  | f + 1, x =>
    if x = 0 then .error .divideByZero else
    let y := (x + n / x) / 2
    if y < x then sqrtLoop n f y else .ok x

/-- `Integer::SquareRoot` (integer.cpp:4419-4435). -/
def squareRoot (fuel : Nat) (n : Int) : Except Err Int :=
  if n ≤ 0 then .ok 0 else sqrtLoop n fuel (2 ^ ((Misc.bitLen n.natAbs + 1) / 2))

/-- `Integer::IsSquare` (integer.cpp:4437-4441). -/
def isSquare (fuel : Nat) (n : Int) : Except Err Bool := do
  let r ← squareRoot fuel n
  return n == r * r

/-! ## Square roots modulo a prime -/

/-- `while (q.IsEven()) { r++; q >>= 1; }` (nbtheory.cpp:555-559). -/
def halve : Nat → Int → Nat → Except Err (Int × Nat)
  | 0, _, _ => .error .diverges
  | f + 1, q, r => if q % 2 = 0 then halve f (q / 2) (r + 1) else .ok (q, r)

/-- `while (Jacobi(n, p) != -1) ++n;` (nbtheory.cpp:562-563). -/
def nonResidue (F : Nat) (p : Int) : Nat → Int → Except Err Int
  | 0, _ => .error .diverges
  | f + 1, n =>
    match jacobi F n p with
    | .error e => .error e
    | .ok j => if j ≠ -1 then nonResidue F p f (n + 1) else .ok n

/-- The inner loop (nbtheory.cpp:575-583): the number of squarings after which `b` is 1, or nothing when `m` reaches `r`. -/
def orderLoop (p : Int) (r : Nat) : Nat → Int → Nat → Except Err (Option Nat)
  | 0, _, _ => .error .diverges
  | f + 1, b, m =>
    let m := m + 1
    let b := b * b % p
    if m = r then .ok none else if b ≠ 1 then orderLoop p r f b m else .ok (some m)

/-- `for (unsigned i=0; i<n; i++) t = t.Squared()%p;` (nbtheory.cpp:586-587). -/
def squarings (p : Int) : Nat → Int → Int
  | 0, t => t
  | n + 1, t => squarings p n (t * t % p)

/-- The outer loop (nbtheory.cpp:571-592) on `r`, `y`, `x`, `b`. -/
def rootLoop (F : Nat) (p : Int) : Nat → Nat → Int → Int → Int → Except Err Int
  | 0, _, _, _, _ => .error .diverges
  | f + 1, r, y, x, b =>
    if b = 1 then .ok x else
    match orderLoop p r F b 0 with
    | .error e => .error e
    | .ok none => .ok 0
    | .ok (some m) =>
      let t := squarings p (r - m - 1) y
      let y := t * t % p
      rootLoop F p f m y (x * t % p) (b * y % p)

/-- `ModularSquareRoot` (nbtheory.cpp:545-595). -/
def modularSquareRoot (fuel : Nat) (a p : Int) : Except Err Int :=
  if p % 4 = 3 then .ok (powMod a ((p + 1) / 4) p) else
  match halve fuel (p - 1) 0 with
  | .error e => .error e
  | .ok (q, r) =>
    match nonResidue fuel p fuel 2 with
    | .error e => .error e
    | .ok n =>
      let y := powMod n q p
      let x := powMod a ((q - 1) / 2) p
      let b := x * x % p * a % p
      rootLoop fuel p fuel r y (a * x % p) b

/-- `SolveModularQuadraticEquation` (nbtheory.cpp:597-623): the two roots, or nothing for `false`. -/
def solveQuadratic (fuel : Nat) (a b c p : Int) : Except Err (Option (Int × Int)) :=
  let D := (b * b - 4 * a * c) % p
  match jacobi fuel D p with
  | .error e => .error e
  | .ok j =>
    if j = 0 then
      let r := -b * invMod (a + a) p % p
      .ok (some (r, r))
    else if j = 1 then
      match modularSquareRoot fuel D p with
      | .error e => .error e
      | .ok s =>
        let t := invMod (a + a) p
        .ok (some ((s - b) * t % p, (-s - b) * t % p))
    else .ok none

/-- `ModularRoot(a, e, p, q)` (nbtheory.cpp:650-661). -/
def root (a e p q : Int) : Int := modularRoot a (invMod e (p - 1)) (invMod e (q - 1)) p q (invMod p q)

/-! ## Lucas sequences -/

/-- The loop of `Lucas` (nbtheory.cpp:818-834). The residues are the values their Montgomery representations stand for. -/
def lucasLoop (e : Nat) (p n : Int) : Nat → Int → Int → Int
  | 0, v, _ => v
  | i + 1, v, v1 =>
    if e.testBit i then lucasLoop e p n i ((v * v1 - p) % n) ((v1 * v1 - 2) % n)
    else lucasLoop e p n i ((v * v - 2) % n) ((v * v1 - p) % n)

/-- `Lucas` (nbtheory.cpp:808-836). The constructor of `MontgomeryRepresentation` refuses an even modulus. -/
def lucas (e pIn n : Int) : Except Err Int :=
  let i := Misc.bitLen e.natAbs
  if i = 0 then .ok 2 else
  if n % 2 = 0 then .error .invalidArgument else
  let p := pIn % n
  .ok (lucasLoop e.natAbs p n (i - 1) p ((p * p - 2) % n))

/-- `InverseLucas` (nbtheory.cpp:952-981). -/
def inverseLucas (fuel : Nat) (e m p q u : Int) : Except Err Int := do
  let d := m * m - 4
  let jp ← jacobi fuel d p
  let p2 ← lucas (invMod e (p - jp)) m p
  let jq ← jacobi fuel d q
  let q2 ← lucas (invMod e (q - jq)) m q
  return crt p2 p q2 q u

/-! ## Prime tests -/

/-- `s_lastSmallPrime` (nbtheory.cpp:24). -/
def lastSmallPrime : Nat := 32719

/-- `IsSmallPrime` (nbtheory.cpp:33-42). `std::binary_search` on the sorted table is membership. -/
def isSmallPrime (p : Int) : Bool := decide (0 < p) && decide (p ≤ table.getLastD 0) && table.contains p.toNat

/-- `TrialDivision` (nbtheory.cpp:44-61), the table from the current entry on. Running past the table is undefined. -/
def trialLoop (p : Int) (bound : Nat) : List Nat → Except Err Bool
  | [] => .error .undefinedBehaviour
  | t :: ts => if t < bound then (if p % t = 0 then .ok true else trialLoop p bound ts) else .ok (bound == t && p % bound == 0)

def trialDivision (p : Int) (bound : Nat) : Except Err Bool := trialLoop p bound table

/-- `SmallDivisorsTest` (nbtheory.cpp:63-68). -/
def smallDivisorsTest (p : Int) : Except Err Bool := do
  let r ← trialDivision p (table.getLastD 0)
  return !r

/-- `IsFermatProbablePrime` (nbtheory.cpp:70-77). -/
def isFermat (n b : Int) : Bool := if n ≤ 3 then n == 2 || n == 3 else powMod b (n - 1) n == 1

/-- The loop of `IsStrongProbablePrime` (nbtheory.cpp:101-109), `k` rounds left. -/
def strongLoop (n : Int) : Nat → Int → Bool
  | 0, _ => false
  | k + 1, z =>
    let z := z * z % n
    if z = n - 1 then true else if z = 1 then false else strongLoop n k z

/-- `IsStrongProbablePrime` (nbtheory.cpp:79-110). -/
def isStrong (fuel : Nat) (n b : Int) : Except Err Bool :=
  if n ≤ 3 then .ok (n == 2 || n == 3) else
  if n % 2 = 0 then .ok false else
  match gcd fuel b n with
  | .error e => .error e
  | .ok g =>
    if g ≠ 1 then .ok false else
    match lowBit (n - 1).natAbs fuel 0 with
    | .error e => .error e
    | .ok a =>
      let m := (n - 1) / 2 ^ a
      let z := powMod b m n
      .ok (if z = 1 ∨ z = n - 1 then true else strongLoop n (a - 1) z)

/-- `RabinMillerTest` (nbtheory.cpp:112-127); `bs` are the bases `Randomize(rng, 2, n-2)` gives. -/
def rabinMiller (fuel : Nat) (n : Int) (bs : List Int) : Except Err Bool :=
  if n ≤ 3 then .ok (n == 2 || n == 3) else
  match bs with
  | [] => .ok true
  | b :: bs =>
    match isStrong fuel n b with
    | .error e => .error e
    | .ok r => if r then rabinMiller fuel n bs else .ok false

/-- The search for `b` (nbtheory.cpp:143-148, 174-179): the value found and its symbol, or nothing when the modulus is a square. -/
def lucasBase (F : Nat) (n : Int) : Nat → Int → Nat → Except Err (Option (Int × Int))
  | 0, _, _ => .error .diverges
  | f + 1, b, i =>
    match jacobi F (b * b - 4) n with
    | .error e => .error e
    | .ok j =>
      if j = 1 then
        if i + 1 = 64 then
          match isSquare F n with
          | .error e => .error e
          | .ok s => if s then .ok none else lucasBase F n f (b + 2) (i + 1)
        else lucasBase F n f (b + 2) (i + 1)
      else .ok (some (b, j))

/-- `IsLucasProbablePrime` (nbtheory.cpp:129-155). -/
def isLucas (fuel : Nat) (n : Int) : Except Err Bool :=
  if n ≤ 1 then .ok false else
  if n % 2 = 0 then .ok (n == 2) else
  match lucasBase fuel n fuel 3 0 with
  | .error e => .error e
  | .ok none => .ok false
  | .ok (some (b, j)) =>
    if j = 0 then .ok false else
    match lucas (n + 1) b n with
    | .error e => .error e
    | .ok v => .ok (v == 2)

/-- The loop of `IsStrongLucasProbablePrime` (nbtheory.cpp:197-205), `k` rounds left. -/
def strongLucasLoop (n : Int) : Nat → Int → Bool
  | 0, _ => false
  | k + 1, z =>
    let z := (z * z - 2) % n
    if z = n - 2 then true else if z = 2 then false else strongLucasLoop n k z

/-- `IsStrongLucasProbablePrime` (nbtheory.cpp:157-207). -/
def isStrongLucas (fuel : Nat) (n : Int) : Except Err Bool :=
  if n ≤ 1 then .ok false else
  if n % 2 = 0 then .ok (n == 2) else
  match lucasBase fuel n fuel 3 0 with
  | .error e => .error e
  | .ok none => .ok false
  | .ok (some (b, j)) =>
    if j = 0 then .ok false else
    match lowBit (n + 1).natAbs fuel 0 with
    | .error e => .error e
    | .ok a =>
      let m := (n + 1) / 2 ^ a
      match lucas m b n with
      | .error e => .error e
      | .ok z => .ok (if z = 2 ∨ z = n - 2 then true else strongLucasLoop n (a - 1) z)

/-- `IsPrime` (nbtheory.cpp:217-225). -/
def isPrime (fuel : Nat) (p : Int) : Except Err Bool :=
  if p ≤ lastSmallPrime then .ok (isSmallPrime p)
  else if p ≤ lastSmallPrime * lastSmallPrime then smallDivisorsTest p
  else do
    if ← smallDivisorsTest p then
      if ← isStrong fuel p 3 then isStrongLucas fuel p else return false
    else return false

/-- `VerifyPrime` (nbtheory.cpp:227-233); `b1` is the base of the first test, `bs` are those of the ten of level 1. -/
def verifyPrime (fuel : Nat) (p : Int) (level : Nat) (b1 : Int) (bs : List Int) : Except Err Bool := do
  let pass ← if ← isPrime fuel p then rabinMiller fuel p [b1] else return false
  if 1 ≤ level then (if pass then rabinMiller fuel p bs else return false) else return pass

/-! ## Proved primes -/

/-- The loop of `ProvePrime` (nbtheory.cpp:423-428) over the first entries of the table. -/
def proveLoop (r q p : Int) : List Nat → Bool
  | [] => false
  | t :: ts =>
    let b := powMod t r p
    if b ≠ 1 then powMod b q p == 1 else proveLoop r q p ts

/-- `ProvePrime` (nbtheory.cpp:403-430). -/
def provePrime (fuel : Nat) (p q : Int) : Except Err Bool := do
  let r := (p - 1) / q
  if ← isSquare fuel ((r % q) * (r % q) - 4 * (r / q)) then return false
  return proveLoop r q p (table.take 50)

/-- `MihailescuProvablePrime(rng, pbits)` can return `p` (nbtheory.cpp:432-472).  The generator decides: in the first case which number of the range
`Randomize(..., PRIME)` finds (any number it returns has passed `IsPrime`), in the second the size of `q`, where the progression of numbers that are 1
modulo `2q` starts, and so which of its members is tried. -/
inductive Mihailescu (fuel : Nat) : Nat → Int → Prop
  | small {pbits : Nat} {p : Int} (hb : 2 ^ pbits - 1 ≤ (lastSmallPrime : Int) * lastSmallPrime) (h1 : 2 ^ (pbits - 1) ≤ p) (h2 : p ≤ 2 ^ pbits - 1)
      (hp : isPrime fuel p = .ok true) : Mihailescu fuel pbits p
  | step {pbits extra : Nat} {p q : Int} (hb : ¬(2 ^ pbits - 1 ≤ (lastSmallPrime : Int) * lastSmallPrime)) (he : extra ≤ pbits / 36)
      (hq : Mihailescu fuel ((pbits + 2) / 3 + 1 + extra) q) (h1 : 2 ^ (pbits - 1) ≤ p) (h2 : p ≤ 2 ^ pbits - 1) (hm : p % (q * 2) = 1)
      (hs : isStrong fuel p 2 = .ok true) (hp : provePrime fuel p q = .ok true) : Mihailescu fuel pbits p

/-- `unsigned(bits * relativeSize)` (nbtheory.cpp:491-498): `relativeSize` is a power of two between one half and one, so any size from half of `bits`
on; the loop excludes those from `bits - margin` on.  Which of them the floating-point arithmetic reaches is not modelled, save that a random word 0 gives
one half exactly. -/
def maurerSize (bits size : Nat) : Prop := bits / 2 ≤ size ∧ size < bits - (if bits > 50 then 20 else (bits - 10) / 2)

/-- `MaurerProvablePrime(rng, bits)` can return `p` (nbtheory.cpp:474-519), when `sz bits size` says which sizes of `q` may be drawn. -/
inductive Maurer (fuel : Nat) (sz : Nat → Nat → Prop) : Nat → Int → Prop
  | small {bits : Nat} {p : Int} (hb : bits < 29) (h1 : 2 ^ (bits - 1) ≤ p) (h2 : p ≤ 2 ^ bits - 1) (hm : p % 2 = 1)
      (ht : trialDivision p (1 <<< ((bits + 1) / 2)) = .ok false) : Maurer fuel sz bits p
  | step {bits size : Nat} {q R a : Int} (hb : ¬bits < 29) (hz : sz bits size) (hq : Maurer fuel sz size q)
      (h1 : 2 ^ (bits - 2) / q ≤ R) (h2 : R ≤ 2 ^ (bits - 2) / q * 2)
      (ht : trialDivision (R * q * 2 + 1) (min (table.getLastD 0) (bits * bits / 10)) = .ok false) (ha : 2 ≤ a) (ha2 : a ≤ R * q * 2 + 1 - 1)
      (hg : gcd fuel (powMod a ((R * q * 2 + 1 - 1) / q) (R * q * 2 + 1) - 1) (R * q * 2 + 1) = .ok 1)
      (hp : powMod (powMod a ((R * q * 2 + 1 - 1) / q) (R * q * 2 + 1)) q (R * q * 2 + 1) = 1) : Maurer fuel sz bits (R * q * 2 + 1)

/-! ## Generators -/

/-- `for (g=2; Jacobi(g, p) != 1; ++g) {}` (nbtheory.cpp:1041). -/
def residue (F : Nat) (p : Int) : Nat → Int → Except Err Int
  | 0, _ => .error .diverges
  | f + 1, g =>
    match jacobi F g p with
    | .error e => .error e
    | .ok j => if j ≠ 1 then residue F p f (g + 1) else .ok g

/-- The generator `PrimeAndGenerator::Generate` finds for `delta = 1` when `p = 2q + 1` (nbtheory.cpp:1037-1044). -/
def safeGenerator (fuel : Nat) (p : Int) : Except Err Int := residue fuel p fuel 2

/-- The generator it finds for `delta = 1` otherwise (nbtheory.cpp:1072-1080); `hs` are the values `h` takes. -/
def subgroupGenerator (p q : Int) : List Int → Except Err Int
  | [] => .error .diverges
  | h :: hs =>
    let g := powMod h ((p - 1) / q) p
    if g ≤ 1 then subgroupGenerator p q hs else .ok g

end Verif.Nbt
