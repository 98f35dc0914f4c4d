import Verif.Dl.Model

/-! # RSA (rsa.h, rsa.cpp, nbtheory.cpp)

`Integer` values are `Int`, as in Verif.Dl. -/
namespace Verif.Rsa
open Verif.Dl

/-- `InvertibleRSAFunction` (rsa.h:78-140): `m_n`, `m_e`, `m_d`, `m_p`, `m_q`, `m_dp`, `m_dq`, `m_u`. -/
structure Key where
  n : Int
  e : Int
  d : Int
  p : Int
  q : Int
  dp : Int
  dq : Int
  u : Int
deriving DecidableEq

/-- `LCM` (nbtheory.h:160-161). -/
def lcm (a b : Int) : Int := a / Int.gcd a b * b

/-- `RSAFunction::Validate` (rsa.cpp:76-86), the same at every level. -/
def validatePublic (k : Key) : Bool := decide (k.n > 1) && decide (k.n % 2 = 1) && decide (k.e > 1) && decide (k.e % 2 = 1) && decide (k.e < k.n)

/-- `InvertibleRSAFunction::Validate` (rsa.cpp:260-292) without the primality tests of level 2. -/
def validate (k : Key) (level : Nat) : Bool :=
  validatePublic k &&
  (decide (k.p > 1) && decide (k.p % 2 = 1) && decide (k.p < k.n)) &&
  (decide (k.q > 1) && decide (k.q % 2 = 1) && decide (k.q < k.n)) &&
  (decide (k.d > 1) && decide (k.d % 2 = 1) && decide (k.d < k.n)) &&
  (decide (k.dp > 1) && decide (k.dp % 2 = 1) && decide (k.dp < k.p)) &&
  (decide (k.dq > 1) && decide (k.dq % 2 = 1) && decide (k.dq < k.q)) &&
  (decide (k.u > 0) && decide (k.u < k.p)) &&
  (decide (level = 0) ||
    (decide (k.p * k.q = k.n) && decide (k.e * k.d % lcm (k.p - 1) (k.q - 1) = 1) && decide (k.dp = k.d % (k.p - 1)) && decide (k.dq = k.d % (k.q - 1)) && decide (k.u * k.q % k.p = 1)))

/-- `a_exp_b_mod_c` (integer.cpp:4462-4470), `ModularExponentiation`, `ModularArithmetic::Exponentiate`: their value. -/
def powMod (a e m : Int) : Int := a ^ e.toNat % m

/-- `RSAFunction::ApplyFunction` (rsa.cpp:70-74). `valid` is the outcome of the sanity check, that of the object's own class. -/
def applyFunction (valid : Bool) (k : Key) (x : Int) : Except Err Int := if !valid then .error .other else .ok (powMod x k.e k.n)

/-- `CRT` (nbtheory.cpp:526-529). -/
def crt (xp p xq q u : Int) : Int := p * (u * (xq - xp) % q) + xp

/-- `ModularRoot` (nbtheory.cpp:625-648). -/
def modularRoot (a dp dq p q u : Int) : Int := crt (powMod (a % p) dp p) p (powMod (a % q) dq q) q u

/-- `InvertibleRSAFunction::CalculateInverse` (rsa.cpp:240-258). `rs` are the values `Randomize` gives; the loop takes the first that has an inverse. -/
def calculateInverse (k : Key) (rs : List Int) (x : Int) : Except Err Int :=
  if !validate k 0 then .error .other else
  match rs.find? (fun r => invMod r k.n != 0) with
  | none => .error .diverges
  | some r =>
    let rInv := invMod r k.n
    let re := powMod r k.e k.n
    let re := re * x % k.n
    let y := modularRoot re k.dq k.dp k.q k.p k.u
    let y := y * rInv % k.n
    if powMod y k.e k.n ≠ x then .error .other else .ok y

/-- `RSAFunction_ISO::ApplyFunction` (rsa.cpp:321-325). -/
def applyIso (valid : Bool) (k : Key) (x : Int) : Except Err Int :=
  match applyFunction valid k x with
  | .error e => .error e
  | .ok t => .ok (if t % 16 = 12 then t else k.n - t)

/-- `InvertibleRSAFunction_ISO::CalculateInverse` (rsa.cpp:327-331). -/
def inverseIso (k : Key) (rs : List Int) (x : Int) : Except Err Int :=
  match calculateInverse k rs x with
  | .error e => .error e
  | .ok t => .ok (min t (k.n - t))

/-- The key `InvertibleRSAFunction::GenerateRandom` (rsa.cpp:113-156) makes of the primes `p`, `q`. -/
def makeKey (p q e : Int) : Key :=
  let d := invMod e (lcm (p - 1) (q - 1))
  { n := p * q, e := e, d := d, p := p, q := q, dp := d % (p - 1), dq := d % (q - 1), u := invMod q p }

/-- `r >>= 1, s++` while `r` is even (rsa.cpp:173-179). -/
def strip : Nat → Int → Nat → Option (Int × Nat)
  | 0, _, _ => none
  | f + 1, r, s => if r % 2 = 0 then strip f (r / 2) (s + 1) else some (r, s)

/-- The loop over the squares of `a` (rsa.cpp:189-206): a factor, an exception, or `none` for the next base. -/
def squares (n : Int) (s : Nat) : Nat → Int → Nat → Except Err (Option Int)
  | 0, _, _ => .error .diverges
  | f + 1, a, j =>
    if a = n - 1 then .ok none else
    let b := a * a % n
    if b = 1 then .ok (some (Int.gcd (a - 1) n)) else
    if j + 1 = s then .error .invalidArgument else
    squares n s f b (j + 1)

/-- The loop over the bases (rsa.cpp:182-207). -/
def bases (n r : Int) (s : Nat) : Nat → Int → Except Err Int
  | 0, _ => .error .diverges
  | f + 1, i =>
    let a := powMod i r n
    if a = 1 then bases n r s f (i + 1) else
    match squares n s (s + 1) a 0 with
    | .error e => .error e
    | .ok (some p) => .ok p
    | .ok none => bases n r s f (i + 1)

/-- `InvertibleRSAFunction::Initialize(n, e, d)` (rsa.cpp:163-208): the private key from modulus and exponents. `fuel` bounds the bases tried. -/
def initKey (fuel : Nat) (n e d : Int) : Except Err Key :=
  if n % 2 = 0 || e % 2 = 0 || d % 2 = 0 then .error .invalidArgument else
  match strip (d * e).toNat (d * e - 1) 0 with
  | none => .error .diverges
  | some (r, s) =>
    match bases n r s fuel 2 with
    | .error err => .error err
    | .ok p =>
      let q := n / p
      .ok { n := n, e := e, d := d, p := p, q := q, dp := d % (p - 1), dq := d % (q - 1), u := invMod q p }

end Verif.Rsa
