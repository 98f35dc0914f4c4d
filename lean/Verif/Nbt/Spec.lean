/-! # What number theory says

Greatest common divisors, primes, Jacobi symbols and orders are Mathlib's.  The Lucas sequence is defined here. -/
namespace Verif.Nbt

/-- The Lucas sequence `V_k(P, 1)`: `V_0 = 2`, `V_1 = P`, `V_{k+2} = P V_{k+1} - V_k`. -/
def V (P : Int) : Nat → Int
  | 0 => 2
  | 1 => P
  | k + 2 => P * V P (k + 1) - V P k

end Verif.Nbt
