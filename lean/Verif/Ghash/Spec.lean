import Verif.Words

/-! # GHASH as in NIST SP 800-38D: blocks are 128-bit numbers, the leftmost bit the most significant -/
namespace Verif.Ghash.Spec

/-- `R` of 6.3: 11100001 and 120 zeros. -/
def R : Nat := 0xe1 * 2 ^ 120

/-- The step `V_{i+1}` of algorithm 1. -/
def next (V : Nat) : Nat := if V % 2 = 0 then V / 2 else (V / 2) ^^^ R

/-- The loop of algorithm 1, for the last `n` bits of `X`. -/
def mulLoop (X : Nat) : Nat → Nat → Nat → Nat
  | 0, Z, _ => Z
  | n + 1, Z, V => mulLoop X n (if X.testBit n then Z ^^^ V else Z) (next V)

/-- `X • Y` (algorithm 1). -/
def mul (X Y : Nat) : Nat := mulLoop X 128 0 Y

/-- GHASH (algorithm 2) from an intermediate value. -/
def ghash (H : Nat) : Nat → List (List Byte) → Nat
  | Y, [] => Y
  | Y, X :: Xs => ghash H (mul (Y ^^^ beVal X) H) Xs

end Verif.Ghash.Spec
