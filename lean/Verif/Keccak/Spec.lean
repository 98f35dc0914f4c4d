import Verif.Common

/-!
# FIPS 202, on bit strings

The step mappings, KECCAK-f[1600], pad10*1, the sponge, and the four families of functions, transcribed from the standard.
-/
namespace Verif.Keccak.Spec

/-- Section 3.1.1: a state array of width `w = 64`; `A x y z`.  Arithmetic of the indices is modulo 5 and 64. -/
abbrev Array := Fin 5 → Fin 5 → Fin 64 → Bool

/-- Section 3.1.2: `A[x, y, z] = S[w(5y + x) + z]`. -/
def ofString (S : List Bool) : Array := fun x y z => S.getD (64 * (5 * y.val + x.val) + z.val) false

/-- Section 3.1.3: the string of a state array: planes in order of `y`, lanes in order of `x`, bits in order of `z`. -/
def toString (A : Array) : List Bool := (List.finRange 5).flatMap fun y => (List.finRange 5).flatMap fun x => (List.finRange 64).map fun z => A x y z

/-- Algorithm 1: θ. -/
def theta (A : Array) : Array :=
  let C := fun (x : Fin 5) (z : Fin 64) => A x 0 z ^^ A x 1 z ^^ A x 2 z ^^ A x 3 z ^^ A x 4 z
  let D := fun (x : Fin 5) (z : Fin 64) => C (x - 1) z ^^ C (x + 1) (z - 1)
  fun x y z => A x y z ^^ D x z

/-- Algorithm 2: ρ.  `(x, y)` starts at `(1, 0)` and `t` runs from 0 to 23. -/
def rho (A : Array) : Array :=
  ((List.range 24).foldl (fun (s : Array × Fin 5 × Fin 5) (t : Nat) =>
    let (A', x, y) := s
    (fun x' y' z => if x' = x ∧ y' = y then A x y (z - Fin.ofNat 64 ((t + 1) * (t + 2) / 2)) else A' x' y' z, y, 2 * x + 3 * y)) (A, 1, 0)).1

/-- Algorithm 3: π. -/
def pi (A : Array) : Array := fun x y z => A (x + 3 * y) x z

/-- Algorithm 4: χ. -/
def chi (A : Array) : Array := fun x y z => A x y z ^^ ((A (x + 1) y z ^^ true) && A (x + 2) y z)

/-- Algorithm 5, one step: `R = 0 || R; R[0] = R[0] ⊕ R[8]; R[4] = …; R[5] = …; R[6] = …; R = Trunc8[R]`. -/
def rcStep (R : List Bool) : List Bool :=
  let R := false :: R
  let b := R.getD 8 false
  let R := R.set 0 (R.getD 0 false ^^ b)
  let R := R.set 4 (R.getD 4 false ^^ b)
  let R := R.set 5 (R.getD 5 false ^^ b)
  let R := R.set 6 (R.getD 6 false ^^ b)
  R.take 8

/-- Algorithm 5: `rc(t)`. -/
def rc (t : Nat) : Bool :=
  if t % 255 = 0 then true
  else ((List.range (t % 255)).foldl (fun R _ => rcStep R) [true, false, false, false, false, false, false, false]).getD 0 false

/-- Algorithm 6: the round constant `RC`: `RC[2^j - 1] = rc(j + 7 i_r)` for `j` from 0 to 6. -/
def roundConstant (ir : Nat) : Fin 64 → Bool := fun z => (List.range 7).any fun j => decide (z.val = 2 ^ j - 1) && rc (j + 7 * ir)

/-- Algorithm 6: ι. -/
def iota (ir : Nat) (A : Array) : Array := fun x y z => if x = 0 ∧ y = 0 then A x y z ^^ roundConstant ir z else A x y z

/-- Section 3.3: `Rnd(A, i_r) = ι(χ(π(ρ(θ(A)))), i_r)`. -/
def round (A : Array) (ir : Nat) : Array := iota ir (chi (pi (rho (theta A))))

/-- Algorithm 7 with `n_r = 24`, `l = 6`: KECCAK-f[1600]. -/
def keccakF (S : List Bool) : List Bool := toString ((List.range 24).foldl round (ofString S))

/-- Algorithm 9: `pad10*1(x, m) = 1 || 0^j || 1` with `j = (-m - 2) mod x`. -/
def pad101 (x m : Nat) : List Bool := [true] ++ List.replicate ((-(m : Int) - 2) % (x : Int)).toNat false ++ [true]

/-- Bitwise exclusive-or of strings of equal length. -/
def xor (a b : List Bool) : List Bool := List.zipWith (· ^^ ·) a b

/-- The strings of `r` bits whose concatenation is `P`. -/
def blocks (r : Nat) (P : List Bool) : List (List Bool) := (List.range (P.length / r)).map fun i => (P.drop (r * i)).take r

/-- Algorithm 8: SPONGE[KECCAK-f[1600], pad10*1, r](N, d).  The `i`-th block of output is `Trunc_r(f^i(S))`. -/
def sponge (r : Nat) (N : List Bool) (d : Nat) : List Bool :=
  let P := N ++ pad101 r N.length
  let S := (blocks r P).foldl (fun S Pi => keccakF (xor S (Pi ++ List.replicate (1600 - r) false))) (List.replicate 1600 false)
  ((List.range (d / r + 1)).flatMap fun i => (i.repeat keccakF S).take r).take d

/-- Section B.1: a byte string as a bit string, least significant bit of each byte first. -/
def bits (m : List Byte) : List Bool := m.flatMap fun b => (List.range 8).map fun i => b.getLsbD i

/-- Section 5.2: `KECCAK[c](N, d)` with `c = 2d`, before the domain suffix was added (the submission to the competition). -/
def keccak (d : Nat) (M : List Bool) : List Bool := sponge (1600 - 2 * d) M d
/-- Section 6.1: `SHA3-d(M) = KECCAK[2d](M || 01, d)`. -/
def sha3 (d : Nat) (M : List Bool) : List Bool := sponge (1600 - 2 * d) (M ++ [false, true]) d
/-- Section 6.2: `SHAKE128(M, d) = KECCAK[256](M || 1111, d)`, `SHAKE256(M, d) = KECCAK[512](M || 1111, d)`. -/
def shake (strength d : Nat) (M : List Bool) : List Bool := sponge (1600 - 2 * strength) (M ++ [true, true, true, true]) d

/-- A history of calls on one object. -/
inductive Op | update (x : List Byte) | restart | final (size : Nat)

end Verif.Keccak.Spec
