import Verif.Kdf.Spec
import Verif.Hmac.Spec
import Verif.Sha.Spec
import Verif.Mem

/-! # RFC 7914: scrypt, and the Salsa20 specification (Bernstein) it uses -/
namespace Verif.Scrypt.Spec

abbrev W := BitVec 32

/-- Salsa20 specification, section 3: `quarterround(y0, y1, y2, y3)`. -/
def quarterround (y0 y1 y2 y3 : W) : W × W × W × W :=
  let z1 := y1 ^^^ (y0 + y3).rotateLeft 7
  let z2 := y2 ^^^ (z1 + y0).rotateLeft 9
  let z3 := y3 ^^^ (z2 + z1).rotateLeft 13
  let z0 := y0 ^^^ (z3 + z2).rotateLeft 18
  (z0, z1, z2, z3)

/-- Section 4: `rowround`. -/
def rowround : List W → List W
  | [y0, y1, y2, y3, y4, y5, y6, y7, y8, y9, y10, y11, y12, y13, y14, y15] =>
    let (z0, z1, z2, z3) := quarterround y0 y1 y2 y3
    let (z5, z6, z7, z4) := quarterround y5 y6 y7 y4
    let (z10, z11, z8, z9) := quarterround y10 y11 y8 y9
    let (z15, z12, z13, z14) := quarterround y15 y12 y13 y14
    [z0, z1, z2, z3, z4, z5, z6, z7, z8, z9, z10, z11, z12, z13, z14, z15]
  | _ => []

/-- Section 5: `columnround`. -/
def columnround : List W → List W
  | [x0, x1, x2, x3, x4, x5, x6, x7, x8, x9, x10, x11, x12, x13, x14, x15] =>
    let (y0, y4, y8, y12) := quarterround x0 x4 x8 x12
    let (y5, y9, y13, y1) := quarterround x5 x9 x13 x1
    let (y10, y14, y2, y6) := quarterround x10 x14 x2 x6
    let (y15, y3, y7, y11) := quarterround x15 x3 x7 x11
    [y0, y1, y2, y3, y4, y5, y6, y7, y8, y9, y10, y11, y12, y13, y14, y15]
  | _ => []

/-- The Salsa20 hash function (section 8) with `2n` rounds: `x + doubleround^n(x)`, words little-endian. -/
def salsa (n : Nat) (b : List Byte) : List Byte :=
  let x := (List.range 16).map fun i => BitVec.ofNat 32 (leVal ((b.drop (4 * i)).take 4))
  (List.zipWith (· + ·) x (Nat.repeat (fun x => rowround (columnround x)) n x)).flatMap fun w => leBytes 4 w.toNat

/-- The `i`-th 64-byte block of a string. -/
def block (x : List Byte) (i : Nat) : List Byte := (x.drop (64 * i)).take 64

/-- The values of `X` in scryptBlockMix: first `B[2r-1]`, then `X = Salsa20/8(X xor B[i])`. -/
def chain (r : Nat) (x : List Byte) : Nat → List Byte
  | 0 => block x (2 * r - 1)
  | i + 1 => salsa 4 (xorBytes (chain r x i) (block x i))

/-- RFC 7914, section 4: scryptBlockMix. `Y[i]` is `X` after step `i`; the result is the even `Y` and then the odd ones. -/
def blockMix (r : Nat) (x : List Byte) : List Byte :=
  ((List.range r).flatMap fun i => chain r x (2 * i + 1)) ++ (List.range r).flatMap fun i => chain r x (2 * i + 1 + 1)

/-- RFC 7914, section 5: Integerify, the last 64-byte block as a little-endian integer. -/
def integerify (r : Nat) (x : List Byte) : Nat := leVal (block x (2 * r - 1))

/-- RFC 7914, section 5: scryptROMix. `V[i]` is `X` after `i` times scryptBlockMix. -/
def romix (r N : Nat) (x : List Byte) : List Byte :=
  Nat.repeat (fun X => blockMix r (xorBytes X (Nat.repeat (blockMix r) (integerify r X % N) x))) N (Nat.repeat (blockMix r) N x)

/-- RFC 7914, section 6: scrypt. -/
def scrypt (P S : List Byte) (N r p dkLen : Nat) : List Byte :=
  let pbkdf2 := fun S len => Kdf.PBKDF2 (Hmac.hmac Sha.Spec.SHA256 64 P) 32 S 1 len
  let B := pbkdf2 S (p * 128 * r)
  pbkdf2 ((List.range p).flatMap fun i => romix r N ((B.drop (128 * r * i)).take (128 * r))) dkLen

end Verif.Scrypt.Spec
