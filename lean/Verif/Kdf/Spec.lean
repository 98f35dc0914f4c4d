import Verif.Kdf.Model
import Verif.Hmac.Spec

/-! # The standards -/
namespace Verif.Kdf
open Verif.Hmac

/-- The first `len` bytes of `T start || T (start+1) || ...`, blocks of `d` bytes. -/
def blocks (d : Nat) (T : Nat → List Byte) (start len : Nat) : List Byte :=
  ((List.range ((len + d - 1) / d)).flatMap fun i => T (start + i)).take len

/-- `f` applied `n` times. -/
def times {α : Type} (f : α → α) : Nat → α → α
  | 0, x => x
  | n + 1, x => f (times f n x)

/-- PKCS #5: PBKDF1. `T_1 = H(P || S)`, `T_i = H(T_{i-1})`, the key is the first `len` bytes of `T_c`. -/
def PBKDF1 (H : List Byte → List Byte) (P S : List Byte) (c len : Nat) : List Byte := (times H (c - 1) (H (P ++ S))).take len

/-- `U_1 xor ... xor U_c` with `U_1 = F x`, `U_i = F(U_{i-1})`. -/
def xorChain (F : List Byte → List Byte) (x : List Byte) : Nat → List Byte
  | 0 => F x
  | n + 1 => xorBytes (xorChain F x n) (times F (n + 1) (F x))

/-- PKCS #5: PBKDF2 with the pseudorandom function `F` keyed by the password: `T_i = U_1 xor ... xor U_c`, `U_1 = F(S || INT(i))`. -/
def PBKDF2 (F : List Byte → List Byte) (d : Nat) (S : List Byte) (c len : Nat) : List Byte :=
  blocks d (fun i => xorChain F (S ++ beBytes 4 i) (c - 1)) 1 len

/-- RFC 5869 `HKDF-Expand` with `F = HMAC(PRK, .)`: `T(0) = ""`, `T(i) = F(T(i-1) || info || i)`. -/
def hkdfT (F : List Byte → List Byte) (info : List Byte) : Nat → List Byte
  | 0 => []
  | i + 1 => F (hkdfT F info i ++ info ++ [BitVec.ofNat 8 (i + 1)])

/-- RFC 5869: `PRK = HMAC(salt, IKM)`, a missing salt is zeros; the first `len` bytes of `T(1) || T(2) || ...`. -/
def HKDF (H : List Byte → List Byte) (B d : Nat) (salt : Option (List Byte)) (ikm info : List Byte) (len : Nat) : List Byte :=
  let prk := hmac H B (salt.getD (List.replicate d 0)) ikm
  blocks d (hkdfT (hmac H B prk) info) 1 len

/-- IEEE P1363: `H(Z || counter || P)` for counters from `start`. MGF1 has `start = 0`, KDF2 has `start = 1`. -/
def MGF (H : List Byte → List Byte) (d : Nat) (Z P : List Byte) (start len : Nat) : List Byte :=
  blocks d (fun i => H (Z ++ beBytes 4 i ++ P)) start len

/-- PKCS #12 appendix B: the string repeated to a multiple of `v` bytes. -/
def fillUp (v : Nat) (x : List Byte) : List Byte := ((List.replicate ((x.length + v - 1) / v * v) x).flatten).take ((x.length + v - 1) / v * v)

/-- PKCS #12: every `v`-byte block of `I` becomes `(I_j + B + 1) mod 2^(8v)`, `B` is `A` repeated to `v` bytes. -/
def pkcs12Next (v : Nat) (A I : List Byte) : List Byte :=
  let B := ((List.replicate v A).flatten).take v
  (chunks v I).flatMap fun Ij => beBytes v (beVal Ij + beVal B + 1)

/-- The sequence of `A_i = H^c(D || I)` from `I`. -/
def pkcs12A (H : List Byte → List Byte) (v c : Nat) (D : List Byte) : Nat → List Byte → List Byte
  | 0, I => times H (c - 1) (H (D ++ I))
  | i + 1, I => pkcs12A H v c D i (pkcs12Next v (times H (c - 1) (H (D ++ I))) I)

/-- PKCS #12 appendix B.2. -/
def PKCS12 (H : List Byte → List Byte) (v d : Nat) (id : Byte) (P S : List Byte) (c len : Nat) : List Byte :=
  blocks d (fun i => pkcs12A H v c (List.replicate v id) i (fillUp v S ++ fillUp v P)) 0 len

end Verif.Kdf
