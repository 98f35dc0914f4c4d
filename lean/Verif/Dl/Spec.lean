import Mathlib.Data.Nat.Prime.Basic
import Verif.Dl.Model

/-! # What group parameters are supposed to be -/
namespace Verif.Dl

variable {E : Type}

/-- The elements satisfying `V` are a commutative group with unit `one`; `g` has prime order; elements other than the unit can be decoded. -/
structure Params.Laws (P : Params E) (V : E → Prop) (one : E) : Prop where
  V_g : V P.g
  V_one : V one
  V_mul : ∀ a b, V a → V b → V (P.mul a b)
  mul_comm : ∀ a b, V a → V b → P.mul a b = P.mul b a
  mul_assoc : ∀ a b c, V a → V b → V c → P.mul (P.mul a b) c = P.mul a (P.mul b c)
  one_mul : ∀ a, V a → P.mul one a = a
  exp_zero : ∀ a, V a → P.exp a 0 = one
  exp_succ : ∀ a (n : Int), V a → 0 ≤ n → P.exp a (n + 1) = P.mul (P.exp a n) a
  expBase : ∀ n : Int, 0 ≤ n → P.expBase n = P.exp P.g n
  cascade : ∀ a m b n, V a → V b → 0 ≤ m → 0 ≤ n → P.cascade a m b n = P.mul (P.exp a m) (P.exp b n)
  identity : ∀ a, V a → (P.isIdentity a = true ↔ a = one)
  order : ∃ q : Nat, q.Prime ∧ P.order = q
  g_order : P.exp P.g P.order = one
  g_ne_one : P.g ≠ one
  cofactor : 0 ≤ P.cofactor
  encode_length : ∀ b a, V a → (P.encode b a).length = P.encSize b
  decode_encode : ∀ a b, V a → a ≠ one → P.decode (P.encode true a) b = some a
  fast : P.fastCheck = true → ∀ n : Int, 0 ≤ n → P.exp P.g n ≠ one → P.validate2 (P.exp P.g n) = true

/-- The number a digest stands for in DSA (FIPS 186-4, 4.6): its leftmost `bits` bits. -/
def leftmost (bits : Nat) (digest : List Byte) : Nat := beVal digest / 2 ^ (digest.length * 8 - bits)

/-- The implicit signature of MQV (IEEE 1363, 7.2.5): `u + (2^h + (V mod 2^h)) s`, `h` half the bits of the order. -/
def implicitSignature (P : Params E) (s u : Int) : Int :=
  (u + (2 ^ ((bitCount P.order + 1) / 2) + P.toInt (P.exp P.g u) % 2 ^ ((bitCount P.order + 1) / 2)) * s) % P.order

/-- `H(m)`, `H(H(m))`, ..., one after the other. -/
def digests (H : List Byte → List Byte) : Nat → List Byte → List Byte
  | 0, _ => []
  | n + 1, m => H m ++ digests H n (H m)

/-- A hash of `n` bytes: as many of `H(m)`, `H(H(m))`, ... as it takes. -/
def longHash (H : List Byte → List Byte) (n : Nat) (m : List Byte) : List Byte := (digests H (n + 1) m).take n

/-- The key of HMQV (Krawczyk 2005) and, with `full`, FHMQV (Sarr, Elbaz-Vincent, Bajard 2009): the client has the static key `a` and the ephemeral key `x`, the server `b` and `y`. -/
def hmqvKey (P : Params E) (H : List Byte → List Byte) (full : Bool) (a x b y : Int) : List Byte :=
  let A := P.encode true (P.exp P.g a)
  let B := P.encode true (P.exp P.g b)
  let X := P.encode true (P.exp P.g x)
  let Y := P.encode true (P.exp P.g y)
  let half := ((bitCount P.order + 1) / 2 + 7) / 8
  let d := decodeInt (longHash H half (if full then X ++ Y ++ A ++ B else X ++ B))
  let e := decodeInt (longHash H half (if full then Y ++ X ++ A ++ B else Y ++ A))
  let sigma := P.encode false (P.exp P.g ((x + d * a) * (y + e * b)))
  longHash H (P.encSize false) (if full then sigma ++ X ++ Y ++ A ++ B else sigma)

end Verif.Dl
