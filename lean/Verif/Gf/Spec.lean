import Verif.Poly2.Field

/-!
# Specification of the binary fields

Polynomials over GF(2), their product and remainder (`IsRem`) are defined in `Verif.Poly2.Basic`; `IsPrime` (irreducibility) in
`Verif.Poly2.Field`.
-/
namespace Verif.Gf
open Verif.Poly2 Verif.Poly2.P2

/-- A machine word as a polynomial: bit `i` is the coefficient of `x^i`. -/
def poly {w : Nat} (a : BitVec w) : P2 := ⟨a.toNat⟩

/-- `x^w + m`. -/
def modOf (w : Nat) (hw : 0 < w) (m : BitVec w) : Modulus where
  p := X ^ w + poly m
  d := w
  pos := hw
  lower := by
    rw [X_pow]; show 2 ^ w ≤ 2 ^ w ^^^ m.toNat
    rw [two_pow_xor m.isLt]; omega
  upper := by
    rw [X_pow]; show 2 ^ w ^^^ m.toNat < _
    rw [two_pow_xor m.isLt, Nat.pow_succ]; have := m.isLt; omega

/-- The laws of a field, for operations on a type. -/
structure IsField {α : Type} (zero one : α) (add mul : α → α → α) (inv : α → α) : Prop where
  add_assoc : ∀ a b c, add (add a b) c = add a (add b c)
  add_comm : ∀ a b, add a b = add b a
  add_zero : ∀ a, add a zero = a
  add_self_inverse : ∀ a, add a a = zero
  mul_assoc : ∀ a b c, mul (mul a b) c = mul a (mul b c)
  mul_comm : ∀ a b, mul a b = mul b a
  mul_one : ∀ a, mul a one = a
  distrib : ∀ a b c, mul a (add b c) = add (mul a b) (mul a c)
  mul_inv : ∀ a, a ≠ zero → mul a (inv a) = one
  zero_ne_one : zero ≠ one

end Verif.Gf
