import Mathlib.AlgebraicGeometry.EllipticCurve.Affine.Point
import Mathlib.Algebra.Field.ZMod
import Verif.Ecp.Model

/-!
# What a point stands for

The group is Mathlib's group of nonsingular points of a Weierstrass curve, `WeierstrassCurve.Affine.Point`: the point at infinity and the
solutions of the equation, with the chord-and-tangent addition.
-/
namespace Verif.Ecp

variable {K : Type} [Field K]

/-- A reduced residue. -/
def El (F : Fld) (x : Int) : Prop := 0 ≤ x ∧ x < F.modulus

/-- The operations of `F` on reduced residues are those of the field `K`, when `x` stands for `φ x`. -/
structure FOk (F : Fld) (φ : Int → K) : Prop where
  pos : 0 < F.modulus
  inj : ∀ {x y : Int}, El F x → El F y → φ x = φ y → x = y
  zero : φ 0 = 0
  two : (2 : K) ≠ 0
  add : ∀ {x y : Int}, El F x → El F y → El F (F.add x y) ∧ φ (F.add x y) = φ x + φ y
  sub : ∀ {x y : Int}, El F x → El F y → El F (F.sub x y) ∧ φ (F.sub x y) = φ x - φ y
  mul : ∀ {x y : Int}, El F x → El F y → El F (F.mul x y) ∧ φ (F.mul x y) = φ x * φ y
  sq : ∀ {x : Int}, El F x → El F (F.sq x) ∧ φ (F.sq x) = φ x ^ 2
  dbl : ∀ {x : Int}, El F x → El F (F.dbl x) ∧ φ (F.dbl x) = 2 * φ x
  neg : ∀ {x : Int}, El F x → El F (F.neg x) ∧ φ (F.neg x) = -φ x
  half : ∀ {x : Int}, El F x → El F (F.half x) ∧ 2 * φ (F.half x) = φ x
  inv : ∀ {x : Int}, El F x → El F (F.inv x) ∧ φ (F.inv x) = (φ x)⁻¹
  one : El F F.one ∧ φ F.one = 1

/-- The curve `y² = x³ + a x + b`. -/
def curve (a b : K) : WeierstrassCurve.Affine K := { a₁ := 0, a₂ := 0, a₃ := 0, a₄ := a, a₆ := b }

/-- The point `P` stands for the point `g` of the curve: both are the point at infinity, or the coordinates are those of `g`, reduced. -/
def PtRep (F : Fld) (φ : Int → K) {W : WeierstrassCurve.Affine K} (P : Pt) : W.Point → Prop
  | .zero => P.identity = true
  | .some x y _ => P.identity = false ∧ El F P.x ∧ El F P.y ∧ φ P.x = x ∧ φ P.y = y

/-- `P` stands for the point `g` of a curve over the integers modulo `p`. -/
def Stands {p : Nat} [Fact p.Prime] {W : WeierstrassCurve.Affine (ZMod p)} (P : Pt) (g : W.Point) : Prop := PtRep (plain p) (fun x => (x : ZMod p)) P g

/-- An `ECP` object for a curve over the integers modulo the odd prime `p`: a plain (not Montgomery) field, a reduced coefficient. -/
structure IsCurve (p : Nat) (C : Ec) : Prop where
  field : C.F = plain p
  odd : p ≠ 2
  a : 0 ≤ C.a ∧ C.a < p

/-- The points of the curve of an `ECP` object. -/
abbrev Points (p : Nat) [Fact p.Prime] (C : Ec) := (curve (C.a : ZMod p) (C.b : ZMod p)).Point

end Verif.Ecp
