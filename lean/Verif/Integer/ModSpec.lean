/-!
# Specification of residue arithmetic

Plain integers only: what the value of an arithmetic expression modulo `m` is.
-/
namespace Verif.Integer

/-- What a modular inverse is: the inverse in `[0, m)` when there is one and zero otherwise. -/
def IsInverse (a m r : Int) : Prop :=
  0 ≤ r ∧ r < m ∧ (Int.gcd a m = 1 → r * a % m = 1 % m) ∧ (Int.gcd a m ≠ 1 → r = 0)

/-- A computation in a ring of residues. -/
inductive Expr (α : Type) where
  | const (a : α)
  | one
  | add (x y : Expr α)
  | sub (x y : Expr α)
  | mul (x y : Expr α)
  | sq (x : Expr α)
  | neg (x : Expr α)
  | half (x : Expr α)
  | inv (x : Expr α)

/-- Apply a function to the constants. -/
def Expr.map {α β : Type} (f : α → β) : Expr α → Expr β
  | const a => const (f a)
  | one => one
  | add x y => add (x.map f) (y.map f)
  | sub x y => sub (x.map f) (y.map f)
  | mul x y => mul (x.map f) (y.map f)
  | sq x => sq (x.map f)
  | neg x => neg (x.map f)
  | half x => half (x.map f)
  | inv x => inv (x.map f)

/-- The constants of an expression. -/
def Expr.consts {α : Type} : Expr α → List α
  | const a => [a]
  | one => []
  | add x y | sub x y | mul x y => x.consts ++ y.consts
  | sq x | neg x | half x | inv x => x.consts

/-- No halving (which needs an odd modulus). -/
def Expr.noHalf {α : Type} : Expr α → Prop
  | const _ | one => True
  | add x y | sub x y | mul x y => x.noHalf ∧ y.noHalf
  | half _ => False
  | sq x | neg x | inv x => x.noHalf

/-- `Residue m e v`: `v` is the residue in `[0, m)` that the expression stands for. -/
inductive Residue (m : Int) : Expr Int → Int → Prop where
  | const (a : Int) : Residue m (.const a) (a % m)
  | one : Residue m .one (1 % m)
  | add {x y : Expr Int} {a b : Int} : Residue m x a → Residue m y b → Residue m (.add x y) ((a + b) % m)
  | sub {x y : Expr Int} {a b : Int} : Residue m x a → Residue m y b → Residue m (.sub x y) ((a - b) % m)
  | mul {x y : Expr Int} {a b : Int} : Residue m x a → Residue m y b → Residue m (.mul x y) (a * b % m)
  | sq {x : Expr Int} {a : Int} : Residue m x a → Residue m (.sq x) (a * a % m)
  | neg {x : Expr Int} {a : Int} : Residue m x a → Residue m (.neg x) (-a % m)
  | half {x : Expr Int} {a h : Int} : Residue m x a → 0 ≤ h → h < m → 2 * h % m = a → Residue m (.half x) h
  | inv {x : Expr Int} {a r : Int} : Residue m x a → IsInverse a m r → Residue m (.inv x) r

end Verif.Integer
