import Verif.Common

/-! # Bulk polynomial interpolation (polynomi.cpp:514-561) -/
namespace Verif.Ida

/-- What the templates use of `Ring`. `MultiplicativeInverse` may fail to return. -/
structure RingOps (E : Type) where
  zero : E
  one : E
  add : E → E → E
  sub : E → E → E
  mul : E → E → E
  inv : E → Except Err E

variable {E : Type} (R : RingOps E)

/-- The inner loop (polynomi.cpp:520-522): `j` runs over the positions of `xs`, the first of which is `j`. -/
def othersProd (xi : E) (i : Nat) : Nat → List E → E → E
  | _, [], t => t
  | j, x :: xs, t => othersProd xi i (j + 1) xs (if i ≠ j then R.mul t (R.sub xi x) else t)

/-- The outer loop (polynomi.cpp:517-524). -/
def prepareLoop (x : List E) : Nat → List E → Except Err (List E)
  | _, [] => .ok []
  | i, xi :: xs =>
    match R.inv (othersProd R xi i 0 x R.one) with
    | .error e => .error e
    | .ok wi =>
      match prepareLoop x (i + 1) xs with
      | .error e => .error e
      | .ok w => .ok (wi :: w)

/-- `PrepareBulkPolynomialInterpolation` (polynomi.cpp:514-525). -/
def prepare (x : List E) : Except Err (List E) := prepareLoop R x 0 x

/-- Assignment to an element of the vector `a`. The vector has `2n-1` elements; it is modelled as a function, since every index
used is below `2n-1`: `n-1+i` with `i < n`, `2i` with `i < n`, `2i+2` with `i < n-1`. -/
def upd (a : Nat → E) (k : Nat) (v : E) : Nat → E := fun j => if j = k then v else a j

/-- polynomi.cpp:535-536 `for (i=0; i<n; i++) a[n-1+i] = position - x[i]`. -/
def leaves (position : E) (n : Nat) : Nat → List E → (Nat → E) → (Nat → E)
  | _, [], a => a
  | i, xi :: xs, a => leaves position n (i + 1) xs (upd a (n - 1 + i) (R.sub position xi))

/-- polynomi.cpp:538-539 `for (i=n-1; i>1; i--) a[i-1] = a[2i] * a[2i-1]`. -/
def up : Nat → (Nat → E) → (Nat → E)
  | 0, a => a
  | i + 1, a => if 1 < i + 1 then up i (upd a (i + 1 - 1) (R.mul (a (2 * (i + 1))) (a (2 * (i + 1) - 1)))) else a

/-- The body of the third loop (polynomi.cpp:545-547). -/
def downStep (i : Nat) (a : Nat → E) : Nat → E :=
  let t := a (2 * i + 1)
  let a := upd (upd a (2 * i + 1) (a (2 * i + 2))) (2 * i + 2) t
  let a := upd a (2 * i + 1) (R.mul (a i) (a (2 * i + 1)))
  upd a (2 * i + 2) (R.mul (a i) (a (2 * i + 2)))

/-- polynomi.cpp:543-548 `for (i=0; i<n-1; i++)`: the state after `n` rounds. -/
def down : Nat → (Nat → E) → (Nat → E)
  | 0, a => a
  | n + 1, a => downStep R n (down n a)

/-- `PrepareBulkPolynomialInterpolationAt` (polynomi.cpp:527-552). -/
def prepareAt (position : E) (x w : List E) : List E :=
  let n := x.length
  let a := leaves R position n 0 x (fun _ => R.zero)
  let a := up R (n - 1) a
  let a := upd a 0 R.one
  let a := down R (n - 1) a
  (w.zipIdx).map fun wi => R.mul (a (n - 1 + wi.2)) wi.1

/-- `BulkPolynomialInterpolateAt` (polynomi.cpp:554-561). -/
def interpolateAt : List E → List E → E → E
  | y :: ys, v :: vs, r => interpolateAt ys vs (R.add r (R.mul y v))
  | _, _, r => r

end Verif.Ida
