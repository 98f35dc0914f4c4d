import Verif.Integer.ModEval
import Verif.Algebra.Model

/-!
# Modular exponentiation (integer.cpp:4453-4470, 4671-4693 and modarith.h)

`ModularArithmetic` and `MontgomeryRepresentation` as instances of the abstract (multiplicative) group of algebra.h:189-235.  The state
is the ring object together with a counter of calls; every call finds arbitrary contents (`junk`) in uninitialised memory.
-/
namespace Verif.Integer
open Verif.Algebra

/-- Keep the state of a Montgomery ring and count the call. -/
def montCall (s : Mont × Nat) (r : Except Err Obj) : Except Err (Obj × (Mont × Nat)) := do
  let r ← r
  .ok (r, (s.1, s.2 + 1))

/-- algebra.h:189-235 `MultiplicativeGroupT` over `MontgomeryRepresentation` (integer.cpp:4706-4766). -/
def montGrp (ws : Nat) (junk : Nat → WMem) : Grp (Mont × Nat) Obj where
  ident := fun s => do
    let r ← s.1.one ws (junk s.2)
    .ok (r, (s.1.upd (s.1.toModArith.after false r), s.2 + 1))
  add := fun a b s => montCall s (s.1.multiply ws (junk s.2) false a b)
  acc := fun a b s => montCall s ((s.1.multiply ws (junk s.2) false a b).map copyCtor)
  dbl := fun a s => montCall s (s.1.square ws (junk s.2) a)
  inv := fun a s => montCall s (s.1.inv ws (junk s.2) a)
  fast := false
  cp := copyCtor

/-- The result of a plain operation is left in `m_result1`. -/
def plainCall (s : ModArith × Nat) (r : Except Err Obj) : Except Err (Obj × (ModArith × Nat)) := do
  let r ← r
  .ok (r, (s.1.after false r, s.2 + 1))

/-- algebra.h:189-235 `MultiplicativeGroupT` over `ModularArithmetic` (modarith.h:180-210). -/
def plainGrp (ws : Nat) (junk : Nat → WMem) : Grp (ModArith × Nat) Obj where
  ident := fun s => .ok (ofWord 1 2, s)
  add := fun a b s => plainCall s (s.1.multiply ws (junk s.2) false a b)
  acc := fun a b s => do
    let p ← plainCall s (s.1.multiply ws (junk s.2) false a b)
    .ok (copyCtor p.1, p.2)
  dbl := fun a s => plainCall s (s.1.square ws (junk s.2) a)
  inv := fun a s => plainCall s ((inverseMod ws (junk s.2) a s.1.modulus).map (assign s.1.result1 ·))
  fast := false
  cp := copyCtor

/-- integer.cpp:4689-4690: `results[i] = dr.ConvertOut(results[i])` for all results. -/
def outAll (ws : Nat) (junk : Nat → WMem) (mr : Mont) : Nat → List Obj → Except Err (List Obj)
  | _, [] => .ok []
  | n, r :: rs => do
    let o ← mr.convertOut ws (junk n) r
    let os ← outAll ws junk mr (n + 1) rs
    .ok (copyCtor o :: os)

/-- integer.cpp:4682-4693 `ModularArithmetic::SimultaneousExponentiate`. -/
def ModArith.simultaneousExponentiate (ws : Nat) (junk : Nat → WMem) (ma : ModArith) (b : Obj) (es : List Nat) : Except Err (List Obj) :=
  if isOdd ws ma.modulus then do
    let mr ← Mont.mk' ws (junk 0) ma.modulus
    let b' ← mr.convertIn ws (junk 1) b
    let (rs, s) ← simultaneousMultiply (montGrp ws junk) (8 * ws) b' es (mr, 2)
    outAll ws junk s.1 s.2 rs
  else do
    let (rs, _) ← simultaneousMultiply (plainGrp ws junk) (8 * ws) b es (ma, 0)
    .ok rs

/-- algebra.cpp:316-321 `Exponentiate`. -/
def ModArith.exponentiate (ws : Nat) (junk : Nat → WMem) (ma : ModArith) (b : Obj) (e : Nat) : Except Err Obj := do
  let rs ← ma.simultaneousExponentiate ws junk b [e]
  match rs with
  | r :: _ => .ok r
  | [] => .error .undefinedBehaviour

/-- integer.cpp:4671-4680 `ModularArithmetic::CascadeExponentiate`. -/
def ModArith.cascadeExponentiate (ws : Nat) (junk : Nat → WMem) (ma : ModArith) (x : Obj) (e1 : Nat) (y : Obj) (e2 : Nat) : Except Err Obj :=
  if isOdd ws ma.modulus then do
    let mr ← Mont.mk' ws (junk 0) ma.modulus
    let x' ← mr.convertIn ws (junk 1) x
    let y' ← mr.convertIn ws (junk 2) y
    let (r, s) ← cascadeScalarMultiply (montGrp ws junk) x' e1 y' e2 (mr, 3)
    let o ← s.1.convertOut ws (junk s.2) r
    .ok (copyCtor o)
  else do
    let (r, _) ← cascadeScalarMultiply (plainGrp ws junk) x e1 y e2 (ma, 0)
    .ok r

/-- integer.cpp:4462-4470 `a_exp_b_mod_c`.  The exponent enters through its magnitude (algebra.cpp:270 asserts that it is not negative). -/
def aExpBModC (ws : Nat) (junk : Nat → WMem) (x e m : Obj) : Except Err Obj :=
  if isZero m then .error .divideByZero
  else (ModArith.mk' m).exponentiate ws junk x (value ws e).natAbs

/-- integer.cpp:4453-4460 `a_times_b_mod_c`. -/
def aTimesBModC (ws : Nat) (junk : WMem) (x y m : Obj) : Except Err Obj :=
  if isZero m then .error .divideByZero
  else modulo ws junk (times ws junk false x y) m

end Verif.Integer
