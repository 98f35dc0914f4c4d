import Verif.Integer.ModExpProofs
import Verif.Integer.ModProps
import Verif.Algebra.Props

/-!
# C27: modular exponentiation returns the power
-/
namespace Verif.Integer

/-- `a_exp_b_mod_c(x, e, m)` is `x^e mod m`, in `[0, m)`: for every integer `x` (also negative or larger than `m`), every `e ≥ 0`, every
`m > 0` (odd or even, also 1), every word size, and any contents of uninitialised memory. -/
theorem a_exp_b_mod_c_correct {ws : Nat} (hw : 0 < ws) (junk : Nat → WMem) (hj : ∀ n, AllW (base ws) (junk n)) {x e m : Obj}
    (hx : Ok ws x) (he : 0 ≤ value ws e) (hm : Ok ws m) (hp : 0 < value ws m) :
    ∃ r, aExpBModC ws junk x e m = .ok r ∧ Ok ws r ∧ value ws r = value ws x ^ (value ws e).toNat % value ws m := by
  unfold aExpBModC
  have hz : isZero m = false := by rw [isZero_spec hw hm, decide_eq_false_iff_not]; omega
  rw [hz]
  obtain ⟨r, h1, h2, h3⟩ := exponentiate_spec hw hj hm hp hx (value ws e).natAbs
  refine ⟨r, h1, h2, ?_⟩
  rw [h3]; congr 2; omega

/-- A zero modulus is refused. -/
theorem a_exp_b_mod_c_zero {ws : Nat} (hw : 0 < ws) (junk : Nat → WMem) (x e : Obj) {m : Obj} (hm : Ok ws m) (h0 : value ws m = 0) :
    aExpBModC ws junk x e m = .error .divideByZero := by
  unfold aExpBModC
  rw [if_pos (by rw [isZero_spec hw hm, decide_eq_true_iff]; exact h0)]

example : (aExpBModC 1 (fun _ _ => 7) (w8 1000) (w8 77) (w8 1013)).map (value 1) = .ok (1000 ^ 77 % 1013) := by decide +kernel
example : (aExpBModC 1 (fun _ _ => 7) (w8 3) (w8 77) (w8 1012)).map (value 1) = .ok (3 ^ 77 % 1012) := by decide +kernel
example : ∃ r, aExpBModC 1 (fun _ _ => 0) (w8 1000) (w8 77) (w8 1012) = .ok r ∧ Ok 1 r ∧
    value 1 r = value 1 (w8 1000) ^ (value 1 (w8 77)).toNat % value 1 (w8 1012) :=
  a_exp_b_mod_c_correct (by decide) _ (fun _ => allW0) (w8_ok _ (by decide)) (by decide) (w8_ok _ (by decide)) (by decide)

/-- `a_times_b_mod_c(x, y, m)` is `xy mod m`. -/
theorem a_times_b_mod_c_correct {ws : Nat} (hw : 0 < ws) (junk : WMem) (hj : AllW (base ws) junk) {x y m : Obj}
    (hx : Ok ws x) (hy : Ok ws y) (hm : Ok ws m) (hp : 0 < value ws m) :
    ∃ r, aTimesBModC ws junk x y m = .ok r ∧ Ok ws r ∧ value ws r = value ws x * value ws y % value ws m := by
  unfold aTimesBModC
  have hz : isZero m = false := by rw [isZero_spec hw hm, decide_eq_false_iff_not]; omega
  rw [hz]
  obtain ⟨t1, tv⟩ := times_spec hw hj (same := false) hx hy (by simp)
  obtain ⟨r, h1, h2, h3, _⟩ := modulo_spec hw hj t1 hm (by omega)
  exact ⟨r, h1, h2, by rw [h3, tv]⟩

example : (aTimesBModC 1 (fun _ => 7) (w8 1000) (w8 777) (w8 1013)).map (value 1) = .ok (1000 * 777 % 1013) := by decide +kernel

/-- `ModularArithmetic(m).SimultaneousExponentiate(x, e_1, e_2, ...)` gives each of the powers. -/
theorem simultaneous_exponentiate_correct {ws : Nat} (hw : 0 < ws) (junk : Nat → WMem) (hj : ∀ n, AllW (base ws) (junk n)) {x m : Obj}
    (hx : Ok ws x) (hm : Ok ws m) (hp : 0 < value ws m) (es : List Nat) :
    ∃ rs, (ModArith.mk' m).simultaneousExponentiate ws junk x es = .ok rs ∧
      List.Forall₂ (fun e r => Ok ws r ∧ value ws r = value ws x ^ e % value ws m) es rs := simExp_spec hw hj hm hp hx es

example : ((ModArith.mk' (w8 1013)).simultaneousExponentiate 1 (fun _ _ => 7) (w8 1000) [0, 1, 70000]).map (·.map (value 1)) =
    .ok [1, 1000, 1000 ^ 70000 % 1013] := by decide +kernel

/-- `ModularArithmetic(m).CascadeExponentiate(x, e1, y, e2)` is `x^e1 y^e2 mod m` for an odd modulus, and for an even modulus if the
bases are reduced.  The excluded case is `cascade_even_unreduced_wrong`. -/
theorem cascade_exponentiate_correct {ws : Nat} (hw : 0 < ws) (junk : Nat → WMem) (hj : ∀ n, AllW (base ws) (junk n)) {x y m : Obj}
    (hx : Ok ws x) (hy : Ok ws y) (hm : Ok ws m) (hp : 0 < value ws m) (e1 e2 : Nat)
    (hred : value ws m % 2 = 1 ∨ (0 ≤ value ws x ∧ value ws x < value ws m ∧ 0 ≤ value ws y ∧ value ws y < value ws m)) :
    ∃ r, (ModArith.mk' m).cascadeExponentiate ws junk x e1 y e2 = .ok r ∧ Ok ws r ∧
      value ws r = value ws x ^ e1 * value ws y ^ e2 % value ws m := cascExp_spec hw hj hm hp hx hy e1 e2 hred

example : ((ModArith.mk' (w8 1013)).cascadeExponentiate 1 (fun _ _ => 7) (w8 1000) 55 (w8 3) 700).map (value 1) =
    .ok (1000 ^ 55 * 3 ^ 700 % 1013) := by decide +kernel
example : ∃ r, (ModArith.mk' (w8 1012)).cascadeExponentiate 1 (fun _ _ => 0) (w8 1000) 55 (w8 3) 700 = .ok r ∧ Ok 1 r ∧
    value 1 r = value 1 (w8 1000) ^ 55 * value 1 (w8 3) ^ 700 % value 1 (w8 1012) :=
  cascade_exponentiate_correct (by decide) _ (fun _ => allW0) (w8_ok _ (by decide)) (w8_ok _ (by decide)) (w8_ok _ (by decide)) (by decide) _ _
    (.inr (by decide))

/-- With an even modulus an unreduced base is returned unreduced: `7^1 * 3^0` modulo 4 comes out as 7. -/
theorem cascade_even_unreduced_wrong :
    ((ModArith.mk' (w8 4)).cascadeExponentiate 1 (fun _ _ => 0) (w8 7) 1 (w8 3) 0).map (value 1) = .ok 7 := by decide +kernel

end Verif.Integer
