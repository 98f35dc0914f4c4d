import Verif.Integer.DivCls
import Verif.Integer.ModSpec
import Mathlib.Data.Int.ModEq
import Mathlib.Tactic.LinearCombination

/-!
# `Integer::InverseMod(word mod)` (integer.cpp:4514-4538)
-/
namespace Verif.Integer

/-- integer.cpp:4522-4536: the loop of the word extended Euclidean algorithm; `B` is the word base, and the cofactors wrap around. -/
def invWordLoop (B mod g0 g1 v0 v1 : Nat) : Nat :=
  if g1 = 0 then 0
  else if g1 = 1 then v1
  else
    let y := g0 / g1
    let g0' := g0 % g1
    let v0' := (v0 + y * v1 % B) % B
    if _h : g0' = 0 then 0
    else if g0' = 1 then (mod + B - v0') % B
    else
      let y := g1 / g0'
      let g1' := g1 % g0'
      let v1' := (v1 + y * v0' % B) % B
      invWordLoop B mod g0' g1' v0' v1'
termination_by g1
decreasing_by
  have h1 := Nat.mod_lt g0 (show g1 > 0 by omega)
  have h2 := Nat.mod_lt g1 (show g0 % g1 > 0 by omega)
  omega

/-- integer.cpp:4514-4538 `Integer::InverseMod(word mod)`. -/
def inverseModWord (ws : Nat) (a : Obj) (mod : Nat) : Except Err Nat := do
  let g1 ← moduloWord ws a mod
  .ok (invWordLoop (base ws) mod mod g1 0 1)

/-- The loop invariant: cofactors modulo `mod`, the determinant that bounds them, and the order of the remainders. -/
structure WInv (B mod a g0 g1 v0 v1 : Nat) : Prop where
  c1 : ∃ k : Int, (v1 : Int) * a = g1 + mod * k
  c0 : ∃ k : Int, (v0 : Int) * a = -g0 + mod * k
  det : v1 * g0 + v0 * g1 = mod
  lt : g1 < g0
  v1p : 0 < v1
  gcd : Nat.gcd g0 g1 = Nat.gcd a mod

theorem invWordLoop_spec {B mod a : Nat} (hB : mod < B) : ∀ (g1 g0 v0 v1 : Nat), WInv B mod a g0 g1 v0 v1 →
    (g1 = 0 → g0 ≠ 1 ∨ mod = 1) → IsInverse a mod (invWordLoop B mod g0 g1 v0 v1) := by
  intro g1
  induction g1 using Nat.strongRecOn with
  | _ g1 ih =>
    intro g0 v0 v1 inv hz
    have hlt := inv.lt
    have hmod : 0 < mod := by
      have := inv.det
      have := Nat.mul_pos inv.v1p (show 0 < g0 by omega)
      omega
    have zero_ok : ∀ g : Nat, g = Nat.gcd a mod → (g ≠ 1 ∨ mod = 1) → IsInverse a mod (0 : Nat) := by
      intro g hg h
      refine ⟨by simp, by exact_mod_cast hmod, fun h1 => ?_, fun _ => rfl⟩
      rw [Int.gcd_natCast_natCast, ← hg] at h1
      rcases h with h | h
      · exact absurd h1 h
      · rw [h]; simp [Int.emod_one]
    rw [invWordLoop]
    split
    · rename_i h0
      subst h0
      have hg := inv.gcd
      rw [Nat.gcd_zero_right] at hg
      exact zero_ok g0 hg (hz rfl)
    rename_i h0
    split
    · rename_i h1
      subst h1
      obtain ⟨k, hk⟩ := inv.c1
      have hd := inv.det
      have hvm : v1 < mod := by
        have : v1 * 2 ≤ v1 * g0 := Nat.mul_le_mul_left _ (by omega)
        have := inv.v1p
        omega
      refine ⟨by omega, by exact_mod_cast hvm, fun _ => ?_, fun h => ?_⟩
      · rw [hk]; push_cast; rw [Int.add_mul_emod_self_left]
      · rw [Int.gcd_natCast_natCast, ← inv.gcd, Nat.gcd_one_right] at h
        exact absurd rfl h
    rename_i h1
    simp only
    have hdm := Nat.div_add_mod g0 g1
    have hml := Nat.mod_lt g0 (show g1 > 0 by omega)
    have hy : 1 ≤ g0 / g1 := (Nat.one_le_div_iff (by omega)).mpr (by omega)
    have hg : Nat.gcd (g0 % g1) g1 = Nat.gcd a mod := by
      rw [← inv.gcd, Nat.gcd_comm g0 g1, Nat.gcd_rec g1 g0]
    generalize hy' : g0 / g1 = y at *
    generalize hr' : g0 % g1 = r at *
    have hdet : v1 * r + (v0 + y * v1) * g1 = mod := by rw [← inv.det, ← hdm]; ring
    have hv0 : v0 + y * v1 ≤ mod := by
      rw [← hdet]
      exact Nat.le_trans (Nat.le_mul_of_pos_right _ (by omega)) (Nat.le_add_left _ _)
    have hv0p : 0 < v0 + y * v1 := by
      have := Nat.mul_pos (show 0 < y by omega) inv.v1p
      omega
    have e0 : (v0 + y * v1 % B) % B = v0 + y * v1 := by
      rw [Nat.mod_eq_of_lt (show y * v1 < B by omega), Nat.mod_eq_of_lt (by omega)]
    rw [e0]
    obtain ⟨k1, hk1⟩ := inv.c1
    obtain ⟨k0, hk0⟩ := inv.c0
    have hdmI : (g1 : Int) * y + r = g0 := by exact_mod_cast hdm
    have c0' : ((v0 + y * v1 : Nat) : Int) * a = -r + mod * (k0 + y * k1) := by
      push_cast
      linear_combination hk0 + y * hk1 + hdmI
    generalize v0 + y * v1 = w at *
    by_cases hr0 : r = 0
    · rw [dif_pos hr0]
      rw [hr0, Nat.gcd_zero_left] at hg
      exact zero_ok g1 hg (Or.inl h1)
    rw [dif_neg hr0]
    split
    · rename_i hr1
      rw [hr1] at c0' hdet hg
      have hlt' : w < mod := by
        have := inv.v1p
        have : w * 1 ≤ w * g1 := Nat.mul_le_mul_left _ (by omega)
        omega
      have e1 : (mod + B - w) % B = mod - w := by
        rw [show mod + B - w = (mod - w) + B by omega, Nat.add_mod_right, Nat.mod_eq_of_lt (by omega)]
      rw [e1]
      refine ⟨by omega, by omega, fun _ => ?_, fun h => ?_⟩
      · rw [Nat.cast_sub (by omega)]
        have : ((mod : Int) - w) * a = 1 + mod * (a - (k0 + y * k1)) := by linear_combination -c0'
        rw [this, Int.add_mul_emod_self_left]
      · rw [Int.gcd_natCast_natCast, ← hg, Nat.gcd_one_left] at h
        exact absurd rfl h
    rename_i hr1
    have hdm2 := Nat.div_add_mod g1 r
    have hml2 := Nat.mod_lt g1 (show r > 0 by omega)
    have hg2 : Nat.gcd r (g1 % r) = Nat.gcd a mod := by
      rw [← hg, Nat.gcd_comm, ← Nat.gcd_rec]
    have hy2 : 1 ≤ g1 / r := (Nat.one_le_div_iff (by omega)).mpr (by omega)
    generalize g1 / r = z at *
    generalize hs : g1 % r = s at *
    have hdet2 : (v1 + z * w) * r + w * s = mod := by rw [← hdet, ← hdm2]; ring
    have hv1 : v1 + z * w ≤ mod := by
      rw [← hdet2]
      exact Nat.le_trans (Nat.le_mul_of_pos_right _ (by omega)) (Nat.le_add_right _ _)
    have e2 : (v1 + z * w % B) % B = v1 + z * w := by
      rw [Nat.mod_eq_of_lt (show z * w < B by omega), Nat.mod_eq_of_lt (by omega)]
    rw [e2]
    have hdmI2 : (r : Int) * z + s = g1 := by exact_mod_cast hdm2
    apply ih s (by omega) r w (v1 + z * w)
    · refine ⟨⟨k1 + z * (k0 + y * k1), ?_⟩, ⟨k0 + y * k1, c0'⟩, hdet2, hml2, by have := inv.v1p; omega, hg2⟩
      push_cast
      linear_combination hk1 + z * c0' - hdmI2
    · intro _; exact Or.inl hr1

end Verif.Integer
