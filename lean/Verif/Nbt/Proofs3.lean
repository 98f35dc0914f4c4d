import Verif.Nbt.Proofs2
import Verif.Rsa.Proofs
import Mathlib.FieldTheory.IsAlgClosed.AlgebraicClosure

namespace Verif.Nbt
open Verif.Dl (invMod)
open Verif.Rsa (powMod crt modularRoot)
open NumberTheorySymbols

/-! ## Lucas sequences -/

theorem V_inv (P : Int) : ∀ k, V P k ^ 2 + V P (k + 1) ^ 2 - P * V P k * V P (k + 1) = 4 - P ^ 2
  | 0 => by simp only [V]; ring
  | k + 1 => by
    have := V_inv P k
    rw [show V P (k + 1 + 1) = P * V P (k + 1) - V P k from rfl]
    linear_combination this

theorem V_double (P : Int) : ∀ k, V P (2 * k) = V P k ^ 2 - 2 ∧ V P (2 * k + 1) = V P k * V P (k + 1) - P
  | 0 => by simp only [V]; constructor <;> ring
  | k + 1 => by
    obtain ⟨h1, h2⟩ := V_double P k
    have h3 := V_inv P k
    have e1 : V P (2 * (k + 1)) = P * V P (2 * k + 1) - V P (2 * k) := rfl
    have e2 : V P (2 * (k + 1) + 1) = P * V P (2 * (k + 1)) - V P (2 * k + 1) := rfl
    have e3 : V P (k + 1 + 1) = P * V P (k + 1) - V P k := rfl
    have a1 : V P (2 * (k + 1)) = V P (k + 1) ^ 2 - 2 := by rw [e1, h1, h2]; linear_combination -h3
    refine ⟨a1, ?_⟩
    rw [e2, a1, h2, e3]; ring

theorem lucasLoop_spec (e : Nat) (P n : Int) : ∀ (i : Nat) (v v1 : Int), v % n = V P (e / 2 ^ i) % n → v1 % n = V P (e / 2 ^ i + 1) % n →
    lucasLoop e (P % n) n i v v1 % n = V P e % n
  | 0, v, v1, h, _ => by simpa [lucasLoop] using h
  | i + 1, v, v1, h, h1 => by
    rw [lucasLoop]
    have hd : e / 2 ^ i / 2 = e / 2 ^ (i + 1) := by rw [Nat.div_div_eq_div_mul, pow_succ]
    have ht : e.testBit i = decide (e / 2 ^ i % 2 = 1) := Nat.testBit_eq_decide_div_mod_eq
    obtain ⟨d1, d2⟩ := V_double P (e / 2 ^ (i + 1))
    have d3 := (V_double P (e / 2 ^ (i + 1) + 1)).1
    have m1 : (v * v1 - P % n) % n = V P (2 * (e / 2 ^ (i + 1)) + 1) % n := by
      rw [d2]; exact Int.ModEq.sub (Int.ModEq.mul h h1) (Int.mod_modEq P n)
    by_cases hb : e / 2 ^ i % 2 = 1
    · rw [if_pos (by rw [ht]; simpa using hb)]
      have hk : e / 2 ^ i = 2 * (e / 2 ^ (i + 1)) + 1 := by omega
      refine lucasLoop_spec e P n i _ _ ?_ ?_
      · rw [Int.emod_emod_of_dvd _ dvd_rfl, m1, hk]
      · rw [Int.emod_emod_of_dvd _ dvd_rfl, hk, show 2 * (e / 2 ^ (i + 1)) + 1 + 1 = 2 * (e / 2 ^ (i + 1) + 1) by ring, d3, pow_two]
        exact Int.ModEq.sub (Int.ModEq.mul h1 h1) rfl
    · rw [if_neg (by rw [ht]; simpa using hb)]
      have hk : e / 2 ^ i = 2 * (e / 2 ^ (i + 1)) := by omega
      refine lucasLoop_spec e P n i _ _ ?_ ?_
      · rw [Int.emod_emod_of_dvd _ dvd_rfl, hk, d1, pow_two]
        exact Int.ModEq.sub (Int.ModEq.mul h h) rfl
      · rw [Int.emod_emod_of_dvd _ dvd_rfl, m1, hk]

theorem lucasLoop_range (e : Nat) (p n : Int) (hn : 0 < n) : ∀ (i : Nat) (v v1 : Int), 0 ≤ v → v < n → 0 ≤ lucasLoop e p n i v v1 ∧ lucasLoop e p n i v v1 < n
  | 0, v, v1, h, h1 => ⟨h, h1⟩
  | i + 1, v, v1, _, _ => by
    rw [lucasLoop]
    split
    · exact lucasLoop_range e p n hn i _ _ (Int.emod_nonneg _ hn.ne') (Int.emod_lt_of_pos _ hn)
    · exact lucasLoop_range e p n hn i _ _ (Int.emod_nonneg _ hn.ne') (Int.emod_lt_of_pos _ hn)

theorem lucas_spec (e P n : Int) (he : 0 < e) (hn : 0 < n) (h2 : n % 2 = 1) : lucas e P n = .ok (V P e.toNat % n) := by
  unfold lucas
  obtain ⟨e, rfl⟩ : ∃ k : Nat, e = k := ⟨e.toNat, by omega⟩
  have hb := Misc.bitLen_lt e
  have hb2 : 2 ^ (Misc.bitLen e - 1) ≤ e := by
    unfold Misc.bitLen
    rw [if_neg (by omega)]
    exact Nat.log2_self_le (by omega)
  have hL : 0 < Misc.bitLen e := by unfold Misc.bitLen; rw [if_neg (by omega)]; omega
  rw [Int.natAbs_natCast, Int.toNat_natCast]
  generalize Misc.bitLen e = L at *
  simp only [if_neg (show ¬L = 0 by omega), if_neg (show ¬n % 2 = 0 by omega)]
  have h1 : e / 2 ^ (L - 1) = 1 := by
    have : 2 ^ L = 2 * 2 ^ (L - 1) := by rw [← pow_succ']; congr 1; omega
    exact Nat.div_eq_of_lt_le (by omega) (by omega)
  have hr := lucasLoop_range e (P % n) n hn (L - 1) (P % n) ((P % n * (P % n) - 2) % n) (Int.emod_nonneg _ hn.ne') (Int.emod_lt_of_pos _ hn)
  rw [← lucasLoop_spec e P n (L - 1) (P % n) ((P % n * (P % n) - 2) % n) (by rw [h1, Int.emod_emod_of_dvd _ dvd_rfl]; rfl) ?_]
  · rw [Int.emod_eq_of_lt hr.1 hr.2]
  · rw [h1, Int.emod_emod_of_dvd _ dvd_rfl, show V P (1 + 1) = P * P - 2 from rfl]
    exact Int.ModEq.sub (Int.ModEq.mul (Int.mod_modEq P n) (Int.mod_modEq P n)) rfl

theorem lucas_zero (P n : Int) : lucas 0 P n = .ok 2 := rfl

/-- In a ring where the characteristic roots `α`, `β` exist. -/
theorem V_roots {K : Type} [CommRing K] {α β : K} (P : Int) (hab : α * β = 1) (hs : α + β = P) : ∀ k, ((V P k : Int) : K) = α ^ k + β ^ k
  | 0 => by simp [V]; ring
  | 1 => by simp [V, hs]
  | k + 2 => by
    rw [show V P (k + 2) = P * V P (k + 1) - V P k from rfl, Int.cast_sub, Int.cast_mul, V_roots P hab hs (k + 1), V_roots P hab hs k, ← hs]
    linear_combination (α ^ k + β ^ k) * hab

variable {p : Nat} [hp : Fact p.Prime]

/-- The field in which the quadratics split. -/
abbrev K (p : Nat) [Fact p.Prime] := AlgebraicClosure (ZMod p)

theorem K_char : CharP (K p) p := charP_of_injective_algebraMap (algebraMap (ZMod p) (K p)).injective p

theorem two_ne' (h2 : p % 2 = 1) : (2 : K p) ≠ 0 := by
  have := K_char (p := p)
  intro h
  have := (CharP.cast_eq_zero_iff (K p) p 2).1 (by exact_mod_cast h)
  have h3 := Nat.le_of_dvd (by omega) this
  have := hp.out.two_le
  omega

theorem cast_K (a b : Int) : ((a : K p) = b) ↔ ((a : ZMod p) = b) := by
  rw [← map_intCast (algebraMap (ZMod p) (K p)) a, ← map_intCast (algebraMap (ZMod p) (K p)) b]
  exact (algebraMap (ZMod p) (K p)).injective.eq_iff

/-- Roots `α`, `1/α` of `x² - Px + 1`, and how the symbol of the discriminant bounds their order. -/
theorem roots (h2 : p % 2 = 1) (P : Int) : ∃ α β : K p, α * β = 1 ∧ α + β = P ∧ (α - β) ^ 2 = ((P * P - 4 : Int) : K p) ∧
    (J(P * P - 4 | p) = 1 → α ^ (p - 1) = 1) ∧ (J(P * P - 4 | p) = -1 → α ^ (p + 1) = 1) ∧ (J(P * P - 4 | p) = 0 → α = β) := by
  have h2' := two_ne' (p := p) h2
  obtain ⟨δ, hδ⟩ := IsAlgClosed.exists_pow_nat_eq (((P * P - 4 : Int) : K p)) (n := 2) (by omega)
  have hhalf : (2 : K p) * 2⁻¹ = 1 := mul_inv_cancel₀ h2'
  have := K_char (p := p)
  have : ExpChar (K p) p := ExpChar.prime hp.out
  have hfix : ∀ z : Int, ((z : K p)) ^ p = z := fun z => by
    rw [← map_intCast (algebraMap (ZMod p) (K p)) z, ← map_pow, ZMod.pow_card]
  have hδp : δ ^ p = δ * ((P * P - 4 : Int) : K p) ^ (p / 2) := by
    rw [← hδ, ← pow_mul, ← pow_succ']; congr 1; omega
  have hJ : ((P * P - 4 : Int) : K p) ^ (p / 2) = ((J(P * P - 4 | p) : Int) : K p) := by
    rw [← map_intCast (algebraMap (ZMod p) (K p)) (P * P - 4), ← map_pow, ← legendreSym.eq_pow, jacobiSym.legendreSym.to_jacobiSym, map_intCast]
  rw [hJ] at hδp
  have hhp : ((2 : K p)⁻¹) ^ p = 2⁻¹ := by
    rw [inv_pow]; congr 1; exact_mod_cast hfix 2
  set α := ((P : K p) + δ) * 2⁻¹ with hα
  set β := ((P : K p) - δ) * 2⁻¹ with hβ
  have hfr : α ^ p = ((P : K p) + ((J(P * P - 4 | p) : Int) : K p) * δ) * 2⁻¹ := by
    rw [hα, mul_pow, add_pow_expChar, hfix, hδp, hhp]; ring
  have hab : α * β = 1 := by
    rw [hα, hβ]
    push_cast at hδ
    linear_combination (-(2⁻¹ : K p) ^ 2) * hδ + (2 * 2⁻¹ + 1) * hhalf
  have hα0 : α ≠ 0 := left_ne_zero_of_mul_eq_one hab
  refine ⟨α, β, hab, ?_, ?_, ?_, ?_, ?_⟩
  · rw [hα, hβ]; linear_combination (P : K p) * hhalf
  · rw [hα, hβ, ← hδ]; linear_combination (δ ^ 2 * (2 * 2⁻¹ + 1)) * hhalf
  · intro h
    rw [h] at hfr
    have : α ^ p = α := by rw [hfr, hα]; push_cast; ring
    have hpp : α ^ (p - 1) * α = 1 * α := by rw [← pow_succ, Nat.sub_add_cancel hp.out.one_le, this, one_mul]
    exact mul_right_cancel₀ hα0 hpp
  · intro h
    rw [h] at hfr
    have : α ^ p = β := by rw [hfr, hβ]; push_cast; ring
    rw [pow_succ, this, mul_comm]; exact hab
  · intro h
    have : δ = 0 := by
      rw [h] at hδp
      exact pow_eq_zero_iff (hp.out.ne_zero) |>.1 (by rw [hδp]; simp)
    rw [hα, hβ, this]; ring

end Verif.Nbt
