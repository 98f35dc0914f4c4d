import Verif.Nbt.Proofs3
import Verif.Nbt.TableProofs

namespace Verif.Nbt
open Verif.Dl (invMod)
open Verif.Rsa (powMod crt modularRoot)
open NumberTheorySymbols

variable {p : Nat} [hp : Fact p.Prime]

/-! ## Quadratic equations and roots -/

theorem cast_inv (a : Int) (ha : (a : ZMod p) ≠ 0) : ((invMod a p : Int) : ZMod p) = (a : ZMod p)⁻¹ := by
  have h1 : a % p ≠ 0 := fun h => ha ((ZMod.intCast_zmod_eq_zero_iff_dvd a p).2 (Int.dvd_of_emod_eq_zero h))
  have h2 := Dl.mul_invMod a p pp (Dl.gcd_prime' p hp.out a h1)
  have h3 := (ZMod.intCast_eq_intCast_iff _ _ p).2 h2
  rw [Int.cast_mul, Int.cast_one] at h3
  exact (inv_eq_of_mul_eq_one_right h3).symm

theorem two_neZ (h2 : p % 2 = 1) : (2 : ZMod p) ≠ 0 := by
  intro h
  have := (ZMod.natCast_eq_zero_iff 2 p).1 (by exact_mod_cast h)
  have h3 := Nat.le_of_dvd (by omega) this
  have := hp.out.two_le
  omega

theorem solveQuadratic_spec (fuel : Nat) (hF : p ≤ fuel) (h2 : p % 2 = 1) (a b c : Int) (ha : (a : ZMod p) ≠ 0) :
    ∃ o, solveQuadratic fuel a b c p = .ok o ∧ (o = none → ∀ x : ZMod p, a * x ^ 2 + b * x + c ≠ 0) ∧
      ∀ r1 r2, o = some (r1, r2) → (0 ≤ r1 ∧ r1 < p) ∧ (0 ≤ r2 ∧ r2 < p) ∧ ∀ x : ZMod p, a * x ^ 2 + b * x + c = 0 ↔ x = r1 ∨ x = r2 := by
  have hr2 := two_neZ (p := p) h2
  have hpp := pp (p := p)
  have haa : ((a + a : Int) : ZMod p) ≠ 0 := by
    rw [Int.cast_add, ← two_mul]; exact mul_ne_zero hr2 ha
  have hinv := cast_inv (p := p) (a + a) haa
  have hcan : (2 * (a : ZMod p)) * ((invMod (a + a) p : Int) : ZMod p) = 1 := by
    rw [hinv, Int.cast_add, ← two_mul]; exact mul_inv_cancel₀ (mul_ne_zero hr2 ha)
  have hD : (((b * b - 4 * a * c) % p : Int) : ZMod p) = b * b - 4 * a * c := by rw [cast_emod]; push_cast; ring
  have hfac : ∀ x : ZMod p, (4 * (a : ZMod p)) * (a * x ^ 2 + b * x + c) = (2 * a * x + b) ^ 2 - (b * b - 4 * a * c) := fun x => by ring
  have h4a : (4 * (a : ZMod p)) ≠ 0 := by
    rw [show (4 : ZMod p) = 2 * 2 by norm_num]; exact mul_ne_zero (mul_ne_zero hr2 hr2) ha
  have hiff : ∀ x : ZMod p, a * x ^ 2 + b * x + c = 0 ↔ (2 * a * x + b) ^ 2 = b * b - 4 * a * c := fun x => by
    rw [← sub_eq_zero (a := (2 * (a : ZMod p) * x + b) ^ 2), ← hfac, mul_eq_zero, or_iff_right h4a]
  unfold solveQuadratic
  simp only [jacobi_spec fuel _ p h2 hF]
  have rng : ∀ z : Int, 0 ≤ z % p ∧ z % p < p := fun z => ⟨Int.emod_nonneg _ hpp.ne', Int.emod_lt_of_pos _ hpp⟩
  have h2a : (2 * (a : ZMod p)) ≠ 0 := mul_ne_zero hr2 ha
  by_cases hj0 : J((b * b - 4 * a * c) % p | p) = 0
  · rw [if_pos hj0]
    refine ⟨_, rfl, by simp, ?_⟩
    rintro r1 r2 ⟨⟩
    refine ⟨rng _, rng _, fun x => ?_⟩
    have hz : ((b * b - 4 * a * c : ZMod p)) = 0 := by
      rw [← hD]
      rw [← jacobiSym.legendreSym.to_jacobiSym] at hj0
      exact (legendreSym.eq_zero_iff p _).1 hj0
    rw [hiff, hz, cast_emod, Int.cast_mul, Int.cast_neg, or_self, pow_eq_zero_iff (by omega)]
    constructor
    · intro h
      linear_combination ((invMod (a + a) p : Int) : ZMod p) * h - x * hcan
    · rintro rfl
      linear_combination (-(b : ZMod p)) * hcan
  · rw [if_neg hj0]
    by_cases hj1 : J((b * b - 4 * a * c) % p | p) = 1
    · rw [if_pos hj1]
      obtain ⟨s, es, S, hS, hS2⟩ := modularSquareRoot_spec fuel hF h2 ((b * b - 4 * a * c) % p) (ZMod.isSquare_of_jacobiSym_eq_one hj1)
      simp only [es]
      refine ⟨_, rfl, by simp, ?_⟩
      rintro r1 r2 ⟨⟩
      refine ⟨rng _, rng _, fun x => ?_⟩
      rw [hiff, ← hD, ← hS2, ← hS.2.2, sq_eq_sq_iff_eq_or_eq_neg, cast_emod, cast_emod]
      push_cast
      apply or_congr
      · constructor
        · intro h
          linear_combination ((invMod (a + a) p : Int) : ZMod p) * h - x * hcan
        · rintro rfl
          linear_combination ((s : ZMod p) - b) * hcan
      · constructor
        · intro h
          linear_combination ((invMod (a + a) p : Int) : ZMod p) * h - x * hcan
        · rintro rfl
          linear_combination (-(s : ZMod p) - b) * hcan
    · rw [if_neg hj1]
      refine ⟨none, rfl, fun _ x hx => ?_, by simp⟩
      have hneg : J((b * b - 4 * a * c) % p | p) = -1 := ((jacobiSym.trichotomy _ _).resolve_left hj0).resolve_left hj1
      refine (ZMod.nonsquare_iff_jacobiSym_eq_neg_one (p := p)).1 hneg ?_
      rw [hD, ← (hiff x).1 hx]
      exact ⟨_, pow_two _⟩

theorem pow_one_mod (z : ZMod p) (k : Nat) (_h2 : 2 < p) (hk : k % (p - 1) = 1) : z ^ k = z := by
  by_cases h : z = 0
  · subst h; rw [zero_pow]; rintro rfl; rw [Nat.zero_mod] at hk; omega
  · rw [← Nat.mod_add_div k (p - 1), hk, pow_add, pow_one, pow_mul, ZMod.pow_card_sub_one_eq_one h, one_pow, mul_one]

theorem inv_mul_mod (e n : Int) (hn : 1 < n) (h : Int.gcd e n = 1) (he : 0 ≤ e) : ((invMod e n).toNat * e.toNat) % n.toNat = 1 ∧ 0 ≤ invMod e n := by
  have h1 := Dl.mul_invMod e n (by omega) h
  have h0 : 0 ≤ invMod e n := by
    unfold Dl.invMod; rw [if_pos h]; exact Int.emod_nonneg _ (by omega)
  refine ⟨?_, h0⟩
  have : (((invMod e n).toNat * e.toNat % n.toNat : Nat) : Int) = 1 := by
    push_cast
    rw [Int.toNat_of_nonneg h0, Int.toNat_of_nonneg he, Int.toNat_of_nonneg (by omega), mul_comm]
    rw [h1, Int.emod_eq_of_lt (by omega) hn]
  exact_mod_cast this

theorem root_mod (h2 : 2 < p) (a e d : Int) (he : 0 ≤ e) (hd : d = invMod e (p - 1)) (h : Int.gcd e (p - 1) = 1) :
    ((powMod (a % p) d p : Int) : ZMod p) ^ e.toNat = a := by
  obtain ⟨h1, h0⟩ := inv_mul_mod e (p - 1) (by omega) h he
  rw [cast_powMod, cast_emod, ← pow_mul, hd]
  exact pow_one_mod _ _ h2 (by rw [← h1]; congr 1; omega)

/-! ## Inverse Lucas sequences -/

theorem lucas_spec' (e P : Int) (he : 0 ≤ e) (n : Nat) (hn : 2 < n) (h2 : n % 2 = 1) : lucas e P n = .ok (V P e.toNat % n) := by
  by_cases h : e = 0
  · subst h
    rw [lucas_zero, show V P (Int.toNat 0) = 2 from rfl, Int.emod_eq_of_lt (by omega) (by omega)]
  · exact lucas_spec e P n (by omega) (by omega) (by omega)

theorem V_congr (P Q : Int) (h : (P : ZMod p) = Q) : ∀ k, ((V P k : Int) : ZMod p) = ((V Q k : Int) : ZMod p)
  | 0 => rfl
  | 1 => h
  | k + 2 => by
    rw [show V P (k + 2) = P * V P (k + 1) - V P k from rfl, show V Q (k + 2) = Q * V Q (k + 1) - V Q k from rfl]
    rw [Int.cast_sub, Int.cast_mul, V_congr P Q h (k + 1), V_congr P Q h k, h, Int.cast_sub, Int.cast_mul]

theorem pow_mod_one {α : K p} {N k : Nat} (h : α ^ N = 1) (hk : k % N = 1) : α ^ k = α := by
  rw [← Nat.mod_add_div k N, hk, pow_add, pow_one, pow_mul, h, one_pow, mul_one]

theorem inverse_side (h2 : p % 2 = 1) (e m : Int) (he : 0 ≤ e) (hg : Int.gcd e (p - J(m * m - 4 | p)) = 1) (hm : ((m + 2 : Int) : ZMod p) ≠ 0) (x : Int)
    (hx : (x : ZMod p) = ((V m (invMod e (p - J(m * m - 4 | p))).toNat : Int) : ZMod p)) : ((V x e.toNat : Int) : ZMod p) = m := by
  have hp3 : 2 < p := by have := hp.out.two_le; omega
  obtain ⟨α, β, hab, hs, hsq, h1, h3, h0⟩ := roots (p := p) h2 m
  have hd : (invMod e (p - J(m * m - 4 | p))).toNat * e.toNat % (p - J(m * m - 4 | p) : Int).toNat = 1 :=
    (inv_mul_mod e _ (by rcases jacobiSym.trichotomy (m * m - 4) p with h | h | h <;> rw [h] <;> omega) hg he).1
  generalize invMod e (p - J(m * m - 4 | p)) = d at *
  have hxd : α ^ d.toNat + β ^ d.toNat = (x : K p) := by
    rw [← V_roots m hab hs]; exact (cast_K _ _).2 hx.symm
  have hβ : ∀ N, α ^ N = 1 → β ^ N = 1 := fun N h => by
    have : (α * β) ^ N = 1 := by rw [hab, one_pow]
    rwa [mul_pow, h, one_mul] at this
  rw [← cast_K, V_roots x (by rw [← mul_pow, hab, one_pow]) hxd, ← pow_mul, ← pow_mul]
  rcases jacobiSym.trichotomy (m * m - 4) p with h | h | h
  · have hαβ := h0 h
    rw [← hαβ] at hab hs ⊢
    have : α = 1 := by
      rcases mul_self_eq_one_iff.1 hab with h | h
      · exact h
      · exfalso
        apply hm
        have : ((m : Int) : K p) = ((-2 : Int) : K p) := by rw [← hs, h]; push_cast; ring
        have := (cast_K _ _).1 this
        rw [Int.cast_add, this]; push_cast; ring
    rw [this] at hs ⊢
    simpa using hs
  · rw [h] at hd
    have e1 : ((p : Int) - 1).toNat = p - 1 := by omega
    rw [e1] at hd
    rw [pow_mod_one (h1 h) hd, pow_mod_one (hβ _ (h1 h)) hd, hs]
  · rw [h] at hd
    have e1 : ((p : Int) - -1).toNat = p + 1 := by omega
    rw [e1] at hd
    rw [pow_mod_one (h3 h) hd, pow_mod_one (hβ _ (h3 h)) hd, hs]

end Verif.Nbt
