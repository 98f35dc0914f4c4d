import Verif.Nbt.Model
import Verif.Nbt.Spec
import Mathlib.NumberTheory.LegendreSymbol.JacobiSymbol
import Mathlib.Tactic.Ring
import Mathlib.Tactic.Linarith

namespace Verif.Nbt
open Verif.Rsa (powMod crt modularRoot)

/-! ## gcd -/

theorem gcdLoop_spec : ∀ (f : Nat) (g0 g1 : Int), g1.natAbs < f → ∃ g, gcdLoop f g0 g1 = .ok g ∧ g.natAbs = Int.gcd g0 g1 ∧ (0 ≤ g0 → 0 ≤ g1 → 0 ≤ g)
  | 0, _, _, h => by omega
  | f + 1, g0, g1, h => by
    rw [gcdLoop]
    by_cases hz : g1 = 0
    · subst hz
      exact ⟨g0, if_pos rfl, by simp, fun h _ => h⟩
    · rw [if_neg hz]
      have hn := Int.emod_nonneg g0 hz
      have hl := Int.emod_lt_abs g0 hz
      obtain ⟨g, e, hg, hp⟩ := gcdLoop_spec f g1 (g0 % g1) (by rw [Int.abs_eq_natAbs] at hl; omega)
      refine ⟨g, e, ?_, fun _ h1 => hp h1 hn⟩
      rw [hg, Int.gcd_comm g1, Int.gcd_emod]

/-! ## Jacobi symbols -/

theorem lowBit_spec (a : Nat) (ha : a ≠ 0) : ∀ (f i : Nat), 2 ^ i ∣ a → a < i + f → 
    ∃ k c, lowBit a f i = .ok k ∧ a = 2 ^ k * c ∧ c % 2 = 1
  | 0, i, hd, h => by
    have := Nat.le_of_dvd (Nat.pos_of_ne_zero ha) hd
    have := @Nat.lt_two_pow_self i
    omega
  | f + 1, i, hd, h => by
    rw [lowBit]
    obtain ⟨c, hc⟩ := hd
    have ht : a.testBit i = decide (c % 2 = 1) := by
      rw [hc, Nat.testBit_eq_decide_div_mod_eq, Nat.mul_div_cancel_left _ (Nat.two_pow_pos i)]
    by_cases h2 : c % 2 = 1
    · exact ⟨i, c, by rw [ht, if_pos (by simpa using h2)], hc, h2⟩
    · rw [if_neg (by rw [ht]; simpa using h2)]
      refine lowBit_spec a ha f (i + 1) ⟨c / 2, ?_⟩ (by omega)
      rw [pow_succ, mul_assoc, Nat.mul_div_cancel' (by omega)]
      exact hc

theorem lowBit_ok (a : Nat) (ha : a ≠ 0) (f : Nat) (h : a < f) : ∃ k c, lowBit a f 0 = .ok k ∧ a = 2 ^ k * c ∧ c % 2 = 1 :=
  lowBit_spec a ha f 0 (by simp) (by omega)

open NumberTheorySymbols

theorem jacobi_two_pow (m k : Nat) (hm : m % 2 = 1) :
    J(((2 ^ k : Nat) : Int) | m) = if k % 2 = 1 ∧ (m % 8 = 3 ∨ m % 8 = 5) then -1 else 1 := by
  rw [Nat.cast_pow, jacobiSym.pow_left, Nat.cast_ofNat, jacobiSym.at_two (Nat.odd_iff.2 hm), ZMod.χ₈_nat_eq_if_mod_eight]
  rw [if_neg (by omega)]
  by_cases h8 : m % 8 = 1 ∨ m % 8 = 7
  · rw [if_pos h8, one_pow, if_neg (by omega)]
  · rw [if_neg h8]
    obtain h | h := Nat.mod_two_eq_zero_or_one k
    · rw [if_neg (by omega)]
      exact (Nat.even_iff.2 h).neg_one_pow
    · rw [if_pos ⟨h, by omega⟩]
      exact (Nat.odd_iff.2 h).neg_one_pow

theorem jacobiLoop_spec (F : Nat) : ∀ (f n m : Nat) (r : Int), m % 2 = 1 → n < f → n < F → jacobiLoop F f n m r = .ok (r * J(n | m))
  | 0, _, _, _, _, h, _ => by omega
  | f + 1, n, m, r, hm, hf, hF => by
    rw [jacobiLoop]
    by_cases hz : n = 0
    · subst hz
      rw [if_pos (by simp)]
      by_cases h1 : m = 1
      · subst h1; simp
      · rw [if_neg (by omega), Nat.cast_zero, jacobiSym.zero_left (by omega), mul_zero]
    · rw [if_neg (by omega), Int.natAbs_natCast]
      obtain ⟨k, c, e, hn, hc⟩ := lowBit_ok n hz F hF
      rw [e]
      have hcn : c ≤ n := by rw [hn]; exact Nat.le_mul_of_pos_left _ (Nat.two_pow_pos k)
      have hdiv : ((n : Int) / 2 ^ k) = (c : Int) := by
        rw [hn, Nat.cast_mul, Nat.cast_pow, Nat.cast_ofNat, Int.mul_ediv_cancel_left _ (by positivity)]
      simp only [hdiv]
      have hlt : m % c < c := Nat.mod_lt _ (by omega)
      rw [show ((m : Int) % (c : Int)) = ((m % c : Nat) : Int) from (Int.natCast_mod m c).symm, jacobiLoop_spec F f (m % c) c _ hc (by omega) (by omega)]
      have q := jacobiSym.quadratic_reciprocity_if hc hm
      rw [Int.natCast_mod, ← jacobiSym.mod_left]
      rw [show J((n : Int) | m) = J(((2 ^ k : Nat) : Int) | m) * J((c : Int) | m) by rw [← jacobiSym.mul_left, ← Nat.cast_mul, ← hn], jacobi_two_pow m k hm, ← q]
      have e1 : (k % 2 = 1 ∧ ((m : Int) % 8 = 3 ∨ (m : Int) % 8 = 5)) ↔ (k % 2 = 1 ∧ (m % 8 = 3 ∨ m % 8 = 5)) := by omega
      have e2 : ((c : Int) % 4 = 3 ∧ (m : Int) % 4 = 3) ↔ (c % 4 = 3 ∧ m % 4 = 3) := by omega
      simp only [e1, e2]
      congr 1
      split <;> split <;> ring

theorem jacobi_spec (fuel : Nat) (a : Int) (m : Nat) (hm : m % 2 = 1) (hf : m ≤ fuel) : jacobi fuel a m = .ok J(a | m) := by
  unfold jacobi
  rw [if_neg (by omega)]
  have h0 := Int.emod_nonneg a (by omega : (m : Int) ≠ 0)
  have h1 := Int.emod_lt_of_pos a (by omega : (0 : Int) < m)
  have : a % m = ((a % m).toNat : Int) := by omega
  rw [this, jacobiLoop_spec fuel fuel _ m 1 hm (by omega) (by omega), one_mul, ← this, ← jacobiSym.mod_left]

/-! ## Square roots -/

theorem sqrtLoop_spec (n : Nat) (hn : 0 < n) : ∀ (f x : Nat), n < (x + 1) * (x + 1) → x < f → 0 < x →
    ∃ r : Nat, sqrtLoop n f x = .ok (r : Int) ∧ r * r ≤ n ∧ n < (r + 1) * (r + 1)
  | 0, _, _, h, _ => by omega
  | f + 1, x, hx, hf, h0 => by
    rw [sqrtLoop, if_neg (by omega)]
    have e : ((x : Int) + (n : Int) / (x : Int)) / 2 = (((x + n / x) / 2 : Nat) : Int) := by push_cast; rfl
    simp only [e]
    have hq : n < x * (n / x + 1) := Nat.lt_mul_div_succ n h0
    have hq2 : x * (n / x) ≤ n := Nat.mul_div_le n x
    generalize n / x = q at *
    have hy : x + q ≤ 2 * ((x + q) / 2) + 1 := by omega
    have hy2 : 2 * ((x + q) / 2) ≤ x + q := by omega
    generalize (x + q) / 2 = y at *
    have h1 : n < (y + 1) * (y + 1) := by
      have a1 : (x + q + 1) * (x + q + 1) ≤ (2 * (y + 1)) * (2 * (y + 1)) := Nat.mul_le_mul (by omega) (by omega)
      zify at a1 hq ⊢
      nlinarith [sq_nonneg ((x : Int) - (q + 1))]
    by_cases hlt : y < x
    · rw [if_pos (by omega)]
      refine sqrtLoop_spec n hn f y h1 (by omega) ?_
      rcases Nat.eq_zero_or_pos y with rfl | h
      · omega
      · exact h
    · rw [if_neg (by omega)]
      refine ⟨x, rfl, ?_, hx⟩
      exact (Nat.mul_le_mul_left x (by omega)).trans hq2

theorem squareRoot_spec (n : Int) (fuel : Nat) (hf : 2 * n.natAbs < fuel) :
    squareRoot fuel n = .ok ((Nat.sqrt n.toNat : Nat) : Int) := by
  unfold squareRoot
  by_cases h : n ≤ 0
  · rw [if_pos h, show n.toNat = 0 by omega]; rfl
  · rw [if_neg h]
    obtain ⟨m, rfl⟩ : ∃ m : Nat, n = m := ⟨n.toNat, by omega⟩
    have hm : 0 < m := by omega
    rw [Int.natAbs_natCast] at hf ⊢
    have hb := Misc.bitLen_lt m
    have hb2 : 2 ^ (Misc.bitLen m - 1) ≤ m := by
      unfold Misc.bitLen
      rw [if_neg (by omega)]
      exact Nat.log2_self_le (by omega)
    have hL : 0 < Misc.bitLen m := by unfold Misc.bitLen; rw [if_neg (by omega)]; omega
    generalize Misc.bitLen m = L at *
    have hsq : 2 ^ L ≤ 2 ^ ((L + 1) / 2) * 2 ^ ((L + 1) / 2) := by
      rw [← pow_add]; exact Nat.pow_le_pow_right (by omega) (by omega)
    have hx : 2 ^ ((L + 1) / 2) ≤ 2 * 2 ^ (L - 1) := by
      rw [← pow_succ']; exact Nat.pow_le_pow_right (by omega) (by omega)
    obtain ⟨r, e, h1, h2⟩ := sqrtLoop_spec m hm fuel (2 ^ ((L + 1) / 2)) (lt_of_lt_of_le (lt_of_lt_of_le hb hsq) (Nat.mul_le_mul (Nat.le_succ _) (Nat.le_succ _))) (by omega) (Nat.two_pow_pos _)
    rw [show ((2 : Int) ^ ((L + 1) / 2)) = ((2 ^ ((L + 1) / 2) : Nat) : Int) by push_cast; rfl, e]
    congr 2
    rw [Int.toNat_natCast]
    exact (Nat.eq_sqrt.2 ⟨h1, h2⟩)

theorem isSquare_spec (n : Int) (fuel : Nat) (hf : 2 * n.natAbs < fuel) : ∃ b, isSquare fuel n = .ok b ∧ (b = true ↔ ∃ r : Int, r * r = n) := by
  refine ⟨n == (Nat.sqrt n.toNat : Int) * (Nat.sqrt n.toNat : Int), ?_, ?_⟩
  · unfold isSquare
    rw [squareRoot_spec n fuel hf]
    rfl
  rw [beq_iff_eq]
  constructor
  · exact fun h => ⟨_, h.symm⟩
  · rintro ⟨r, rfl⟩
    have : r * r = ((r.natAbs * r.natAbs : Nat) : Int) := by rw [Int.natAbs_mul_self]
    rw [this, Int.toNat_natCast, Nat.sqrt_eq]
    push_cast; rfl

end Verif.Nbt
