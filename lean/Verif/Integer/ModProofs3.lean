import Verif.Integer.ModProofs2
import Verif.Integer.ModSpec
import Mathlib.Data.Nat.ModEq
import Mathlib.Data.Int.ModEq

/-!
# Proofs about `MontgomeryRepresentation::MultiplicativeInverse` and `Integer::InverseMod`
-/
namespace Verif.Integer

variable {ws : Nat}

theorem gcd_two_pow {M : Nat} (h : M % 2 = 1) (k : Nat) : Nat.gcd M (2 ^ k) = 1 := by
  apply Nat.Coprime.pow_right
  rw [Nat.coprime_comm, Nat.Coprime, Nat.gcd_rec, h]; rfl

/-- From the almost inverse to the Montgomery form of the inverse. -/
theorem mont_inv_arith1 {M x y z a r k : Nat} (hM : M % 2 = 1) (hx : x * 2 ^ r % M = a % M) (hy : y * x % M = 2 ^ k % M) (hk : r ≤ k)
    (hz : z * 2 ^ (k - r) % M = y % M) : z * a % M = 2 ^ r * 2 ^ r % M := by
  change z * a ≡ 2 ^ r * 2 ^ r [MOD M]
  replace hx : x * 2 ^ r ≡ a [MOD M] := hx
  replace hy : y * x ≡ 2 ^ k [MOD M] := hy
  replace hz : z * 2 ^ (k - r) ≡ y [MOD M] := hz
  have h1 : z * x * 2 ^ (k - r) ≡ 2 ^ r * 2 ^ (k - r) [MOD M] := by
    calc z * x * 2 ^ (k - r) = (z * 2 ^ (k - r)) * x := by ring
      _ ≡ y * x [MOD M] := hz.mul_right x
      _ ≡ 2 ^ k [MOD M] := hy
      _ = 2 ^ r * 2 ^ (k - r) := by rw [← pow_add]; congr 1; omega
  have h2 : z * x ≡ 2 ^ r [MOD M] := h1.cancel_right_of_coprime (gcd_two_pow hM _)
  calc z * a ≡ z * (x * 2 ^ r) [MOD M] := (hx.mul_left z).symm
    _ = z * x * 2 ^ r := by ring
    _ ≡ 2 ^ r * 2 ^ r [MOD M] := h2.mul_right _

theorem mont_inv_arith2 {M x y z a r k : Nat} (hx : x * 2 ^ r % M = a % M) (hy : y * x % M = 2 ^ k % M) (hk : k ≤ r)
    (hz : z % M = y * 2 ^ (r - k) % M) : z * a % M = 2 ^ r * 2 ^ r % M := by
  change z * a ≡ 2 ^ r * 2 ^ r [MOD M]
  replace hx : x * 2 ^ r ≡ a [MOD M] := hx
  replace hy : y * x ≡ 2 ^ k [MOD M] := hy
  replace hz : z ≡ y * 2 ^ (r - k) [MOD M] := hz
  have h2 : z * x ≡ 2 ^ r [MOD M] := by
    calc z * x ≡ y * 2 ^ (r - k) * x [MOD M] := hz.mul_right x
      _ = y * x * 2 ^ (r - k) := by ring
      _ ≡ 2 ^ k * 2 ^ (r - k) [MOD M] := hy.mul_right _
      _ = 2 ^ r := by rw [← pow_add]; congr 1; omega
  calc z * a ≡ z * (x * 2 ^ r) [MOD M] := (hx.mul_left z).symm
    _ = z * x * 2 ^ r := by ring
    _ ≡ 2 ^ r * 2 ^ r [MOD M] := h2.mul_right _

theorem inv_arith {M y z a k : Nat} (hM : M % 2 = 1) (hy : y * a % M = 2 ^ k % M) (hz : z * 2 ^ k % M = y % M) : z * a % M = 1 % M := by
  change z * a ≡ 1 [MOD M]
  replace hy : y * a ≡ 2 ^ k [MOD M] := hy
  replace hz : z * 2 ^ k ≡ y [MOD M] := hz
  have h1 : z * a * 2 ^ k ≡ 1 * 2 ^ k [MOD M] := by
    calc z * a * 2 ^ k = (z * 2 ^ k) * a := by ring
      _ ≡ y * a [MOD M] := hz.mul_right a
      _ ≡ 2 ^ k [MOD M] := hy
      _ = 1 * 2 ^ k := by ring
  exact h1.cancel_right_of_coprime (gcd_two_pow hM _)

theorem gcd_radix {M x a r : Nat} (hM : M % 2 = 1) (hx : x * 2 ^ r % M = a % M) : Nat.gcd x M = Nat.gcd a M := by
  replace hx : x * 2 ^ r ≡ a [MOD M] := hx
  rw [← hx.gcd_eq, Nat.mul_comm, Nat.Coprime.gcd_mul_left_cancel]
  exact (Nat.gcd_comm _ _).trans (gcd_two_pow hM _)

namespace Mont

variable {mr : Mont}

theorem inv_spec (hw : 0 < ws) (g : mr.Good ws) {junk : WMem} (hj : AllW (base ws) junk) {a : Obj}
    (ha : Ok ws a) (a0 : 0 ≤ value ws a) (a1 : value ws a < value ws mr.modulus) (la : a.reg.length ≤ 2 * mr.size) :
    ∃ r, mr.inv ws junk a = .ok r ∧ Ok ws r ∧ 0 ≤ value ws r ∧ value ws r < value ws mr.modulus ∧ r.reg.length = mr.rsize ∧
      (Int.gcd (value ws a) (value ws mr.modulus) = 1 →
        value ws r * value ws a % value ws mr.modulus = radix ws mr * radix ws mr % value ws mr.modulus) ∧
      (Int.gcd (value ws a) (value ws mr.modulus) ≠ 1 → value ws r = 0) := by
  have hB := base_gt hw
  have hB0 : 0 < base ws := by omega
  have va := ModArith.val_nn ha a0
  have vm := g.val
  have hodd : wval (base ws) mr.modulus.reg % 2 = 1 := by have := g.odd; omega
  obtain ⟨ge, g2⟩ := g.even
  unfold inv
  simp only
  rw [if_neg (by omega)]
  obtain ⟨w1, vM1, lt1, v1⟩ := reduceObj_spec hw g hj ha a0 a1 la
  generalize mr.reduceObj ws junk a = m3 at *
  obtain ⟨m4, k, he, w4, fr4, kle, zz, ii⟩ := almostInverse_spec (W := 8 * ws) (by omega) (m := m3) w1 (R := 5 * mr.size) (T := 0) (A := 5 * mr.size)
    (NA := mr.size) (M := 6 * mr.size) (N := mr.size) ge (by omega) (by omega)
    (by change mval (base ws) m3 _ _ % 2 = 1; rw [vM1]; exact hodd)
    (by change mval (base ws) m3 _ _ < mval (base ws) m3 _ _; rw [vM1]; exact lt1) (by omega) (by omega) (by omega) (by omega)
  rw [he]
  simp only
  change Nat.gcd (mval (base ws) m3 _ _) (mval (base ws) m3 _ _) ≠ 1 ∨ mval (base ws) m3 _ _ = 1 → mval (base ws) m4 _ _ = 0 ∧ k = 0 at zz
  change Nat.gcd (mval (base ws) m3 _ _) (mval (base ws) m3 _ _) = 1 → mval (base ws) m3 _ _ ≠ 1 → 0 < mval (base ws) m4 _ _ ∧
    mval (base ws) m4 _ _ < mval (base ws) m3 _ _ ∧ mval (base ws) m4 _ _ * mval (base ws) m3 _ _ % mval (base ws) m3 _ _ = 2 ^ k % mval (base ws) m3 _ _ at ii
  have vM4 : mval (base ws) m4 (6 * mr.size) mr.size = wval (base ws) mr.modulus.reg := by
    rw [mval_fr fr4 (by omega) (by omega), vM1]
  rw [vM1] at zz ii
  have hp := base_pow ws mr.size
  rw [hp] at v1
  have hM0 : 0 < wval (base ws) mr.modulus.reg := by omega
  have y_lt : mval (base ws) m4 (5 * mr.size) mr.size < wval (base ws) mr.modulus.reg := by
    by_cases h : Nat.gcd (mval (base ws) m3 (5 * mr.size) mr.size) (wval (base ws) mr.modulus.reg) = 1 ∧ wval (base ws) mr.modulus.reg ≠ 1
    · exact (ii h.1 h.2).2.1
    · rw [(zz (by omega)).1]; exact hM0
  -- the final shift by powers of two
  have hfin : ∃ m5, (if k > mr.size * (8 * ws) then divideByPower2Mod (8 * ws) m4 (5 * mr.size) (5 * mr.size) (k - mr.size * (8 * ws)) (6 * mr.size) mr.size
        else multiplyByPower2Mod (8 * ws) m4 (5 * mr.size) (5 * mr.size) (mr.size * (8 * ws) - k) (6 * mr.size) mr.size) = m5 ∧
      AllW (base ws) m5 ∧ mval (base ws) m5 (5 * mr.size) mr.size < wval (base ws) mr.modulus.reg ∧
      (k = 0 → mval (base ws) m4 (5 * mr.size) mr.size = 0 → mval (base ws) m5 (5 * mr.size) mr.size = 0) ∧
      (mval (base ws) m4 (5 * mr.size) mr.size * mval (base ws) m3 (5 * mr.size) mr.size % wval (base ws) mr.modulus.reg = 2 ^ k % wval (base ws) mr.modulus.reg →
        mval (base ws) m5 (5 * mr.size) mr.size * wval (base ws) a.reg % wval (base ws) mr.modulus.reg
          = 2 ^ (8 * ws * mr.size) * 2 ^ (8 * ws * mr.size) % wval (base ws) mr.modulus.reg) := by
    refine ⟨_, rfl, ?_⟩
    rw [Nat.mul_comm mr.size (8 * ws)]
    split
    · rename_i hk
      obtain ⟨d1, d2, d3, d4⟩ := divideByPower2Mod_spec (W := 8 * ws) (by omega) (m := m4) w4 (R := 5 * mr.size) (A := 5 * mr.size) (k := k - 8 * ws * mr.size)
        (M := 6 * mr.size) (N := mr.size) (by omega) ge (by omega) (by change mval (base ws) m4 _ _ % 2 = 1; rw [vM4]; exact hodd)
        (by change mval (base ws) m4 _ _ < mval (base ws) m4 _ _; rw [vM4]; exact y_lt)
      change mval (base ws) _ _ _ < mval (base ws) m4 _ _ at d3
      change mval (base ws) _ _ _ * _ % mval (base ws) m4 _ _ = mval (base ws) m4 _ _ % mval (base ws) m4 _ _ at d4
      rw [vM4] at d3 d4
      exact ⟨d1, d3, by intro h; omega, fun h => mont_inv_arith1 hodd v1 h (by omega) d4⟩
    · rename_i hk
      obtain ⟨d1, d2, d3, d4⟩ := multiplyByPower2Mod_spec (W := 8 * ws) (by omega) (m := m4) w4 (R := 5 * mr.size) (A := 5 * mr.size) (k := 8 * ws * mr.size - k)
        (M := 6 * mr.size) (N := mr.size) ge (by omega)
        (by change mval (base ws) m4 _ _ < mval (base ws) m4 _ _; rw [vM4]; exact y_lt)
      change mval (base ws) _ _ _ < mval (base ws) m4 _ _ at d3
      change mval (base ws) _ _ _ % mval (base ws) m4 _ _ = mval (base ws) m4 _ _ * _ % mval (base ws) m4 _ _ at d4
      rw [vM4] at d3 d4
      refine ⟨d1, d3, ?_, fun h => mont_inv_arith2 v1 h (by omega) d4⟩
      intro _ h0
      rw [h0, Nat.zero_mul, Nat.zero_mod, Nat.mod_eq_of_lt d3] at d4
      exact d4
  obtain ⟨m5, he5, w5, lt5, z5, i5⟩ := hfin
  rw [he5]
  obtain ⟨r1, r2, r3⟩ := ModArith.result_spec hw g.toGood (loadW_words w5 (5 * mr.size) mr.size) (by simp)
  change value ws _ = (mval (base ws) _ _ _ : Int) at r2
  have hg := gcd_radix hodd v1
  refine ⟨_, rfl, r1, by omega, by omega, r3, ?_, ?_⟩
  · intro h
    rw [va, vm, Int.gcd_natCast_natCast] at h
    rw [r2, va, vm]
    unfold radix
    by_cases h1 : wval (base ws) mr.modulus.reg = 1
    · rw [h1]; simp [Int.emod_one]
    · have := i5 (ii (by rw [hg]; exact h) h1).2.2
      exact_mod_cast this
  · intro h
    rw [va, vm, Int.gcd_natCast_natCast] at h
    obtain ⟨z1, z2⟩ := zz (Or.inl (by rw [hg]; exact h))
    rw [r2, z5 z2 z1]; rfl

end Mont

/-! ## `Integer::InverseMod` -/

theorem inverseOdd_spec (hw : 0 < ws) {junk : WMem} (hj : AllW (base ws) junk) {a m : Obj} (ha : Ok ws a) (hm : Ok ws m)
    (a0 : 0 ≤ value ws a) (a1 : value ws a < value ws m) (hodd : value ws m % 2 = 1) (la : a.reg.length ≤ 2 * m.reg.length) :
    ∃ r, inverseOdd ws junk a m = .ok r ∧ Ok ws r ∧ 0 ≤ value ws r ∧ value ws r < value ws m ∧
      (Int.gcd (value ws a) (value ws m) = 1 → value ws r * value ws a % value ws m = 1 % value ws m) ∧
      (Int.gcd (value ws a) (value ws m) ≠ 1 → value ws r = 0) := by
  have hB := base_gt hw
  have hB0 : 0 < base ws := by omega
  have va := ModArith.val_nn ha a0
  have vm := ModArith.val_nn hm (by omega)
  have hoddn : wval (base ws) m.reg % 2 = 1 := by omega
  obtain ⟨ge, g2⟩ := size_even hm.size
  unfold inverseOdd
  simp only
  rw [if_neg (by omega)]
  generalize hN : m.reg.length = N at *
  have w0 : AllW (base ws) (storeW (storeW (mZero junk 0 N) (5 * N) m.reg) (6 * N) a.reg) :=
    storeW_allW hB0 (storeW_allW hB0 (mZero_spec hB0 hj 0 N).1 _ hm.words) _ ha.words
  have vA : mval (base ws) (storeW (storeW (mZero junk 0 N) (5 * N) m.reg) (6 * N) a.reg) (6 * N) a.reg.length = wval (base ws) a.reg :=
    mval_storeW _ _ _ _ _ rfl
  have vM : mval (base ws) (storeW (storeW (mZero junk 0 N) (5 * N) m.reg) (6 * N) a.reg) (5 * N) N = wval (base ws) m.reg := by
    rw [mval_same (storeW_same _ _ _ a.reg.length rfl) (by omega), mval_storeW _ _ _ _ _ hN]
  generalize storeW (storeW (mZero junk 0 N) (5 * N) m.reg) (6 * N) a.reg = mem at *
  obtain ⟨m4, k, he, w4, fr4, kle, zz, ii⟩ := almostInverse_spec (W := 8 * ws) (by omega) (m := mem) w0 (R := 0) (T := N) (A := 6 * N)
    (NA := a.reg.length) (M := 5 * N) (N := N) ge (by omega) (by omega)
    (by change mval (base ws) mem _ _ % 2 = 1; rw [vM]; exact hoddn)
    (by change mval (base ws) mem _ _ < mval (base ws) mem _ _; rw [vM, vA]; omega) (by omega) (by omega) (by omega) (by omega)
  rw [he]
  simp only
  change Nat.gcd (mval (base ws) mem _ _) (mval (base ws) mem _ _) ≠ 1 ∨ mval (base ws) mem _ _ = 1 → mval (base ws) m4 _ _ = 0 ∧ k = 0 at zz
  change Nat.gcd (mval (base ws) mem _ _) (mval (base ws) mem _ _) = 1 → mval (base ws) mem _ _ ≠ 1 → 0 < mval (base ws) m4 _ _ ∧
    mval (base ws) m4 _ _ < mval (base ws) mem _ _ ∧ mval (base ws) m4 _ _ * mval (base ws) mem _ _ % mval (base ws) mem _ _ = 2 ^ k % mval (base ws) mem _ _ at ii
  have vM4 : mval (base ws) m4 (5 * N) N = wval (base ws) m.reg := by
    rw [mval_fr fr4 (by omega) (by omega), vM]
  rw [vM, vA] at zz ii
  have hM0 : 0 < wval (base ws) m.reg := by omega
  have y_lt : mval (base ws) m4 0 N < wval (base ws) m.reg := by
    by_cases h : Nat.gcd (wval (base ws) a.reg) (wval (base ws) m.reg) = 1 ∧ wval (base ws) m.reg ≠ 1
    · exact (ii h.1 h.2).2.1
    · rw [(zz (by omega)).1]; exact hM0
  obtain ⟨d1, d2, d3, d4⟩ := divideByPower2Mod_spec (W := 8 * ws) (by omega) (m := m4) w4 (R := 0) (A := 0) (k := k)
    (M := 5 * N) (N := N) (by omega) ge (by omega) (by change mval (base ws) m4 _ _ % 2 = 1; rw [vM4]; exact hoddn)
    (by change mval (base ws) m4 _ _ < mval (base ws) m4 _ _; rw [vM4]; exact y_lt)
  change mval (base ws) _ _ _ < mval (base ws) m4 _ _ at d3
  change mval (base ws) _ _ _ * _ % mval (base ws) m4 _ _ = mval (base ws) m4 _ _ % mval (base ws) m4 _ _ at d4
  rw [vM4] at d3 d4
  have r2 : value ws ⟨loadW (divideByPower2Mod (8 * ws) m4 0 0 k (5 * N) N) 0 N, false⟩
    = (mval (base ws) (divideByPower2Mod (8 * ws) m4 0 0 k (5 * N) N) 0 N : Int) := value_pos rfl
  refine ⟨_, rfl, ⟨loadW_words d1 _ _, by simp only [loadW_length]; exact hN ▸ hm.size, by simp⟩, by omega, by omega, ?_, ?_⟩
  · intro h
    rw [va, vm, Int.gcd_natCast_natCast] at h
    rw [r2, va, vm]
    by_cases h1 : wval (base ws) m.reg = 1
    · rw [h1]; simp [Int.emod_one]
    · have := inv_arith hoddn (ii h h1).2.2 d4
      exact_mod_cast this
  · intro h
    rw [va, vm, Int.gcd_natCast_natCast] at h
    obtain ⟨z1, z2⟩ := zz (Or.inl h)
    rw [z1, z2, Nat.zero_mod, pow_zero, Nat.mul_one, Nat.mod_eq_of_lt] at d4
    · rw [r2, z2, d4]; rfl
    · rw [z2] at d3; exact d3

theorem even_formula {a m u q : Int} (ha : 1 < a) (hm : 1 < m) (hu0 : 0 < u) (hu : u < a) (hinv : u * (m % a) % a = 1 % a)
    (hq : q = (m * (a - u) + 1) / a) : 0 ≤ q ∧ q < m ∧ q * a % m = 1 % m := by
  have h1 : (m * u - 1) % a = 0 := by
    have h2 : m * u % a = 1 % a := by rw [Int.mul_comm, ← hinv, Int.mul_emod, Int.mul_emod u (m % a), Int.emod_emod_of_dvd _ (dvd_refl a)]
    exact Int.emod_eq_zero_of_dvd (Int.ModEq.dvd (Int.ModEq.symm h2))
  obtain ⟨c, hc⟩ := Int.dvd_of_emod_eq_zero h1
  have h3 : m * (a - u) + 1 = a * (m - c) := by linear_combination -hc
  rw [h3, Int.mul_ediv_cancel_left _ (by omega)] at hq
  have hqa : q * a = m * (a - u) + 1 := by rw [h3, hq]; ring
  have hau : 0 ≤ m * (a - u) := Int.mul_nonneg (by omega) (by omega)
  refine ⟨?_, ?_, ?_⟩
  · by_contra h
    have : q * a ≤ 0 := by nlinarith
    omega
  · by_contra h
    have h5 : m * a ≤ q * a := Int.mul_le_mul_of_nonneg_right (by omega) (by omega)
    have h6 : m * u ≥ m * 1 := Int.mul_le_mul_of_nonneg_left (by omega) (by omega)
    have h7 : m * (a - u) = m * a - m * u := by ring
    omega
  · rw [hqa, Int.add_comm, Int.add_mul_emod_self_left]

theorem inverseModNext_spec (hw : 0 < ws) {junk : WMem} (hj : AllW (base ws) junk) {a m : Obj} (ha : Ok ws a) (hm : Ok ws m)
    (a0 : 0 ≤ value ws a) (a1 : value ws a < value ws m) (la : value ws m % 2 = 1 → a.reg.length ≤ 2 * m.reg.length) :
    ∃ r, inverseModNext ws junk a m = .ok r ∧ Ok ws r ∧ IsInverse (value ws a) (value ws m) (value ws r) := by
  unfold inverseModNext
  rw [isOdd_spec hw hm]
  by_cases hodd : value ws m % 2 = 1
  · rw [if_neg (by simp [hodd])]
    obtain ⟨r, h1, h2, h3, h4, h5, h6⟩ := inverseOdd_spec hw hj ha hm a0 a1 hodd (la hodd)
    exact ⟨r, h1, h2, h3, h4, h5, h6⟩
  · rw [if_pos (by simpa using hodd), isZero_spec hw hm, isOdd_spec hw ha]
    by_cases hae : value ws a % 2 = 1
    · rw [if_neg (by simp [hae]; omega)]
      obtain ⟨oo, ov⟩ := ofWord_one hw
      rw [compare_spec hw ha oo, ov]
      by_cases h1 : value ws a = 1
      · rw [h1]
        simp only [gt_iff_lt, lt_self_iff_false, ite_false, ite_true]
        refine ⟨_, rfl, oo, ?_⟩
        rw [ov]
        refine ⟨by omega, by omega, fun _ => by simp, fun h => absurd ?_ h⟩
        simp
      · rw [if_neg (by split <;> (try split) <;> omega)]
        obtain ⟨r, he, ro, rv, rl⟩ := modulo_spec hw hj hm ha (by omega)
        rw [he]
        simp only [Bind.bind, Except.bind]
        obtain ⟨u, ue, uo, u0, u1, ui, uz⟩ := inverseOdd_spec hw hj ro ha (by rw [rv]; exact Int.emod_nonneg _ (by omega))
          (by rw [rv]; exact Int.emod_lt_of_pos _ (by omega)) hae (by have := roundup_le_reg ha; omega)
        rw [ue]
        simp only
        rw [rv, Int.gcd_emod] at ui uz
        rw [isZero_spec hw uo]
        by_cases hu : value ws u = 0
        · rw [if_pos (by simpa using hu)]
          refine ⟨_, rfl, (zero_ok hw).1, ?_⟩
          rw [(zero_ok hw).2]
          refine ⟨by omega, by omega, fun h => ?_, fun _ => rfl⟩
          have := ui (by rw [Int.gcd_comm]; exact h)
          rw [hu, Int.zero_mul, Int.zero_emod, Int.emod_eq_of_lt (by omega) (by omega)] at this
          omega
        · rw [if_neg (by simpa using hu)]
          have hg : Int.gcd (value ws m) (value ws a) = 1 := by
            by_contra h; exact hu (uz h)
          obtain ⟨mo, mv⟩ := minus_spec hw ha uo
          obtain ⟨to', tv⟩ := times_spec hw hj (same := false) hm mo (by simp)
          obtain ⟨po, pv⟩ := plus_spec hw to' oo
          obtain ⟨q, qe, qo, qv⟩ := dividedBy_spec hw hj po ha (by omega)
          rw [qe]
          refine ⟨q, rfl, qo, ?_⟩
          rw [pv, tv, mv, ov] at qv
          obtain ⟨f1, f2, f3⟩ := even_formula (a := value ws a) (m := value ws m) (u := value ws u) (q := value ws q) (by omega) (by omega) (by omega) u1 (ui hg) qv
          exact ⟨f1, f2, fun _ => f3, fun h => absurd (by rw [Int.gcd_comm]; exact hg) h⟩
    · rw [if_pos (by right; simpa using hae)]
      refine ⟨_, rfl, (zero_ok hw).1, ?_⟩
      rw [(zero_ok hw).2]
      refine ⟨by omega, by omega, fun h => ?_, fun _ => rfl⟩
      have h2 : (2 : Int) ∣ (Int.gcd (value ws a) (value ws m) : Int) := Int.dvd_coe_gcd (by omega) (by omega)
      rw [h] at h2
      omega

theorem inverseMod_spec (hw : 0 < ws) {junk : WMem} (hj : AllW (base ws) junk) {a m : Obj} (ha : Ok ws a) (hm : Ok ws m)
    (hp : 0 < value ws m) (la : 0 ≤ value ws a → value ws a < value ws m → value ws m % 2 = 1 → a.reg.length ≤ 2 * m.reg.length) :
    ∃ r, inverseMod ws junk a m = .ok r ∧ Ok ws r ∧ IsInverse (value ws a) (value ws m) (value ws r) := by
  unfold inverseMod
  have hcs := compare_spec hw ha hm
  by_cases h : a.neg = true ∨ compare a m ≥ 0
  · rw [if_pos h]
    obtain ⟨r, he, ro, rv, rl⟩ := modulo_spec hw hj ha hm hp
    rw [he]
    simp only [Bind.bind, Except.bind]
    obtain ⟨x, xe, xo, h1, h2, h3, h4⟩ := inverseModNext_spec hw hj ro hm (by rw [rv]; exact Int.emod_nonneg _ (by omega))
      (by rw [rv]; exact Int.emod_lt_of_pos _ (by omega)) (by have := roundup_le_reg hm; omega)
    rw [rv, Int.gcd_emod] at h3 h4
    refine ⟨x, xe, xo, h1, h2, fun h => ?_, h4⟩
    rw [← h3 h, Int.mul_emod, Int.mul_emod (value ws x) (value ws a % value ws m), Int.emod_emod_of_dvd _ (dvd_refl (value ws m))]
  · rw [if_neg h]
    have h0 : 0 ≤ value ws a := by
      by_contra hc; exact h (Or.inl ((ModArith.neg_iff ha).mpr (by omega)))
    have h1 : value ws a < value ws m := by
      by_contra hc
      exact h (Or.inr (by rw [hcs]; split <;> (try split) <;> omega))
    exact inverseModNext_spec hw hj ha hm h0 h1 (la h0 h1)

end Verif.Integer
