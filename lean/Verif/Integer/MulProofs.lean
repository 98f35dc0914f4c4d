import Verif.Integer.MulModel
import Verif.Integer.MulInsProofs4
import Mathlib.Tactic.LinearCombination

/-!
# Correctness of the recursive multiplication
-/
namespace Verif.Integer

/-- The sizes the routines are called with: powers of two, at least 2. -/
def Pow2 (N : Nat) : Prop := ∃ k, N = 2 ^ (k + 1)

theorem Pow2.small {N : Nat} (h : Pow2 N) (hN : N ≤ 16) : N = 2 ∨ N = 4 ∨ N = 8 ∨ N = 16 := by
  obtain ⟨k, rfl⟩ := h
  have : k ≤ 3 := by
    by_contra hc
    have : 2 ^ 5 ≤ 2 ^ (k + 1) := Nat.pow_le_pow_right (by omega) (by omega)
    omega
  rcases this with _
  have : k = 0 ∨ k = 1 ∨ k = 2 ∨ k = 3 := by omega
  rcases this with rfl | rfl | rfl | rfl <;> simp

theorem Pow2.half {N : Nat} (h : Pow2 N) (hN : 2 < N) : Pow2 (N / 2) ∧ N = N / 2 + N / 2 := by
  obtain ⟨k, rfl⟩ := h
  cases k with
  | zero => simp at hN
  | succ k =>
    have e : 2 ^ (k + 1 + 1) / 2 = 2 ^ (k + 1) := by rw [pow_succ]; omega
    rw [e]
    exact ⟨⟨k, rfl⟩, by rw [pow_succ 2 (k + 1)]; omega⟩

theorem Pow2.even {N : Nat} (h : Pow2 N) : N % 2 = 0 := by
  obtain ⟨k, rfl⟩ := h; rw [pow_succ]; omega

theorem Pow2.two_le {N : Nat} (h : Pow2 N) : 2 ≤ N := by
  obtain ⟨k, rfl⟩ := h
  rw [pow_succ]
  have : 0 < 2 ^ k := by positivity
  omega

section
variable {B : Nat} (hB : 256 ≤ B) {m : WMem} (hm : AllW B m)
include hB hm

theorem sMul_spec {R A Bp N : Nat} (hN : Pow2 N) (hle : N ≤ 16) (hA : R + 2 * N ≤ A ∨ A + N ≤ R)
    (hBp : R + 2 * N ≤ Bp ∨ Bp + N ≤ R) :
    AllW B (sMul B (N / 4) m R A Bp) ∧ Same m (sMul B (N / 4) m R A Bp) R (2 * N) ∧
      mval B (sMul B (N / 4) m R A Bp) R (2 * N) = mval B m A N * mval B m Bp N := by
  rcases hN.small hle with rfl | rfl | rfl | rfl
  · exact base_mul hB hm mul2.tail mul2_plan hA hBp
  · exact base_mul hB hm mul4.tail mul4_plan hA hBp
  · exact base_mul hB hm mul8.tail mul8_plan hA hBp
  · exact base_mul hB hm mul16.tail mul16_plan hA hBp

theorem sBot_spec {R A Bp N : Nat} (hN : Pow2 N) (hle : N ≤ 16) (hA : R + N ≤ A ∨ A + N ≤ R)
    (hBp : R + N ≤ Bp ∨ Bp + N ≤ R) :
    AllW B (sBot B (N / 4) m R A Bp) ∧ Same m (sBot B (N / 4) m R A Bp) R N ∧
      mval B (sBot B (N / 4) m R A Bp) R N = mval B m A N * mval B m Bp N % B ^ N := by
  rcases hN.small hle with rfl | rfl | rfl | rfl
  · exact base_bot hB hm bot2.tail bot2_plan hA hBp
  · exact base_bot hB hm bot4.tail bot4_plan hA hBp
  · exact base_bot hB hm bot8.tail bot8_plan hA hBp
  · exact base_bot hB hm bot16.tail bot16_plan hA hBp

theorem sSqu_spec {R A N : Nat} (hev : B % 2 = 0) (hN : Pow2 N) (hle : N ≤ 16) (hA : R + 2 * N ≤ A ∨ A + N ≤ R) :
    AllW B (sSqu B (N / 4) m R A) ∧ Same m (sSqu B (N / 4) m R A) R (2 * N) ∧
      mval B (sSqu B (N / 4) m R A) R (2 * N) = mval B m A N * mval B m A N := by
  rcases hN.small hle with rfl | rfl | rfl | rfl
  · exact base_squ hB hm hev (by omega) squ2.tail squ2_plan hA
  · exact base_squ hB hm hev (by omega) squ4.tail squ4_plan hA
  · exact base_squ hB hm hev (by omega) squ8.tail squ8_plan hA
  · exact base_squ hB hm hev (by omega) squ16.tail squ16_plan hA

theorem sTop_spec {R A Bp L N : Nat} (hN : Pow2 N) (hle : N ≤ 16) (hA : R + N ≤ A ∨ A + N ≤ R)
    (hBp : R + N ≤ Bp ∨ Bp + N ≤ R) (hL : L = mval B m A N * mval B m Bp N / B ^ (N - 1) % B) :
    AllW B (sTop B (N / 4) m R A Bp L) ∧ Same m (sTop B (N / 4) m R A Bp L) R N ∧
      mval B (sTop B (N / 4) m R A Bp L) R N = mval B m A N * mval B m Bp N / B ^ N := by
  rcases hN.small hle with rfl | rfl | rfl | rfl
  · obtain ⟨g1, g2, g3⟩ := base_mul hB hm (R := R + A + Bp + 4) (A := A) (Bp := Bp) mul2.tail mul2_plan (by omega) (by omega)
    change AllW B (top2 B m R A Bp) ∧ Same m (top2 B m R A Bp) R 2 ∧ mval B (top2 B m R A Bp) R 2 = _
    unfold top2
    refine ⟨setW_allW (setW_allW hm _ (g1 _)) _ (g1 _), same_setW (setW_sameR _ _ _) _, ?_⟩
    rw [mval_setW_top, mval_one, setW_same, ← g3, show 2 * 2 = 2 + 2 by omega, mval_add,
      Nat.add_mul_div_left _ _ (by positivity), Nat.div_eq_of_lt (mval_lt g1 _ _), Nat.zero_add,
      show (2 : Nat) = 1 + 1 by omega, mval_succ, mval_one]
    rfl
  · exact base_top hB hm (by omega) (by omega) top4.tail top4_plan hA hBp hL
  · exact base_top hB hm (by omega) (by omega) top8.tail top8_plan hA hBp hL
  · exact base_top hB hm (by omega) (by omega) top16.tail top16_plan hA hBp hL

/-- `absDiff` leaves the absolute difference of the two halves in `R` and tells which half was larger. -/
theorem absDiff_spec {R A N2 : Nat} (hN : N2 % 2 = 0) (hpos : 0 < N2) :
    AllW B (absDiff B m R A N2).1 ∧ Same m (absDiff B m R A N2).1 R N2 ∧
      (((absDiff B m R A N2).2 = 0 ∧
        (mval B (absDiff B m R A N2).1 R N2 : Int) = mval B m A N2 - mval B m (A + N2) N2) ∨
       ((absDiff B m R A N2).2 = N2 ∧
        (mval B (absDiff B m R A N2).1 R N2 : Int) = mval B m (A + N2) N2 - mval B m A N2)) := by
  have hcmp := mCmp_spec hm A (A + N2) N2
  have hX : 0 < B ^ N2 := by positivity
  by_cases hgt : mval B m A N2 > mval B m (A + N2) N2
  · have hd : absDiff B m R A N2 = ((mSub B m R A (A + N2) N2).1, 0) := by
      unfold absDiff
      rw [hcmp, if_pos hgt]; simp
    rw [hd]
    obtain ⟨h1, h2, h3, h4⟩ := mSub_spec (by omega) hm R A (A + N2) N2 hN
    refine ⟨h1, h2, Or.inl ⟨rfl, ?_⟩⟩
    have hlt := mval_lt h1 R N2
    have hz : (mSub B m R A (A + N2) N2).2 = 0 := by
      by_contra hne
      have h1' : (mSub B m R A (A + N2) N2).2 = 1 := by omega
      rw [h1', Nat.mul_one] at h4
      omega
    rw [hz] at h4
    simp only
    omega
  · have hd : absDiff B m R A N2 = ((mSub B m R (A + N2) A N2).1, N2) := by
      unfold absDiff
      rw [hcmp, if_neg hgt]
      have : ¬ ((if mval B m A N2 < mval B m (A + N2) N2 then (-1 : Int) else 0) > 0) := by split <;> omega
      rw [if_neg this]; simp
    rw [hd]
    obtain ⟨h1, h2, h3, h4⟩ := mSub_spec (by omega) hm R (A + N2) A N2 hN
    refine ⟨h1, h2, Or.inr ⟨rfl, ?_⟩⟩
    have hlt := mval_lt h1 R N2
    have hz : (mSub B m R (A + N2) A N2).2 = 0 := by
      by_contra hne
      have h1' : (mSub B m R (A + N2) A N2).2 = 1 := by omega
      rw [h1', Nat.mul_one] at h4
      omega
    rw [hz] at h4
    simp only
    omega

end

theorem toWord_of {B : Nat} {x : Int} (h0 : 0 ≤ x) (h1 : x < B) : toWord B x = x.toNat := by
  unfold toWord; rw [Int.emod_eq_of_lt h0 h1]

/-- Composite frame used below: agreement outside two ranges. -/
theorem Same.trans {m m' m'' : WMem} {a n c k : Nat} (h : Same m m' a n) (h' : Same m' m'' c k) (x : Nat)
    (h1 : x < a ∨ a + n ≤ x) (h2 : x < c ∨ c + k ≤ x) : m'' x = m x := by
  rw [h' x h2, h x h1]

/-- The size argument behind the last carry: the quotient `P / X³` lies in `[q1, X)`. -/
theorem kar_arith {X p0 r1c r2d q0 q1 P : Nat} {c3 : Int} (hX : 0 < X) (h0 : p0 < X) (h1 : r1c < X) (h2 : r2d < X)
    (key : (P : Int) = p0 + X * r1c + X * X * r2d + X * X * X * (q1 + c3)) (hq : X * X * (q0 + X * q1) ≤ P)
    (hP : P < X * X * X * X) : 0 ≤ c3 ∧ (q1 : Int) + c3 < X := by
  have hX0 : (0 : Int) < X := by exact_mod_cast hX
  have a1 : (p0 : Int) + 1 ≤ X := by exact_mod_cast h0
  have a2 : (X : Int) * (r1c + 1) ≤ X * X := mul_le_mul_of_nonneg_left (by exact_mod_cast h1) hX0.le
  have a3 : (X : Int) * X * (r2d + 1) ≤ X * X * X := mul_le_mul_of_nonneg_left (by exact_mod_cast h2) (mul_pos hX0 hX0).le
  have hlow : (p0 : Int) + X * r1c + X * X * r2d < X * X * X := by linarith
  have hX3 : (0 : Int) < X * X * X := mul_pos (mul_pos hX0 hX0) hX0
  have z1 : (0 : Int) ≤ X * r1c := mul_nonneg hX0.le (Int.natCast_nonneg _)
  have z2 : (0 : Int) ≤ X * X * r2d := mul_nonneg (mul_pos hX0 hX0).le (Int.natCast_nonneg _)
  have z3 : (0 : Int) ≤ X * X * q0 := mul_nonneg (mul_pos hX0 hX0).le (Int.natCast_nonneg _)
  constructor
  · by_contra hneg
    have h1 : c3 ≤ -1 := by omega
    have h2 : (X : Int) * X * (q0 + X * q1) ≤ P := by exact_mod_cast hq
    have h3 : (X : Int) * X * X * c3 ≤ X * X * X * (-1) := mul_le_mul_of_nonneg_left h1 hX3.le
    linarith
  · by_contra hneg
    have h2 : (X : Int) ≤ q1 + c3 := by omega
    have h3 : (X : Int) * X * X * X ≤ X * X * X * (q1 + c3) := mul_le_mul_of_nonneg_left h2 hX3.le
    have h4 : (P : Int) < X * X * X * X := by exact_mod_cast hP
    have h5 : (0 : Int) ≤ p0 := Int.natCast_nonneg _
    linarith

set_option maxHeartbeats 1000000 in
theorem karCombine_spec {B : Nat} (hB : 256 ≤ B) {m : WMem} (hm : AllW B m) {R T N N2 : Nat} (hN2 : N2 % 2 = 0)
    (hpos : 0 < N2) (hN : N = N2 + N2) (hRT : R + 2 * N ≤ T ∨ T + N ≤ R) (same : Bool) (P : Nat)
    (hP : (P : Int) = mval B m R N + (B : Int) ^ N2 * (B : Int) ^ N2 * mval B m (R + N) N
      + (B : Int) ^ N2 * (mval B m R N + mval B m (R + N) N + (if same then -(mval B m T N : Int) else mval B m T N)))
    (hPlt : P < B ^ (2 * N)) (hPq : B ^ N2 * B ^ N2 * mval B m (R + N) N ≤ P) :
    AllW B (karCombine B m R T N N2 same) ∧ Same m (karCombine B m R T N N2 same) R (2 * N) ∧
      mval B (karCombine B m R T N N2 same) R (2 * N) = P := by
  subst hN
  have hB1 : 1 < B := by omega
  unfold karCombine
  simp only
  -- split the inputs into halves
  have hp := mval_add B m R N2 N2
  have hq := mval_add B m (R + (N2 + N2)) N2 N2
  have p0l := mval_lt hm R N2
  have q1l := mval_lt hm (R + (N2 + N2) + N2) N2
  -- step 1
  obtain ⟨w1, s1, b1, v1⟩ := mAdd_spec hB1 hm (R + (N2 + N2)) (R + (N2 + N2)) (R + N2) N2 hN2
  generalize mAdd B m (R + (N2 + N2)) (R + (N2 + N2)) (R + N2) N2 = r1 at *
  -- step 2
  obtain ⟨w2, s2, b2, v2⟩ := mAdd_spec hB1 w1 (R + N2) (R + (N2 + N2)) R N2 hN2
  generalize mAdd B r1.1 (R + N2) (R + (N2 + N2)) R N2 = r2 at *
  have e2a : mval B r1.1 R N2 = mval B m R N2 := mval_same s1 (by omega)
  -- step 3
  obtain ⟨w3, s3, b3, v3⟩ := mAdd_spec hB1 w2 (R + (N2 + N2)) (R + (N2 + N2)) (R + (N2 + N2) + N2) N2 hN2
  generalize mAdd B r2.1 (R + (N2 + N2)) (R + (N2 + N2)) (R + (N2 + N2) + N2) N2 = r3 at *
  have e3a : mval B r2.1 (R + (N2 + N2)) N2 = mval B r1.1 (R + (N2 + N2)) N2 := mval_same s2 (by omega)
  have e3b : mval B r2.1 (R + (N2 + N2) + N2) N2 = mval B m (R + (N2 + N2) + N2) N2 := by
    rw [mval_same s2 (by omega), mval_same s1 (by omega)]
  -- step 4
  have h4 : ∃ r4 : WMem × Nat, (if same then mSub B r3.1 (R + N2) (R + N2) T (N2 + N2)
        else mAdd B r3.1 (R + N2) (R + N2) T (N2 + N2)) = r4 ∧
      AllW B r4.1 ∧ Same r3.1 r4.1 (R + N2) (N2 + N2) ∧ r4.2 ≤ 1 ∧
      (mval B r4.1 (R + N2) (N2 + N2) : Int) + (if same then -(B : Int) ^ (N2 + N2) * r4.2 else (B : Int) ^ (N2 + N2) * r4.2)
        = mval B r3.1 (R + N2) (N2 + N2) + (if same then -(mval B r3.1 T (N2 + N2) : Int) else mval B r3.1 T (N2 + N2)) := by
    cases same with
    | true =>
      obtain ⟨a, b, c, d⟩ := mSub_spec hB1 w3 (R + N2) (R + N2) T (N2 + N2) (by omega)
      refine ⟨_, rfl, a, b, c, ?_⟩
      simp only [if_true]
      have : (mval B (mSub B r3.1 (R + N2) (R + N2) T (N2 + N2)).1 (R + N2) (N2 + N2) : Int)
        + mval B r3.1 T (N2 + N2) = mval B r3.1 (R + N2) (N2 + N2)
          + (B : Int) ^ (N2 + N2) * (mSub B r3.1 (R + N2) (R + N2) T (N2 + N2)).2 := by exact_mod_cast d
      linarith
    | false =>
      obtain ⟨a, b, c, d⟩ := mAdd_spec hB1 w3 (R + N2) (R + N2) T (N2 + N2) (by omega)
      refine ⟨_, rfl, a, b, c, ?_⟩
      simp only [Bool.false_eq_true, if_false]
      exact_mod_cast d
  obtain ⟨r4, hr4, w4, s4, b4, v4⟩ := h4
  rw [hr4]
  have e4a : mval B r3.1 T (N2 + N2) = mval B m T (N2 + N2) := by
    rw [mval_same s3 (by omega), mval_same s2 (by omega), mval_same s1 (by omega)]
  have e4b : mval B r3.1 (R + N2) (N2 + N2) = mval B r2.1 (R + N2) N2 + B ^ N2 * mval B r3.1 (R + (N2 + N2)) N2 := by
    rw [mval_add, mval_same s3 (by omega), show R + N2 + N2 = R + (N2 + N2) by omega]
  have e4c := mval_add B r4.1 (R + N2) N2 N2
  rw [show R + N2 + N2 = R + (N2 + N2) by omega] at e4c
  -- step 5
  obtain ⟨w5, s5, b5, v5⟩ := mInc_spec hB1 w4 (R + (N2 + N2)) N2 (r1.2 + r2.2) (by omega) hpos
  generalize mInc B r4.1 (R + (N2 + N2)) N2 (r1.2 + r2.2) = r5 at *
  -- the value so far
  have e6 : mval B r5.1 (R + (N2 + N2) + N2) N2 = mval B m (R + (N2 + N2) + N2) N2 := by
    rw [mval_same s5 (by omega), mval_same s4 (by omega), mval_same s3 (by omega), e3b]
  have f0 : mval B r5.1 R N2 = mval B m R N2 := by
    rw [mval_same s5 (by omega), mval_same s4 (by omega), mval_same s3 (by omega), mval_same s2 (by omega), e2a]
  have f1 : mval B r5.1 (R + N2) N2 = mval B r4.1 (R + N2) N2 := mval_same s5 (by omega)
  have l1 := mval_lt w4 (R + N2) N2
  have l2 := mval_lt w5 (R + (N2 + N2)) N2
  have hXpos : 0 < B ^ N2 := by positivity
  -- everything in terms of integers
  generalize hX : B ^ N2 = X at *
  have hXi : ((B : Int) ^ N2) = (X : Int) := by rw [← hX]; push_cast; rfl
  have hXX : B ^ (N2 + N2) = X * X := by rw [pow_add, hX]
  have hXXi : ((B : Int) ^ (N2 + N2)) = (X : Int) * X := by rw [pow_add, hXi]
  rw [hXi] at hP
  rw [hXXi] at v4
  rw [e4a, e4b, e4c] at v4
  rw [e2a] at v2
  rw [e3a, e3b] at v3
  rw [hp, hq] at hP
  rw [hq] at hPq
  have hPlt' : P < X * X * X * X := by
    rw [show 2 * (N2 + N2) = (N2 + N2) + (N2 + N2) by omega, pow_add, hXX] at hPlt
    calc P < X * X * (X * X) := hPlt
      _ = _ := by ring
  generalize mval B m R N2 = p0 at *
  generalize mval B m (R + N2) N2 = p1 at *
  generalize mval B m (R + (N2 + N2)) N2 = q0 at *
  generalize mval B m (R + (N2 + N2) + N2) N2 = q1 at *
  generalize mval B m T (N2 + N2) = t at *
  generalize mval B r1.1 (R + (N2 + N2)) N2 = r2a at *
  generalize mval B r2.1 (R + N2) N2 = r1a at *
  generalize mval B r3.1 (R + (N2 + N2)) N2 = r2b at *
  generalize mval B r4.1 (R + N2) N2 = r1c at *
  generalize mval B r4.1 (R + (N2 + N2)) N2 = r2c at *
  generalize hr2d : mval B r5.1 (R + (N2 + N2)) N2 = r2d at *
  have key : (P : Int) = p0 + X * r1c + X * X * r2d +
      X * X * X * (q1 + ((r1.2 : Int) + r3.2 + (if same then -(r4.2 : Int) else r4.2) + r5.2)) := by
    have v1' : (r2a : Int) + X * r1.2 = q0 + p1 := by exact_mod_cast v1
    have v2' : (r1a : Int) + X * r2.2 = r2a + p0 := by exact_mod_cast v2
    have v3' : (r2b : Int) + X * r3.2 = r2a + q1 := by exact_mod_cast v3
    have v5' : (r2d : Int) + X * r5.2 = r2c + (r1.2 + r2.2) := by exact_mod_cast v5
    rw [hP]
    cases same with
    | true =>
      simp only [if_true] at v4 ⊢
      push_cast at v4 ⊢
      linear_combination (-(X : Int) - X * X) * v1' - X * v2' - X * X * v3' - X * v4 - X * X * v5'
    | false =>
      simp only [Bool.false_eq_true, if_false] at v4 ⊢
      push_cast at v4 ⊢
      linear_combination (-(X : Int) - X * X) * v1' - X * v2' - X * X * v3' - X * v4 - X * X * v5'
  have hc3b : ((r1.2 : Int) + r3.2 + (if same then -(r4.2 : Int) else r4.2) + r5.2) ≤ 4 := by
    cases same <;> simp <;> omega
  generalize ((r1.2 : Int) + r3.2 + (if same then -(r4.2 : Int) else r4.2) + r5.2) = c3 at *
  obtain ⟨hc0, hct⟩ := kar_arith hXpos p0l l1 l2 key hPq hPlt'
  have hw : toWord B c3 = c3.toNat := toWord_of hc0 (by omega)
  rw [hw]
  -- step 6
  obtain ⟨w6, s6, b6, v6⟩ := mInc_spec hB1 w5 (R + (N2 + N2) + N2) N2 c3.toNat (by omega) hpos
  generalize mInc B r5.1 (R + (N2 + N2) + N2) N2 c3.toNat = r6 at *
  rw [e6, hX] at v6
  have hc3n : ((c3.toNat : Nat) : Int) = c3 := Int.toNat_of_nonneg hc0
  have l6 := mval_lt w6 (R + (N2 + N2) + N2) N2
  rw [hX] at l6
  have hz : r6.2 = 0 := by
    by_contra hne
    have h1 : r6.2 = 1 := by omega
    rw [h1] at v6
    have v6' : (mval B r6.1 (R + (N2 + N2) + N2) N2 : Int) + X * 1 = q1 + c3 := by
      rw [← hc3n]; exact_mod_cast v6
    have h2 : (X : Int) ≤ q1 + c3 := by
      have : (0 : Int) ≤ mval B r6.1 (R + (N2 + N2) + N2) N2 := by positivity
      linarith
    omega
  rw [hz, Nat.mul_zero, Nat.add_zero] at v6
  refine ⟨w6, ?_, ?_⟩
  · intro x hx
    rw [s6 x (by omega), s5 x (by omega), s4 x (by omega), s3 x (by omega), s2 x (by omega), s1 x (by omega)]
  · have g : mval B r6.1 R (2 * (N2 + N2)) = p0 + X * r1c + X * X * r2d + X * X * X * (q1 + c3.toNat) := by
      rw [show 2 * (N2 + N2) = N2 + N2 + N2 + N2 by omega, mval_add, mval_add, mval_add, mval_same s6 (by omega), f0,
        mval_same (a := R + N2) s6 (by omega), f1, mval_same (a := R + (N2 + N2)) s6 (by omega), hr2d,
        show R + (N2 + N2 + N2) = R + (N2 + N2) + N2 by omega, v6]; simp only [pow_add, hX]
    rw [g]
    have : ((p0 + X * r1c + X * X * r2d + X * X * X * (q1 + c3.toNat) : Nat) : Int) = P := by
      push_cast
      rw [hc3n, key]
    exact_mod_cast this

end Verif.Integer
