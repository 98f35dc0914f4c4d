import Verif.Integer.MulProofs2

/-!
# Correctness of `MultiplyTop`
-/
namespace Verif.Integer

/-- `mAdd` or `mSub`, as one signed statement. -/
theorem addSub_spec {B : Nat} (hB : 1 < B) {m : WMem} (hm : AllW B m) (sub : Bool) (C A Bp N : Nat) (hN : N % 2 = 0) :
    ∃ r : WMem × Nat, (if sub then mSub B m C A Bp N else mAdd B m C A Bp N) = r ∧ AllW B r.1 ∧ Same m r.1 C N ∧ r.2 ≤ 1 ∧
      (mval B r.1 C N : Int) + (B : Int) ^ N * (if sub then -(r.2 : Int) else r.2) =
        mval B m A N + (if sub then -(mval B m Bp N : Int) else mval B m Bp N) := by
  cases sub with
  | true =>
    obtain ⟨a, b, c, d⟩ := mSub_spec hB hm C A Bp N hN
    refine ⟨_, rfl, a, b, c, ?_⟩
    simp only [if_true]
    have : (mval B (mSub B m C A Bp N).1 C N : Int) + mval B m Bp N = mval B m A N
        + (B : Int) ^ N * (mSub B m C A Bp N).2 := by exact_mod_cast d
    linarith
  | false =>
    obtain ⟨a, b, c, d⟩ := mAdd_spec hB hm C A Bp N hN
    refine ⟨_, rfl, a, b, c, ?_⟩
    simp only [Bool.false_eq_true, if_false]
    exact_mod_cast d

/-- `mInc` or `mDec` by the sign of a small integer. -/
theorem incDec_spec {B : Nat} (hB : 256 ≤ B) {m : WMem} (hm : AllW B m) (c : Int) (h1 : -100 ≤ c) (h2 : c ≤ 100) (A N : Nat)
    (hN : 0 < N) :
    ∃ r : WMem × Nat, (if c ≥ 0 then mInc B m A N (toWord B c) else mDec B m A N (toWord B (-c))) = r ∧
      AllW B r.1 ∧ Same m r.1 A N ∧ r.2 ≤ 1 ∧
      (mval B r.1 A N : Int) + (B : Int) ^ N * (if c ≥ 0 then (r.2 : Int) else -(r.2 : Int)) = mval B m A N + c := by
  by_cases hc : c ≥ 0
  · rw [if_pos hc, toWord_of hc (by omega)]
    obtain ⟨a, b, d, e⟩ := mInc_spec (by omega) hm A N c.toNat (by omega) hN
    refine ⟨_, rfl, a, b, d, ?_⟩
    rw [if_pos hc]
    have e' : (mval B (mInc B m A N c.toNat).1 A N : Int) + (B : Int) ^ N * (mInc B m A N c.toNat).2
      = mval B m A N + (c.toNat : Int) := by exact_mod_cast e
    rw [e', Int.toNat_of_nonneg hc]
  · rw [if_neg hc, toWord_of (by omega) (by omega)]
    obtain ⟨a, b, d, e⟩ := mDec_spec (by omega) hm A N (-c).toNat (by omega) hN
    refine ⟨_, rfl, a, b, d, ?_⟩
    rw [if_neg hc]
    have e' : (mval B (mDec B m A N (-c).toNat).1 A N : Int) + ((-c).toNat : Int)
      = mval B m A N + (B : Int) ^ N * (mDec B m A N (-c).toNat).2 := by exact_mod_cast e
    rw [Int.toNat_of_nonneg (by omega)] at e'
    linarith

/-- `T2' + X·[T2' < q0] = p1 + q0` whenever `T2' ≡ p1 + q0` and all are below `X`. -/
theorem top_cmp {X T2 p1 q0 : Nat} {k : Int} (h1 : T2 < X) (h2 : p1 < X) (h3 : q0 < X)
    (he : (T2 : Int) = p1 + q0 + X * k) : (T2 : Int) + X * (if T2 < q0 then 1 else 0) = p1 + q0 := by
  have hX : (0 : Int) < X := by omega
  have k1 : k ≤ 0 := by
    by_contra hc
    have : (X : Int) * 1 ≤ X * k := mul_le_mul_of_nonneg_left (by omega) hX.le
    omega
  have k2 : -1 ≤ k := by
    by_contra hc
    have : (X : Int) * k ≤ X * (-2) := mul_le_mul_of_nonneg_left (by omega) hX.le
    omega
  have hk : k = 0 ∨ k = -1 := by omega
  rcases hk with rfl | rfl
  · rw [if_neg (by omega)]; omega
  · rw [if_pos (by omega)]; omega

theorem top_arith {X a q0 q1 H : Nat} {c : Int} (hX : 0 < X) (ha : a < X)
    (key : (H : Int) = a + X * (q1 + c)) (hq : q0 + X * q1 ≤ H) (hH : H < X * X) : 0 ≤ c ∧ (q1 : Int) + c < X := by
  have hX0 : (0 : Int) < X := by exact_mod_cast hX
  constructor
  · by_contra hneg
    have h3 : (X : Int) * c ≤ X * (-1) := mul_le_mul_of_nonneg_left (by omega) hX0.le
    have h2 : (q0 : Int) + X * q1 ≤ H := by exact_mod_cast hq
    have h1 : (a : Int) < X := by exact_mod_cast ha
    have h0 : (0 : Int) ≤ q0 := Int.natCast_nonneg _
    linarith
  · by_contra hneg
    have h3 : (X : Int) * X ≤ X * (q1 + c) := mul_le_mul_of_nonneg_left (by omega) hX0.le
    have h4 : (H : Int) < X * X := by exact_mod_cast hH
    have h5 : (0 : Int) ≤ a := Int.natCast_nonneg _
    linarith

set_option maxHeartbeats 1000000 in
theorem topCombine_spec {B : Nat} (hB : 256 ≤ B) {m : WMem} (hm : AllW B m) {R T L N N2 : Nat} (hN2 : N2 % 2 = 0)
    (hpos : 0 < N2) (hN : N = N2 + N2) (hRT : R + N ≤ T ∨ T + 2 * N ≤ R) (hRL : R + N ≤ L ∨ L + N ≤ R)
    (hTL : T + 2 * N ≤ L ∨ L + N ≤ T) (same : Bool) (P p : Nat)
    (hP : (P : Int) = p + (B : Int) ^ N2 * (B : Int) ^ N2 * mval B m R N
      + (B : Int) ^ N2 * (p + mval B m R N + (if same then -(mval B m T N : Int) else mval B m T N)))
    (hp : p < B ^ N) (hPlt : P < B ^ (2 * N)) (hPq : B ^ N2 * B ^ N2 * mval B m R N ≤ P)
    (hL : mval B m L N = P % B ^ N) :
    AllW B (topCombine B m R T L N N2 same) ∧ Fr m (topCombine B m R T L N N2 same) R N T (2 * N) ∧
      mval B (topCombine B m R T L N N2 same) R N = P / B ^ N := by
  subst hN
  have hB1 : 1 < B := by omega
  unfold topCombine
  simp only
  have hq := mval_add B m R N2 N2
  have ht := mval_add B m T N2 N2
  have hLL := mval_add B m L N2 N2
  have q0l := mval_lt hm R N2
  -- step 1
  obtain ⟨w1, s1, b1, v1⟩ := mSub_spec hB1 hm (T + (N2 + N2)) (L + N2) L N2 hN2
  generalize mSub B m (T + (N2 + N2)) (L + N2) L N2 = r1 at *
  -- step 2
  have hflip : (if same then mAdd B r1.1 (T + (N2 + N2)) (T + (N2 + N2)) T N2
        else mSub B r1.1 (T + (N2 + N2)) (T + (N2 + N2)) T N2)
      = (if !same then mSub B r1.1 (T + (N2 + N2)) (T + (N2 + N2)) T N2
        else mAdd B r1.1 (T + (N2 + N2)) (T + (N2 + N2)) T N2) := by cases same <;> rfl
  rw [hflip]
  obtain ⟨r2, hr2, w2, s2, b2, v2⟩ := addSub_spec hB1 w1 (!same) (T + (N2 + N2)) (T + (N2 + N2)) T N2 hN2
  rw [hr2]
  rw [mval_same (a := T) s1 (by omega)] at v2
  -- comparison
  have hcmp := mCmp_spec w2 (T + (N2 + N2)) R N2
  have eR0 : mval B r2.1 R N2 = mval B m R N2 := by rw [mval_same s2 (by omega), mval_same s1 (by omega)]
  rw [eR0] at hcmp
  have hcmp' : (if mCmp r2.1 (T + (N2 + N2)) R N2 = -1 then (1 : Int) else 0) =
      (if mval B r2.1 (T + (N2 + N2)) N2 < mval B m R N2 then 1 else 0) := by
    rw [hcmp]
    rcases Nat.lt_trichotomy (mval B r2.1 (T + (N2 + N2)) N2) (mval B m R N2) with h | h | h
    · simp [h, Nat.lt_asymm h]
    · simp [h]
    · simp [h, Nat.lt_asymm h]
  rw [hcmp']
  -- step 3
  obtain ⟨r3, hr3, w3, s3, b3, v3⟩ := addSub_spec hB1 w2 same (T + (N2 + N2)) (T + (N2 + N2)) (T + N2) N2 hN2
  rw [hr3]
  rw [mval_same (a := T + N2) s2 (by omega), mval_same (a := T + N2) s1 (by omega)] at v3
  have hT2l := mval_lt w2 (T + (N2 + N2)) N2
  have ht01 : (if mval B r2.1 (T + (N2 + N2)) N2 < mval B m R N2 then (1 : Int) else 0) = 0 ∨
      (if mval B r2.1 (T + (N2 + N2)) N2 < mval B m R N2 then (1 : Int) else 0) = 1 := by split <;> simp
  have htc : ∀ p1 k : Int, (∃ p1n : Nat, p1 = p1n ∧ p1n < B ^ N2) →
      (mval B r2.1 (T + (N2 + N2)) N2 : Int) = p1 + mval B m R N2 + ((B ^ N2 : Nat) : Int) * k →
      (mval B r2.1 (T + (N2 + N2)) N2 : Int) + ((B ^ N2 : Nat) : Int) *
        (if mval B r2.1 (T + (N2 + N2)) N2 < mval B m R N2 then 1 else 0) = p1 + mval B m R N2 := by
    intro p1 k ⟨p1n, h1, h2⟩ h3
    subst h1
    exact top_cmp hT2l h2 q0l h3
  generalize (if mval B r2.1 (T + (N2 + N2)) N2 < mval B m R N2 then (1 : Int) else 0) = tt at *
  -- step 4
  have hc2 : (if same then -(r2.2 : Int) else r2.2) = -(if !same then -(r2.2 : Int) else r2.2) := by cases same <;> simp
  rw [hc2]
  have hc2b : -1 ≤ (if !same then -(r2.2 : Int) else r2.2) ∧ (if !same then -(r2.2 : Int) else r2.2) ≤ 1 := by
    cases same <;> simp <;> omega
  have hc3b : (if same then -(r3.2 : Int) else r3.2) ≤ 1 := by cases same <;> simp; omega
  have hs : (if !same then -(mval B m T N2 : Int) else mval B m T N2) = -(if same then -(mval B m T N2 : Int) else mval B m T N2) := by
    cases same <;> simp
  rw [hs] at v2
  have htt : (if same then -((mval B m T N2 + B ^ N2 * mval B m (T + N2) N2 : Nat) : Int) else ((mval B m T N2 + B ^ N2 * mval B m (T + N2) N2 : Nat) : Int))
     = (if same then -(mval B m T N2 : Int) else mval B m T N2) + (B : Int) ^ N2 * (if same then -(mval B m (T + N2) N2 : Int) else mval B m (T + N2) N2) := by
    cases same <;> simp
    ring
  rw [ht, htt] at hP
  generalize (if !same then -(r2.2 : Int) else r2.2) = g2 at *
  generalize (if same then -(r3.2 : Int) else r3.2) = g3 at *
  generalize (if same then -(mval B m T N2 : Int) else mval B m T N2) = st0 at *
  generalize (if same then -(mval B m (T + N2) N2 : Int) else mval B m (T + N2) N2) = st1 at *
  obtain ⟨r4, hr4, w4, s4, b4, v4⟩ := incDec_spec hB w3 ((r1.2 : Int) + -g2 + tt) (by omega) (by omega) (T + (N2 + N2)) N2 hpos
  rw [hr4]
  have hc4b : (if (r1.2 : Int) + -g2 + tt ≥ 0 then (r4.2 : Int) else -(r4.2 : Int)) ≤ 1 := by split <;> omega
  generalize (if (r1.2 : Int) + -g2 + tt ≥ 0 then (r4.2 : Int) else -(r4.2 : Int)) = g4 at *
  -- step 5
  obtain ⟨w5, s5, b5, v5⟩ := mAdd_spec hB1 w4 R (T + (N2 + N2)) (R + N2) N2 hN2
  generalize mAdd B r4.1 R (T + (N2 + N2)) (R + N2) N2 = r5 at *
  have eR1 : ∀ n, n = r4.1 ∨ n = r5.1 → mval B n (R + N2) N2 = mval B m (R + N2) N2 := by
    intro n hn
    have : mval B r4.1 (R + N2) N2 = mval B m (R + N2) N2 := by
      rw [mval_same s4 (by omega), mval_same s3 (by omega), mval_same s2 (by omega), mval_same s1 (by omega)]
    rcases hn with rfl | rfl
    · exact this
    · rw [mval_same s5 (by omega), this]
  rw [eR1 _ (Or.inl rfl)] at v5
  have l5 := mval_lt w5 R N2
  have hXpos : 0 < B ^ N2 := by positivity
  -- abstract
  rw [pow_add] at hL hp
  rw [show 2 * (N2 + N2) = N2 + N2 + (N2 + N2) by omega, pow_add, pow_add] at hPlt
  have hXc : ((B : Int) ^ N2) = ((B ^ N2 : Nat) : Int) := by push_cast; rfl
  rw [hXc] at hP v2 v3 v4
  rw [hq] at hP hPq
  rw [hLL] at hL
  have hdm := Nat.div_add_mod P (B ^ N2 * B ^ N2)
  have hHlt : P / (B ^ N2 * B ^ N2) < B ^ N2 * B ^ N2 := Nat.div_lt_of_lt_mul hPlt
  have hHq : mval B m R N2 + B ^ N2 * mval B m (R + N2) N2 ≤ P / (B ^ N2 * B ^ N2) := by
    rw [Nat.le_div_iff_mul_le (by positivity), Nat.mul_comm]; exact hPq
  rw [← hL] at hdm
  rw [pow_add]
  generalize hH : P / (B ^ N2 * B ^ N2) = H at *
  have L0l := mval_lt hm L N2
  generalize mval B m L N2 = L0 at *
  generalize mval B m (L + N2) N2 = L1 at *
  generalize mval B m R N2 = q0 at *
  generalize hq1 : mval B m (R + N2) N2 = q1 at *
  have hp0 := Nat.div_add_mod p (B ^ N2)
  have hp1l : p / B ^ N2 < B ^ N2 := Nat.div_lt_of_lt_mul hp
  have hp0l : p % B ^ N2 < B ^ N2 := Nat.mod_lt _ hXpos
  generalize p / B ^ N2 = p1 at *
  generalize p % B ^ N2 = p0 at *
  generalize hX : B ^ N2 = X at *
  generalize mval B r1.1 (T + (N2 + N2)) N2 = y1 at *
  generalize mval B r2.1 (T + (N2 + N2)) N2 = y2 at *
  generalize mval B r3.1 (T + (N2 + N2)) N2 = y3 at *
  generalize mval B r4.1 (T + (N2 + N2)) N2 = y4 at *
  generalize hy5 : mval B r5.1 R N2 = y5 at *
  have hdm' : (X : Int) * X * H + (L0 + X * L1) = P := by exact_mod_cast hdm
  have hpp : (X : Int) * p1 + p0 = p := by exact_mod_cast hp0
  have v1' : (y1 : Int) + L0 = L1 + X * r1.2 := by exact_mod_cast v1
  have v5' : (y5 : Int) + X * r5.2 = y4 + q1 := by exact_mod_cast v5
  have hXi : (X : Int) ≠ 0 := by have : (0 : Int) < X := by exact_mod_cast hXpos
                                 omega
  -- L0 = p0
  have hL0 : L0 = p0 := by
    have e : (L0 : Int) - p0 = X * (p1 + X * (q0 + X * q1) + (p + (q0 + X * q1) + (st0 + X * st1)) - X * H - L1) := by
      push_cast at hP
      linear_combination hP + hdm' - hpp
    have hXp : (0 : Int) < X := by exact_mod_cast hXpos
    generalize ((p1 : Int) + X * (q0 + X * q1) + (p + (q0 + X * q1) + (st0 + X * st1)) - X * H - L1) = z at e
    have z1 : z < 1 := by
      by_contra hc
      have : (X : Int) * 1 ≤ X * z := mul_le_mul_of_nonneg_left (by omega) hXp.le
      omega
    have z2 : -1 < z := by
      by_contra hc
      have : (X : Int) * z ≤ X * (-1) := mul_le_mul_of_nonneg_left (by omega) hXp.le
      omega
    have : z = 0 := by omega
    rw [this] at e
    omega
  subst hL0
  -- L1 ≡ p1 + L0 + q0 + st0
  have hL1 : (L1 : Int) = p1 + L0 + q0 + st0 + X * (p1 + q1 + st1 + q0 + X * q1 - H) := by
    have : (X : Int) * L1 = X * (p1 + L0 + q0 + st0 + X * (p1 + q1 + st1 + q0 + X * q1 - H)) := by
      push_cast at hP
      linear_combination hP + hdm' - (1 + X) * hpp
    exact mul_left_cancel₀ hXi this
  have v2'' : (y2 : Int) = p1 + q0 + X * (p1 + q1 + st1 + q0 + X * q1 - H + r1.2 - g2) := by
    linear_combination v2 + v1' + hL1
  have htc' := htc p1 _ ⟨p1, rfl, hp1l⟩ v2''
  have key : (H : Int) = y5 + X * (q1 + (tt + g3 + g4 + r5.2)) := by
    have : (X : Int) * H = X * (y5 + X * (q1 + (tt + g3 + g4 + r5.2))) := by
      linear_combination (-(X:Int)) * v5' - X * v4 - X * v3 - (1 + X) * htc' + v2''
    exact mul_left_cancel₀ hXi this
  have hcb : tt + g3 + g4 + r5.2 ≤ 4 := by omega
  obtain ⟨hc0, hct⟩ := top_arith hXpos l5 key hHq hHlt
  generalize tt + g3 + g4 + r5.2 = c at *
  rw [toWord_of hc0 (by omega)]
  obtain ⟨w6, s6, b6, v6⟩ := mInc_spec hB1 w5 (R + N2) N2 c.toNat (by omega) hpos
  generalize mInc B r5.1 (R + N2) N2 c.toNat = r6 at *
  rw [eR1 _ (Or.inr rfl), hX] at v6
  have hz : r6.2 = 0 := by
    by_contra hne
    have h1 : r6.2 = 1 := by omega
    rw [h1] at v6
    omega
  rw [hz, Nat.mul_zero, Nat.add_zero] at v6
  refine ⟨w6, ?_, ?_⟩
  · intro x hx hx2
    rw [s6 x (by omega), s5 x (by omega), s4 x (by omega), s3 x (by omega), s2 x (by omega), s1 x (by omega)]
  · rw [mval_add, mval_same (a := R) s6 (by omega), hy5, v6, hX]
    have : ((y5 + X * (q1 + c.toNat) : Nat) : Int) = H := by
      push_cast
      rw [Int.toNat_of_nonneg hc0, key]
    exact_mod_cast this

end Verif.Integer
