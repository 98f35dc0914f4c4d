import Verif.Integer.DivProofs

/-!
# Correctness of the quotient correction and of the division loop
-/
namespace Verif.Integer

theorem mval_two (B : Nat) (m : WMem) (a : Nat) : mval B m a 2 = m a + B * m (a + 1) := by
  rw [show (2 : Nat) = 1 + 1 by omega, mval_add, mval_one, mval_one, pow_one]

/-- The loop condition `R[N] || Compare(R, B, N) >= 0`. -/
theorem geCond {B : Nat} {m : WMem} (hm : AllW B m) (R Bp N : Nat) :
    (m (R + N) ≠ 0 ∨ mCmp m R Bp N ≥ 0) ↔ mval B m Bp N ≤ mval B m R (N + 1) := by
  have hc := mCmp_spec hm R Bp N
  have hlt := mval_lt hm Bp N
  rw [mval_succ]
  constructor
  · rintro (h | h)
    · have : B ^ N * 1 ≤ B ^ N * m (R + N) := Nat.mul_le_mul_left _ (by omega)
      omega
    · by_contra hlt2
      have h1 : mval B m R N < mval B m Bp N := by
        have := Nat.zero_le (B ^ N * m (R + N)); omega
      rw [if_neg (by omega), if_pos h1] at hc
      omega
  · intro h
    by_contra hcon
    simp only [not_or, ne_eq, not_not, ge_iff_le, Int.not_le] at hcon
    obtain ⟨h1, h2⟩ := hcon
    rw [h1, Nat.mul_zero, Nat.add_zero] at h
    rw [hc] at h2
    by_cases h3 : mval B m R N > mval B m Bp N
    · rw [if_pos h3] at h2; omega
    · rw [if_neg h3, if_neg (by omega)] at h2; omega

/-- One subtraction of the divisor from the `N+1` words at `R`. -/
theorem subStep {B : Nat} (hB : 1 < B) {m : WMem} (hm : AllW B m) {R Bp N : Nat} (hN : N % 2 = 0)
    (hge : mval B m Bp N ≤ mval B m R (N + 1)) :
    let r := mSub B m R R Bp N
    let m1 := setW r.1 (R + N) ((r.1 (R + N) + (B - r.2)) % B)
    AllW B m1 ∧ Same m m1 R (N + 1) ∧ mval B m1 R (N + 1) = mval B m R (N + 1) - mval B m Bp N := by
  intro r m1
  obtain ⟨w, s, b, v⟩ := mSub_spec hB hm R R Bp N hN
  change AllW B r.1 at w
  change Same m r.1 R N at s
  change r.2 ≤ 1 at b
  change mval B r.1 R N + _ = _ + _ * r.2 at v
  have htop : r.1 (R + N) = m (R + N) := s _ (by omega)
  have w1 : AllW B m1 := setW_allW w _ (Nat.mod_lt _ (by omega))
  refine ⟨w1, ?_, ?_⟩
  · intro x hx
    change setW r.1 (R + N) _ x = _
    rw [setW_out _ _ _ _ (by omega), s x (by omega)]
  · have e1 : mval B m1 R N = mval B r.1 R N := mval_congr fun x h1 h2 => setW_out _ _ _ _ (by omega)
    have e2 : m1 (R + N) = (m (R + N) + (B - r.2)) % B := by
      change setW r.1 (R + N) _ (R + N) = _
      rw [setW_same, htop]
    rw [mval_succ, e1, e2, mval_succ]
    rw [mval_succ] at hge
    have hlt := mval_lt w R N
    have hw := hm (R + N)
    generalize m (R + N) = c at *
    by_cases h1 : r.2 = 0
    · rw [h1, Nat.sub_zero, Nat.add_mod_right, Nat.mod_eq_of_lt hw]
      rw [h1, Nat.mul_zero, Nat.add_zero] at v
      omega
    · have h1' : r.2 = 1 := by omega
      rw [h1', Nat.mul_one] at v
      have hc : 0 < c := by
        rcases Nat.eq_zero_or_pos c with h | h
        · rw [h, Nat.mul_zero] at hge; omega
        · exact h
      rw [h1', show c + (B - 1) = (c - 1) + B by omega, Nat.add_mod_right, Nat.mod_eq_of_lt (by omega)]
      obtain ⟨d, rfl⟩ : ∃ d, c = d + 1 := ⟨c - 1, by omega⟩
      rw [Nat.mul_add, Nat.mul_one] at *
      rw [show d + 1 - 1 = d by omega]
      omega

theorem correctLoop_spec {B : Nat} (hB : 1 < B) {R Q Bp N : Nat} (hN : N % 2 = 0)
    (hRQ : R + (N + 1) ≤ Q ∨ Q + 2 ≤ R) (hRB : R + (N + 1) ≤ Bp ∨ Bp + N ≤ R) (hQB : Q + 2 ≤ Bp ∨ Bp + N ≤ Q) :
    ∀ (f : Nat) (m : WMem), AllW B m → 0 < mval B m Bp N → mval B m R (N + 1) < (f + 1) * mval B m Bp N →
      mval B m Q 2 + mval B m R (N + 1) / mval B m Bp N < B * B →
      AllW B (correctLoop B R Q Bp N f m) ∧ Fr m (correctLoop B R Q Bp N f m) R (N + 1) Q 2 ∧
        mval B (correctLoop B R Q Bp N f m) R (N + 1) = mval B m R (N + 1) % mval B m Bp N ∧
        mval B (correctLoop B R Q Bp N f m) Q 2 = mval B m Q 2 + mval B m R (N + 1) / mval B m Bp N := by
  intro f
  induction f with
  | zero =>
    intro m hm hD hf hq
    have hlt : mval B m R (N + 1) < mval B m Bp N := by simpa using hf
    exact ⟨hm, fun _ _ _ => rfl, (Nat.mod_eq_of_lt hlt).symm, by rw [Nat.div_eq_of_lt hlt]; rfl⟩
  | succ f ih =>
    intro m hm hD hf hq
    rw [correctLoop]
    by_cases hc : mval B m Bp N ≤ mval B m R (N + 1)
    · rw [if_pos ((geCond hm R Bp N).mpr hc)]
      simp only
      obtain ⟨w1, s1, v1⟩ := subStep hB hm hN hc
      generalize setW (mSub B m R R Bp N).1 (R + N) (((mSub B m R R Bp N).1 (R + N) + (B - (mSub B m R R Bp N).2)) % B) = m1 at *
      have hdv : mval B m R (N + 1) / mval B m Bp N = mval B m1 R (N + 1) / mval B m Bp N + 1 := by
        rw [v1, ← Nat.add_div_right _ hD, Nat.sub_add_cancel hc]
      have hmv : mval B m R (N + 1) % mval B m Bp N = mval B m1 R (N + 1) % mval B m Bp N := by
        rw [v1]; exact Nat.mod_eq_sub_mod hc
      have hQ1 : mval B m1 Q 2 = mval B m Q 2 := mval_same s1 (by omega)
      -- the increment
      have w2 : AllW B (setW m1 Q ((m1 Q + 1) % B)) := setW_allW w1 _ (Nat.mod_lt _ (by omega))
      have w3 : AllW B (setW (setW m1 Q ((m1 Q + 1) % B)) (Q + 1)
          ((setW m1 Q ((m1 Q + 1) % B) (Q + 1) + if setW m1 Q ((m1 Q + 1) % B) Q = 0 then 1 else 0) % B)) :=
        setW_allW w2 _ (Nat.mod_lt _ (by omega))
      have s3 : Same m1 (setW (setW m1 Q ((m1 Q + 1) % B)) (Q + 1)
          ((setW m1 Q ((m1 Q + 1) % B) (Q + 1) + if setW m1 Q ((m1 Q + 1) % B) Q = 0 then 1 else 0) % B)) Q 2 := by
        intro x hx
        rw [setW_out _ _ _ _ (by omega), setW_out _ _ _ _ (by omega)]
      have v3 : mval B (setW (setW m1 Q ((m1 Q + 1) % B)) (Q + 1)
          ((setW m1 Q ((m1 Q + 1) % B) (Q + 1) + if setW m1 Q ((m1 Q + 1) % B) Q = 0 then 1 else 0) % B)) Q 2
          = mval B m Q 2 + 1 := by
        rw [mval_two, setW_same, setW_out _ _ _ _ (by omega : Q ≠ Q + 1), setW_same, setW_same, setW_out _ _ _ _ (by omega : Q + 1 ≠ Q)]
        rw [← hQ1, mval_two]
        have hb : mval B m1 Q 2 + 1 < B * B := by
          rw [hQ1]; have := Nat.zero_le (mval B m1 R (N + 1) / mval B m Bp N); omega
        rw [mval_two] at hb
        have h0 := w1 Q
        have h1 := w1 (Q + 1)
        generalize m1 Q = x at *
        generalize m1 (Q + 1) = y at *
        by_cases hx : x + 1 = B
        · rw [hx, Nat.mod_self, if_pos rfl]
          have hy : y + 1 < B := by
            by_contra hcc
            have : y + 1 = B := by omega
            have e : B * B = B * y + B := by rw [← Nat.mul_succ]; congr 1; omega
            omega
          rw [Nat.mod_eq_of_lt hy, Nat.mul_add]; omega
        · rw [Nat.mod_eq_of_lt (by omega : x + 1 < B), if_neg (by omega)]
          simp only [Nat.add_zero]
          rw [Nat.mod_eq_of_lt h1]; omega
      generalize setW (setW m1 Q ((m1 Q + 1) % B)) (Q + 1)
          ((setW m1 Q ((m1 Q + 1) % B) (Q + 1) + if setW m1 Q ((m1 Q + 1) % B) Q = 0 then 1 else 0) % B) = m3 at *
      have eB : mval B m3 Bp N = mval B m Bp N := by rw [mval_same s3 (by omega), mval_same s1 (by omega)]
      have eR : mval B m3 R (N + 1) = mval B m1 R (N + 1) := mval_same s3 (by omega)
      obtain ⟨g1, g2, g3, g4⟩ := ih m3 w3 (by rw [eB]; exact hD) (by
        rw [eB, eR, v1]
        have : (f + 1 + 1) * mval B m Bp N = (f + 1) * mval B m Bp N + mval B m Bp N := by ring
        omega) (by rw [eB, eR, v3]; omega)
      rw [eB, eR] at g3 g4
      refine ⟨g1, ?_, by rw [g3, hmv], by rw [g4, v3, hdv]; omega⟩
      intro x h1 h2
      rw [g2 x h1 h2, s3 x h2, s1 x h1]
    · rw [if_neg ((geCond hm R Bp N).not.mpr hc)]
      have hlt : mval B m R (N + 1) < mval B m Bp N := by omega
      exact ⟨hm, fun _ _ _ => rfl, (Nat.mod_eq_of_lt hlt).symm, by rw [Nat.div_eq_of_lt hlt]; rfl⟩

theorem topLoop_spec {B : Nat} (hB : 1 < B) {R Q Bp N : Nat} (hN : N % 2 = 0)
    (hRQ : R + (N + 1) ≤ Q ∨ Q + 1 ≤ R) (hRB : R + (N + 1) ≤ Bp ∨ Bp + N ≤ R) (hQB : Q + 1 ≤ Bp ∨ Bp + N ≤ Q) :
    ∀ (f : Nat) (m : WMem), AllW B m → 0 < mval B m Bp N → mval B m R (N + 1) < (f + 1) * mval B m Bp N →
      m Q + mval B m R (N + 1) / mval B m Bp N < B →
      AllW B (topLoop B R (R + N) Q Bp N f m) ∧ Fr m (topLoop B R (R + N) Q Bp N f m) R (N + 1) Q 1 ∧
        mval B (topLoop B R (R + N) Q Bp N f m) R (N + 1) = mval B m R (N + 1) % mval B m Bp N ∧
        topLoop B R (R + N) Q Bp N f m Q = m Q + mval B m R (N + 1) / mval B m Bp N := by
  intro f
  induction f with
  | zero =>
    intro m hm hD hf hq
    have hlt : mval B m R (N + 1) < mval B m Bp N := by simpa using hf
    exact ⟨hm, fun _ _ _ => rfl, (Nat.mod_eq_of_lt hlt).symm, by rw [Nat.div_eq_of_lt hlt]; rfl⟩
  | succ f ih =>
    intro m hm hD hf hq
    rw [topLoop]
    by_cases hc : mval B m Bp N ≤ mval B m R (N + 1)
    · rw [if_pos ((geCond hm R Bp N).mpr hc)]
      simp only
      obtain ⟨w1, s1, v1⟩ := subStep hB hm hN hc
      generalize setW (mSub B m R R Bp N).1 (R + N) (((mSub B m R R Bp N).1 (R + N) + (B - (mSub B m R R Bp N).2)) % B) = m1 at *
      have hdv : mval B m R (N + 1) / mval B m Bp N = mval B m1 R (N + 1) / mval B m Bp N + 1 := by
        rw [v1, ← Nat.add_div_right _ hD, Nat.sub_add_cancel hc]
      have hmv : mval B m R (N + 1) % mval B m Bp N = mval B m1 R (N + 1) % mval B m Bp N := by
        rw [v1]; exact Nat.mod_eq_sub_mod hc
      have hQ1 : m1 Q = m Q := s1 _ (by omega)
      rw [hQ1]
      have hz := Nat.zero_le (mval B m1 R (N + 1) / mval B m Bp N)
      rw [Nat.mod_eq_of_lt (by omega : m Q + 1 < B)]
      have w2 : AllW B (setW m1 Q (m Q + 1)) := setW_allW w1 _ (by omega)
      have s2 : Same m1 (setW m1 Q (m Q + 1)) Q 1 := by
        intro x hx
        rw [setW_out _ _ _ _ (by omega)]
      have v2 : setW m1 Q (m Q + 1) Q = m Q + 1 := setW_same _ _ _
      generalize setW m1 Q (m Q + 1) = m3 at *
      have eB : mval B m3 Bp N = mval B m Bp N := by rw [mval_same s2 (by omega), mval_same s1 (by omega)]
      have eR : mval B m3 R (N + 1) = mval B m1 R (N + 1) := mval_same s2 (by omega)
      obtain ⟨g1, g2, g3, g4⟩ := ih m3 w2 (by rw [eB]; exact hD) (by
        rw [eB, eR, v1]
        have : (f + 1 + 1) * mval B m Bp N = (f + 1) * mval B m Bp N + mval B m Bp N := by ring
        omega) (by rw [eB, eR, v2]; omega)
      rw [eB, eR] at g3 g4
      refine ⟨g1, ?_, by rw [g3, hmv], by rw [g4, v2, hdv]; omega⟩
      intro x h1 h2
      rw [g2 x h1 h2, s2 x h2, s1 x h1]
    · rw [if_neg ((geCond hm R Bp N).not.mpr hc)]
      have hlt : mval B m R (N + 1) < mval B m Bp N := by omega
      exact ⟨hm, fun _ _ _ => rfl, (Nat.mod_eq_of_lt hlt).symm, by rw [Nat.div_eq_of_lt hlt]; rfl⟩

/-- integer.cpp:2751: given an estimate that is not too large and not far off, `CorrectQuotientEstimate` leaves the exact
two-word quotient and the remainder. -/
theorem correctQuotientEstimate_spec {B : Nat} (hB : 256 ≤ B) (hev : B % 2 = 0) {m : WMem} (hm : AllW B m) {R T Q Bp N : Nat}
    (hN : N % 2 = 0) (hpos : 2 ≤ N)
    (hRQ : R + (N + 2) ≤ Q ∨ Q + 2 ≤ R) (hRB : R + (N + 2) ≤ Bp ∨ Bp + N ≤ R) (hQB : Q + 2 ≤ Bp ∨ Bp + N ≤ Q)
    (hTR : T + 2 * (N + 2) ≤ R ∨ R + (N + 2) ≤ T) (hTQ : T + 2 * (N + 2) ≤ Q ∨ Q + 2 ≤ T)
    (hTB : T + 2 * (N + 2) ≤ Bp ∨ Bp + N ≤ T)
    (hD : B ^ N ≤ 2 * mval B m Bp N) (hle : mval B m Q 2 * mval B m Bp N ≤ mval B m R (N + 2))
    (hgt : mval B m R (N + 2) < mval B m Q 2 * mval B m Bp N + mval B m Bp N + B ^ N)
    (hr : mval B m R (N + 2) < B * B * mval B m Bp N) :
    let m' := correctQuotientEstimate B m R T Q Bp N
    AllW B m' ∧ (∀ x, (x < R ∨ R + (N + 2) ≤ x) → (x < Q ∨ Q + 2 ≤ x) → (x < T ∨ T + 2 * (N + 2) ≤ x) → m' x = m x) ∧
      mval B m' R (N + 2) = mval B m R (N + 2) % mval B m Bp N ∧
      mval B m' Q 2 = mval B m R (N + 2) / mval B m Bp N := by
  intro m'
  have hp2 : Pow2 2 := ⟨0, rfl⟩
  have hX : 0 < B ^ N := by positivity
  have hDpos : 0 < mval B m Bp N := by omega
  have hm' : m' = correctQuotientEstimate B m R T Q Bp N := rfl
  unfold correctQuotientEstimate at hm'
  simp only at hm'
  obtain ⟨w1, s1, v1⟩ := asymmetricMultiply_spec hB hev hm (R := T) (T := T + N + 2) (A := Q) (NA := 2) (Bp := Bp) (NB := N)
    (Or.inl ⟨hpos, hp2, hN⟩) (by omega) (by omega) (by omega) (by omega) (by omega)
  generalize asymmetricMultiply B m T (T + N + 2) Q 2 Bp N = m1 at *
  obtain ⟨w2, s2, b2, v2⟩ := mSub_spec (by omega) w1 R R T (N + 2) (by omega)
  generalize mSub B m1 R R T (N + 2) = r2 at *
  rw [mval_fr (a := R) s1 (by omega) (by omega), Nat.add_comm N 2, v1, Nat.add_comm 2 N] at v2
  have hz : r2.2 = 0 := by
    by_contra hne
    have h1 : r2.2 = 1 := by omega
    have := mval_lt w2 R (N + 2)
    rw [h1] at v2
    omega
  rw [hz, Nat.mul_zero] at v2
  replace v2 : mval B r2.1 R (N + 2) + mval B m Q 2 * mval B m Bp N = mval B m R (N + 2) := v2
  have eB : mval B r2.1 Bp N = mval B m Bp N := by
    rw [mval_same s2 (by omega), mval_fr s1 (by omega) (by omega)]
  have eQ : mval B r2.1 Q 2 = mval B m Q 2 := by
    rw [mval_same s2 (by omega), mval_fr s1 (by omega) (by omega)]
  -- the top word is zero
  have hDl := mval_lt hm Bp N
  have hV : mval B r2.1 R (N + 2) < 2 * B ^ N := by omega
  have hV3 : mval B r2.1 R (N + 2) < 4 * mval B m Bp N := by omega
  have htop : r2.1 (R + (N + 1)) = 0 := by
    rw [mval_succ] at hV
    by_contra hne
    have h1 : B ^ (N + 1) * 1 ≤ B ^ (N + 1) * r2.1 (R + (N + 1)) := Nat.mul_le_mul_left _ (by omega)
    have h2 : 2 * B ^ N ≤ B ^ (N + 1) := by rw [pow_succ, Nat.mul_comm]; exact Nat.mul_le_mul_left _ (by omega)
    omega
  have hR1 : mval B r2.1 R (N + 2) = mval B r2.1 R (N + 1) := by
    rw [mval_succ, htop]; simp
  rw [hR1] at v2 hV3
  have hq : mval B m Q 2 + mval B r2.1 R (N + 1) / mval B m Bp N = mval B m R (N + 2) / mval B m Bp N := by
    rw [← v2, Nat.add_mul_div_right _ _ hDpos]; omega
  have hmod : mval B r2.1 R (N + 1) % mval B m Bp N = mval B m R (N + 2) % mval B m Bp N := by
    rw [← v2, Nat.add_mul_mod_self_right]
  obtain ⟨g1, g2, g3, g4⟩ := correctLoop_spec (B := B) (by omega) (R := R) (Q := Q) (Bp := Bp) (N := N) hN (by omega) (by omega) hQB
    B r2.1 w2 (by rw [eB]; exact hDpos) (by
      rw [eB]
      calc mval B r2.1 R (N + 1) < 4 * mval B m Bp N := hV3
        _ ≤ (B + 1) * mval B m Bp N := Nat.mul_le_mul_right _ (by omega)) (by
      rw [eB, eQ, hq, Nat.div_lt_iff_lt_mul hDpos]; exact hr)
  rw [← hm'] at g1 g2 g3 g4
  rw [eB, hmod] at g3
  rw [eB, eQ, hq] at g4
  refine ⟨g1, ?_, ?_, g4⟩
  · intro x h1 h2 h3
    rw [g2 x (by omega) h2, s2 x (by omega), s1 x (by omega) (by omega)]
  · rw [mval_succ, g3, g2 (R + (N + 1)) (by omega) (by omega), htop]; simp

/-- The estimate `⌊rt / (Dt+1)⌋` from the leading words. -/
theorem estimate_arith {Y D r K : Nat} (hY : 0 < Y) (hr : r < K * D) :
    let q := r / Y / (D / Y + 1)
    q * D ≤ r ∧ r < q * D + D + K * Y ∧ r / Y < (D / Y + 1) * K := by
  intro q
  have hD : 0 < D := by rcases Nat.eq_zero_or_pos D with h | h; (· rw [h] at hr; simp at hr); exact h
  have h1 := Nat.div_mul_le_self (r / Y) (D / Y + 1)
  have h2 := Nat.div_mul_le_self r Y
  have h3 : D < (D / Y + 1) * Y := by rw [← Nat.div_lt_iff_lt_mul hY]; omega
  have h4 : r < (r / Y + 1) * Y := by rw [← Nat.div_lt_iff_lt_mul hY]; omega
  have h5 : r / Y < (q + 1) * (D / Y + 1) := by rw [← Nat.div_lt_iff_lt_mul (Nat.succ_pos _)]; exact Nat.lt_succ_self _
  change q * (D / Y + 1) ≤ r / Y at h1
  have h6 := Nat.div_mul_le_self D Y
  have hle : q * D ≤ r := by
    calc q * D ≤ q * ((D / Y + 1) * Y) := Nat.mul_le_mul_left _ (by omega)
      _ = q * (D / Y + 1) * Y := by ring
      _ ≤ r / Y * Y := Nat.mul_le_mul_right _ h1
      _ ≤ r := h2
  have hqK : q + 1 ≤ K := by
    by_contra hc
    have : K * D ≤ q * D := Nat.mul_le_mul_right _ (by omega)
    omega
  refine ⟨hle, ?_, ?_⟩
  · calc r < (r / Y + 1) * Y := h4
      _ ≤ (q + 1) * (D / Y + 1) * Y := Nat.mul_le_mul_right _ h5
      _ = (q + 1) * (D / Y * Y) + (q + 1) * Y := by ring
      _ ≤ (q + 1) * D + K * Y := Nat.add_le_add (Nat.mul_le_mul_left _ h6) (Nat.mul_le_mul_right _ hqK)
      _ = _ := by ring
  · rw [Nat.div_lt_iff_lt_mul hY]
    calc r < K * D := hr
      _ ≤ K * ((D / Y + 1) * Y) := Nat.mul_le_mul_left _ (by omega)
      _ = _ := by ring

/-- One step of the division loop: `AtomicDivide` then `CorrectQuotientEstimate`. -/
theorem divStep_spec {B : Nat} (hB : 256 ≤ B) (hev : B % 2 = 0) {m : WMem} (hm : AllW B m) {R T Q Bp N b0 b1 : Nat}
    (hN : N % 2 = 0) (hpos : 2 ≤ N)
    (hRQ : R + (N + 2) ≤ Q ∨ Q + 2 ≤ R) (hRB : R + (N + 2) ≤ Bp ∨ Bp + N ≤ R) (hQB : Q + 2 ≤ Bp ∨ Bp + N ≤ Q)
    (hTR : T + 2 * (N + 2) ≤ R ∨ R + (N + 2) ≤ T) (hTQ : T + 2 * (N + 2) ≤ Q ∨ Q + 2 ≤ T)
    (hTB : T + 2 * (N + 2) ≤ Bp ∨ Bp + N ≤ T)
    (hb0 : b0 < B) (hb1 : b1 < B)
    (hbt : mval B m Bp N / B ^ (N - 2) + 1 = if b0 = 0 ∧ b1 = 0 then B * B else b0 + B * b1)
    (hD : B ^ N ≤ 2 * mval B m Bp N) (hr : mval B m R (N + 2) < B * B * mval B m Bp N) :
    let m1 := atomicDivide B m Q (R + (N - 2)) b0 b1
    let m' := correctQuotientEstimate B m1 R T Q Bp N
    AllW B m' ∧ (∀ x, (x < R ∨ R + (N + 2) ≤ x) → (x < Q ∨ Q + 2 ≤ x) → (x < T ∨ T + 2 * (N + 2) ≤ x) → m' x = m x) ∧
      mval B m' R (N + 2) = mval B m R (N + 2) % mval B m Bp N ∧
      mval B m' Q 2 = mval B m R (N + 2) / mval B m Bp N := by
  intro m1 m'
  have hY : 0 < B ^ (N - 2) := by positivity
  have hNY : B ^ N = B * B * B ^ (N - 2) := by
    calc B ^ N = B ^ (2 + (N - 2)) := by rw [show 2 + (N - 2) = N by omega]
      _ = _ := by rw [pow_add, pow_two]
  obtain ⟨h1, h2, h3⟩ := estimate_arith (Y := B ^ (N - 2)) (D := mval B m Bp N) (r := mval B m R (N + 2)) (K := B * B) hY hr
  -- the four leading words
  have hrt : mval B m R (N + 2) / B ^ (N - 2) = m (R + (N - 2)) + B * m (R + (N - 2) + 1)
      + B * B * (m (R + (N - 2) + 2) + B * m (R + (N - 2) + 3)) := by
    rw [show N + 2 = (N - 2) + 4 by omega, mval_add, Nat.add_mul_div_left _ _ hY, Nat.div_eq_of_lt (mval_lt hm _ _),
      Nat.zero_add, show (4 : Nat) = 2 + 2 by omega, mval_add, mval_two, mval_two, pow_two]
  have hd4 := div4_spec (B := B) (by omega) (hm (R + (N - 2))) (hm (R + (N - 2) + 1)) (hm (R + (N - 2) + 2))
    (hm (R + (N - 2) + 3)) hb0 hb1 hbt (by
      by_contra hc
      have : B * B * (mval B m Bp N / B ^ (N - 2) + 1) ≤ B * B * (m (R + (N - 2) + 2) + B * m (R + (N - 2) + 3)) :=
        Nat.mul_le_mul_left _ (by omega)
      rw [hrt, Nat.mul_comm _ (B * B)] at h3
      omega)
  rw [← hrt] at hd4
  obtain ⟨q0l, q1l, qv⟩ := hd4
  have hm1 : m1 = setW (setW m Q (div4 B (m (R + (N - 2))) (m (R + (N - 2) + 1)) (m (R + (N - 2) + 2)) (m (R + (N - 2) + 3)) b0 b1).1) (Q + 1)
    (div4 B (m (R + (N - 2))) (m (R + (N - 2) + 1)) (m (R + (N - 2) + 2)) (m (R + (N - 2) + 3)) b0 b1).2 := rfl
  generalize div4 B (m (R + (N - 2))) (m (R + (N - 2) + 1)) (m (R + (N - 2) + 2)) (m (R + (N - 2) + 3)) b0 b1 = q at *
  have w1 : AllW B m1 := by rw [hm1]; exact setW_allW (setW_allW hm _ q0l) _ q1l
  have s1 : Same m m1 Q 2 := by
    intro x hx
    rw [hm1, setW_out _ _ _ _ (by omega), setW_out _ _ _ _ (by omega)]
  have v1 : mval B m1 Q 2 = mval B m R (N + 2) / B ^ (N - 2) / (mval B m Bp N / B ^ (N - 2) + 1) := by
    rw [hm1, mval_two, setW_same, setW_out _ _ _ _ (by omega : Q ≠ Q + 1), setW_same, qv]
  have eR : mval B m1 R (N + 2) = mval B m R (N + 2) := mval_same s1 (by omega)
  have eB : mval B m1 Bp N = mval B m Bp N := mval_same s1 (by omega)
  obtain ⟨g1, g2, g3, g4⟩ := correctQuotientEstimate_spec hB hev w1 (R := R) (T := T) (Q := Q) (Bp := Bp) (N := N) hN hpos hRQ hRB hQB hTR
    hTQ hTB (by rw [eB]; exact hD) (by rw [eR, eB, v1]; exact h1) (by rw [eR, eB, v1, hNY]; exact h2) (by rw [eR, eB]; exact hr)
  rw [eR, eB] at g3 g4
  exact ⟨g1, fun x a b c => (g2 x a b c).trans (s1 x b), g3, g4⟩

/-- integer.cpp:2818-2822: the loop reduces `TA` modulo `TB`, two quotient words at a time. -/
theorem divLoop_spec {B : Nat} (hB : 256 ≤ B) (hev : B % 2 = 0) {Q TA TB TP NB b0 b1 : Nat} (hN : NB % 2 = 0) (hpos : 2 ≤ NB)
    (hb0 : b0 < B) (hb1 : b1 < B) (hTPB : TP + 2 * (NB + 2) ≤ TB ∨ TB + NB ≤ TP) :
    ∀ (f n : Nat) (m : WMem), AllW B m → n ≤ f → NB ≤ n → n % 2 = 0 →
      (TA + n ≤ Q ∨ Q + (n - NB) ≤ TA) → (TA + n ≤ TB ∨ TB + NB ≤ TA) → (TA + n ≤ TP ∨ TP + 2 * (NB + 2) ≤ TA) →
      (Q + (n - NB) ≤ TB ∨ TB + NB ≤ Q) → (Q + (n - NB) ≤ TP ∨ TP + 2 * (NB + 2) ≤ Q) →
      (mval B m TB NB / B ^ (NB - 2) + 1 = if b0 = 0 ∧ b1 = 0 then B * B else b0 + B * b1) →
      B ^ NB ≤ 2 * mval B m TB NB → mval B m (TA + (n - NB)) NB < mval B m TB NB →
      let m' := divLoop B Q TA TB TP NB b0 b1 f m n
      AllW B m' ∧ (∀ x, (x < TA ∨ TA + n ≤ x) → (x < Q ∨ Q + (n - NB) ≤ x) → (x < TP ∨ TP + 2 * (NB + 2) ≤ x) → m' x = m x) ∧
        mval B m' TA NB = mval B m TA n % mval B m TB NB ∧ mval B m' Q (n - NB) = mval B m TA n / mval B m TB NB ∧
        (NB < n → m' (TA + NB) = 0) := by
  intro f
  induction f with
  | zero => intro n m _ h1 h2; omega
  | succ f ih =>
    intro n m hm hnf hNn hn2 d1 d2 d3 d4 d5 hbt hD htop
    intro m'
    have hm' : m' = divLoop B Q TA TB TP NB b0 b1 (f + 1) m n := rfl
    rw [divLoop] at hm'
    have hDpos : 0 < mval B m TB NB := by omega
    by_cases hge : n ≥ NB + 2
    · rw [if_pos hge] at hm'
      simp only at hm'
      obtain ⟨i, rfl⟩ : ∃ i, n = i + 2 := ⟨n - 2, by omega⟩
      rw [show i + 2 - 2 = i by omega] at hm'
      have hr : mval B m (TA + (i - NB)) (NB + 2) < B * B * mval B m TB NB := by
        rw [show NB + 2 = 2 + NB by omega, mval_add, pow_two, show TA + (i - NB) + 2 = TA + (i + 2 - NB) by omega]
        have h2 := mval_lt hm (TA + (i - NB)) 2
        rw [pow_two] at h2
        have : B * B * (mval B m (TA + (i + 2 - NB)) NB + 1) ≤ B * B * mval B m TB NB := Nat.mul_le_mul_left _ htop
        rw [Nat.mul_add] at this; omega
      obtain ⟨w1, s1, v1, q1⟩ := divStep_spec hB hev hm (R := TA + (i - NB)) (T := TP) (Q := Q + (i - NB)) (Bp := TB) (N := NB)
        (b0 := b0) (b1 := b1) hN hpos (by omega) (by omega) (by omega) (by omega) (by omega) hTPB hb0 hb1 hbt hD hr
      rw [show TA + (i - NB) + (NB - 2) = TA + i - 2 by omega, show TA + (i - NB) = TA + i - NB by omega,
        show Q + (i - NB) = Q + i - NB by omega] at w1 s1 v1 q1
      generalize correctQuotientEstimate B (atomicDivide B m (Q + i - NB) (TA + i - 2) b0 b1) (TA + i - NB) TP (Q + i - NB) TB NB = m2 at *
      have eTB : mval B m2 TB NB = mval B m TB NB := mval_congr fun x h1 h2 => s1 x (by omega) (by omega) (by omega)
      have hv2 : mval B m2 (TA + i - NB) (NB + 2) < mval B m TB NB := by rw [v1]; exact Nat.mod_lt _ hDpos
      have hbig := mval_lt hm TB NB
      have hsplit := mval_add B m2 (TA + i - NB) NB 2
      have hz2 : mval B m2 (TA + i - NB + NB) 2 = 0 := by
        by_contra hne
        have : B ^ NB * 1 ≤ B ^ NB * mval B m2 (TA + i - NB + NB) 2 := Nat.mul_le_mul_left _ (by omega)
        omega
      rw [hz2, Nat.mul_zero] at hsplit
      replace hsplit : mval B m2 (TA + i - NB) (NB + 2) = mval B m2 (TA + i - NB) NB := hsplit
      have hz0 : m2 (TA + i) = 0 := by
        rw [mval_two, show TA + i - NB + NB = TA + i by omega] at hz2
        omega
      obtain ⟨g1, g2, g3, g4, g5⟩ := ih i m2 w1 (by omega) (by omega) (by omega) (by omega) (by omega) (by omega) (by omega) (by omega)
        (by rw [eTB]; exact hbt) (by rw [eTB]; exact hD) (by
          rw [eTB, show TA + (i - NB) = TA + i - NB by omega, ← hsplit]; exact hv2)
      rw [← hm'] at g1 g2 g3 g4 g5
      rw [eTB] at g3 g4
      -- values
      have hVlow : mval B m2 TA (i - NB) = mval B m TA (i - NB) := mval_congr fun x h1 h2 => s1 x (by omega) (by omega) (by omega)
      have hV : mval B m TA (i + 2) = mval B m TA (i - NB) + B ^ (i - NB) * mval B m (TA + i - NB) (NB + 2) := by
        rw [show i + 2 = (i - NB) + (NB + 2) by omega, mval_add, show TA + (i - NB) = TA + i - NB by omega]
      have hV2 : mval B m2 TA i = mval B m TA (i - NB) + B ^ (i - NB) * (mval B m (TA + i - NB) (NB + 2) % mval B m TB NB) := by
        rw [show mval B m2 TA i = mval B m2 TA ((i - NB) + NB) by rw [show (i - NB) + NB = i by omega], mval_add, hVlow,
          show TA + (i - NB) = TA + i - NB by omega, ← hsplit, v1]
      have hrel : mval B m TA (i + 2) = mval B m2 TA i + mval B m TB NB * (B ^ (i - NB) * (mval B m (TA + i - NB) (NB + 2) / mval B m TB NB)) := by
        rw [hV, hV2]
        have := Nat.div_add_mod (mval B m (TA + i - NB) (NB + 2)) (mval B m TB NB)
        generalize mval B m (TA + i - NB) (NB + 2) / mval B m TB NB = qq at *
        generalize mval B m (TA + i - NB) (NB + 2) % mval B m TB NB = rr at *
        rw [← this]; ring
      refine ⟨g1, ?_, ?_, ?_, ?_⟩
      · intro x h1 h2 h3
        rw [g2 x (by omega) (by omega) (by omega), s1 x (by omega) (by omega) (by omega)]
      · rw [g3, hrel, Nat.add_mul_mod_self_left]
      · rw [hrel, Nat.add_mul_div_left _ _ hDpos, ← g4, show i + 2 - NB = (i - NB) + 2 by omega, mval_add]
        congr 2
        rw [← q1]
        rw [show Q + (i - NB) = Q + i - NB by omega]
        exact mval_congr fun x h1 h2 => g2 x (by omega) (by omega) (by omega)
      · intro _
        rcases Nat.lt_or_ge NB i with h | h
        · exact g5 h
        · have hi : i = NB := by omega
          subst hi
          rw [g2 _ (by omega) (by omega) (by omega)]
          exact hz0
    · rw [if_neg hge] at hm'
      have hn : n = NB := by omega
      subst hn
      rw [hm']
      rw [show n - n = 0 by omega] at htop ⊢
      rw [Nat.add_zero] at htop
      exact ⟨hm, fun _ _ _ _ => rfl, (Nat.mod_eq_of_lt htop).symm, by rw [Nat.div_eq_of_lt htop]; rfl, by omega⟩

end Verif.Integer
