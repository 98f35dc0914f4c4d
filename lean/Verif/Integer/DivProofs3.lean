import Verif.Integer.DivProofs2
import Verif.Integer.MulCls

/-!
# Correctness of `Divide` on word arrays
-/
namespace Verif.Integer

open Verif.Misc

/-- The leading-digit loop writes only its remainder and its quotient word. -/
theorem topLoop_frame {B : Nat} (hB : 1 < B) {R E Q Bp N : Nat} (hN : N % 2 = 0) {x : Nat} (h1 : x < R ∨ R + N ≤ x) (h2 : x ≠ E) (h3 : x ≠ Q) :
    ∀ (f : Nat) (m : WMem), AllW B m → topLoop B R E Q Bp N f m x = m x := by
  intro f
  induction f with
  | zero => intro m _; rfl
  | succ f ih =>
    intro m hm
    rw [topLoop]
    split
    · simp only
      obtain ⟨w, s, _, _⟩ := mSub_spec hB hm R R Bp N hN
      rw [ih _ (setW_allW (setW_allW w _ (Nat.mod_lt _ (by omega))) _ (Nat.mod_lt _ (by omega))), setW_out _ _ _ _ h3,
        setW_out _ _ _ _ h2, s x h1]
    · rfl

theorem mShl_spec {W s : Nat} (hs : s < W) {m : WMem} (hm : AllW (2 ^ W) m) (r n : Nat)
    (h : mval (2 ^ W) m r n * 2 ^ s < (2 ^ W) ^ n) :
    AllW (2 ^ W) (mShl W m r n s) ∧ Same m (mShl W m r n s) r n ∧
      mval (2 ^ W) (mShl W m r n s) r n = mval (2 ^ W) m r n * 2 ^ s := by
  obtain ⟨l, w, c, v⟩ := shiftWordsLeftByBits_spec hs (loadW m r n) (loadW_words hm r n)
  rw [loadW_length] at l v
  refine ⟨storeW_allW (Nat.two_pow_pos W) hm r w, storeW_same _ _ _ _ l, ?_⟩
  unfold mShl
  rw [mval_storeW _ _ _ _ _ l]
  change _ = mval (2 ^ W) m r n * 2 ^ s at v
  have hz : (shiftWordsLeftByBits W s (loadW m r n)).2 = 0 := by
    by_contra hne
    have : (2 ^ W) ^ n * 1 ≤ (2 ^ W) ^ n * (shiftWordsLeftByBits W s (loadW m r n)).2 := Nat.mul_le_mul_left _ (by omega)
    omega
  rw [hz] at v
  simpa using v

theorem mShr_spec {W s : Nat} (hs : s < W) {m : WMem} (hm : AllW (2 ^ W) m) (r n : Nat) :
    AllW (2 ^ W) (mShr W m r n s) ∧ Same m (mShr W m r n s) r n ∧
      mval (2 ^ W) (mShr W m r n s) r n = mval (2 ^ W) m r n / 2 ^ s := by
  obtain ⟨l, w, v⟩ := shiftWordsRightByBits_spec hs (loadW m r n) (loadW_words hm r n)
  rw [loadW_length] at l
  refine ⟨storeW_allW (Nat.two_pow_pos W) hm r w, storeW_same _ _ _ _ l, ?_⟩
  unfold mShr
  rw [mval_storeW _ _ _ _ _ l]
  exact v

/-- The normalising shift. -/
theorem norm_arith {W n t L : Nat} (ht : t ≠ 0) (htl : t < 2 ^ W) (hL : L < (2 ^ W) ^ n) :
    bitLen t ≤ W ∧ W - bitLen t < W ∧ (L + (2 ^ W) ^ n * t) * 2 ^ (W - bitLen t) < (2 ^ W) ^ (n + 1) ∧
      (2 ^ W) ^ (n + 1) ≤ 2 * ((L + (2 ^ W) ^ n * t) * 2 ^ (W - bitLen t)) := by
  have h1 := bitLen_le htl
  have h2 := bitLen_lt t
  have h3 := bitLen_pos_le ht
  have h4 : 0 < bitLen t := by unfold bitLen; rw [if_neg ht]; omega
  have e1 : 2 ^ bitLen t * 2 ^ (W - bitLen t) = 2 ^ W := by rw [← pow_add]; congr 1; omega
  have e2 : 2 * 2 ^ (bitLen t - 1) = 2 ^ bitLen t := by
    rw [← pow_succ']; congr 1; omega
  refine ⟨h1, by omega, ?_, ?_⟩
  · rw [pow_succ, ← e1]
    rw [e1]
    calc (L + (2 ^ W) ^ n * t) * 2 ^ (W - bitLen t) < ((2 ^ W) ^ n * (t + 1)) * 2 ^ (W - bitLen t) := by
          apply Nat.mul_lt_mul_of_pos_right _ (Nat.two_pow_pos _); rw [Nat.mul_add]; omega
      _ ≤ ((2 ^ W) ^ n * 2 ^ bitLen t) * 2 ^ (W - bitLen t) := by
          apply Nat.mul_le_mul_right; exact Nat.mul_le_mul_left _ h2
      _ = (2 ^ W) ^ n * 2 ^ W := by rw [Nat.mul_assoc, e1]
  · calc (2 ^ W) ^ (n + 1) = (2 ^ W) ^ n * (2 * 2 ^ (bitLen t - 1) * 2 ^ (W - bitLen t)) := by rw [e2, e1, pow_succ]
      _ ≤ (2 ^ W) ^ n * (2 * t * 2 ^ (W - bitLen t)) := by
          apply Nat.mul_le_mul_left; apply Nat.mul_le_mul_right; exact Nat.mul_le_mul_left _ h3
      _ = 2 * (((2 ^ W) ^ n * t) * 2 ^ (W - bitLen t)) := by ring
      _ ≤ _ := by apply Nat.mul_le_mul_left; apply Nat.mul_le_mul_right; omega

set_option maxHeartbeats 1000000 in
/-- integer.cpp:2786-2796 scales dividend and divisor by the same factor and normalises the divisor. -/
theorem divNormalize_spec {W : Nat} (hW : 8 ≤ W) {m : WMem} (hm : AllW (2 ^ W) m) {TA TB A NA Bp NB : Nat}
    (hNB : 2 ≤ NB) (hTB : TA + (NA + 2) ≤ TB) (hA1 : A + NA ≤ TA ∨ TB + NB ≤ A) (hB1 : Bp + NB ≤ TA ∨ TB + NB ≤ Bp)
    (hb : (2 ^ W) ^ (NB - 2) ≤ mval (2 ^ W) m Bp NB) :
    let r := divNormalize W m TA TB A NA Bp NB
    let s := (2 ^ W) ^ r.2.1 * 2 ^ r.2.2
    AllW (2 ^ W) r.1 ∧ Fr m r.1 TA (NA + 2) TB NB ∧ r.2.1 ≤ 1 ∧ r.2.2 < W ∧
      mval (2 ^ W) r.1 TB NB = mval (2 ^ W) m Bp NB * s ∧ mval (2 ^ W) r.1 TA (NA + 2) = mval (2 ^ W) m A NA * s ∧
      (2 ^ W) ^ NB ≤ 2 * mval (2 ^ W) r.1 TB NB := by
  intro r s
  have hB0 : 0 < 2 ^ W := Nat.two_pow_pos W
  obtain ⟨sw, hsw⟩ : ∃ sw, sw = if m (Bp + (NB - 1)) = 0 then 1 else 0 := ⟨_, rfl⟩
  have hsw1 : sw ≤ 1 := by rw [hsw]; split <;> omega
  have hr : r = divNormalize W m TA TB A NA Bp NB := rfl
  unfold divNormalize at hr
  rw [← hsw] at hr
  simp only at hr
  have w1 : AllW (2 ^ W) (setW (setW m (TB + (NB - 1)) 0) TB 0) := setW_allW (setW_allW hm _ hB0) _ hB0
  have z1 : setW (setW m (TB + (NB - 1)) 0) TB 0 TB = 0 := setW_same _ _ _
  have s1 : Same m (setW (setW m (TB + (NB - 1)) 0) TB 0) TB NB := by
    intro x hx
    rw [setW_out _ _ _ _ (by omega), setW_out _ _ _ _ (by omega)]
  generalize setW (setW m (TB + (NB - 1)) 0) TB 0 = m1 at *
  obtain ⟨w2, s2, v2⟩ := mCopy_spec hB0 w1 (TB + sw) Bp (NB - sw)
  generalize mCopy m1 (TB + sw) Bp (NB - sw) = m2 at *
  rw [mval_same s1 (by omega)] at v2
  -- value of the copied divisor
  have vB2 : mval (2 ^ W) m2 TB NB = (2 ^ W) ^ sw * mval (2 ^ W) m Bp NB := by
    by_cases h : m (Bp + (NB - 1)) = 0
    · rw [if_pos h] at hsw
      subst hsw
      have e : mval (2 ^ W) m Bp NB = mval (2 ^ W) m Bp (NB - 1) := by
        rw [show mval (2 ^ W) m Bp NB = mval (2 ^ W) m Bp (NB - 1 + 1) by rw [show NB - 1 + 1 = NB by omega], mval_succ, h]; simp
      rw [show mval (2 ^ W) m2 TB NB = mval (2 ^ W) m2 TB (NB - 1 + 1) by rw [show NB - 1 + 1 = NB by omega], mval_succ_left,
        s2 TB (by omega), z1, v2, e, pow_one]; omega
    · rw [if_neg h] at hsw
      subst hsw
      simpa using v2
  have vB2' : (2 ^ W) ^ (NB - 1) ≤ mval (2 ^ W) m2 TB NB := by
    rw [vB2]
    by_cases h : m (Bp + (NB - 1)) = 0
    · rw [if_pos h] at hsw
      rw [hsw, show NB - 1 = 1 + (NB - 2) by omega, pow_add]
      exact Nat.mul_le_mul_left _ hb
    · rw [if_neg h] at hsw
      rw [hsw, show mval (2 ^ W) m Bp NB = mval (2 ^ W) m Bp (NB - 1 + 1) by rw [show NB - 1 + 1 = NB by omega], mval_succ]
      have : (2 ^ W) ^ (NB - 1) * 1 ≤ (2 ^ W) ^ (NB - 1) * m (Bp + (NB - 1)) := Nat.mul_le_mul_left _ (by omega)
      simp only [pow_zero, Nat.one_mul]; omega
  have hdec : mval (2 ^ W) m2 TB NB = mval (2 ^ W) m2 TB (NB - 1) + (2 ^ W) ^ (NB - 1) * m2 (TB + (NB - 1)) := by
    rw [← mval_succ, show NB - 1 + 1 = NB by omega]
  have hlo := mval_lt w2 TB (NB - 1)
  have ht : m2 (TB + (NB - 1)) ≠ 0 := by
    intro h0; rw [hdec, h0] at vB2'; simp at vB2'; omega
  obtain ⟨n1, n2, n3, n4⟩ := norm_arith (n := NB - 1) ht (w2 (TB + (NB - 1))) hlo
  rw [← hdec, show NB - 1 + 1 = NB by omega] at n3 n4
  generalize hsb : W - bitLen (m2 (TB + (NB - 1))) = sb at *
  obtain ⟨w3, s3, v3⟩ := mShl_spec n2 w2 TB NB n3
  generalize mShl W m2 TB NB sb = m3 at *
  have w4 : AllW (2 ^ W) (setW (setW (setW m3 (TA + (NA + 1)) 0) (TA + NA) 0) TA 0) :=
    setW_allW (setW_allW (setW_allW w3 _ hB0) _ hB0) _ hB0
  have s4 : Same m3 (setW (setW (setW m3 (TA + (NA + 1)) 0) (TA + NA) 0) TA 0) TA (NA + 2) := by
    intro x hx
    rw [setW_out _ _ _ _ (by omega), setW_out _ _ _ _ (by omega), setW_out _ _ _ _ (by omega)]
  have z4 : setW (setW (setW m3 (TA + (NA + 1)) 0) (TA + NA) 0) TA 0 TA = 0 := setW_same _ _ _
  have z4a : setW (setW (setW m3 (TA + (NA + 1)) 0) (TA + NA) 0) TA 0 (TA + NA) = 0 := by
    rcases Nat.eq_zero_or_pos NA with h | h
    · subst h; exact z4
    · rw [setW_out _ _ _ _ (by omega), setW_same]
  have z4b : setW (setW (setW m3 (TA + (NA + 1)) 0) (TA + NA) 0) TA 0 (TA + (NA + 1)) = 0 := by
    rw [setW_out _ _ _ _ (by omega), setW_out _ _ _ _ (by omega), setW_same]
  generalize setW (setW (setW m3 (TA + (NA + 1)) 0) (TA + NA) 0) TA 0 = m4 at *
  obtain ⟨w5, s5, v5⟩ := mCopy_spec hB0 w4 (TA + sw) A NA
  generalize mCopy m4 (TA + sw) A NA = m5 at *
  have eA : mval (2 ^ W) m4 A NA = mval (2 ^ W) m A NA := by
    rw [mval_same s4 (by omega), mval_same s3 (by omega), mval_same s2 (by omega), mval_same s1 (by omega)]
  rw [eA] at v5
  have vA5 : mval (2 ^ W) m5 TA (NA + 2) = (2 ^ W) ^ sw * mval (2 ^ W) m A NA := by
    rw [mval_succ, mval_succ, s5 (TA + (NA + 1)) (by omega), z4b]
    rcases (by omega : sw = 0 ∨ sw = 1) with h | h
    · rw [h] at v5 s5 ⊢
      rw [s5 (TA + NA) (by omega), z4a, show TA = TA + 0 by omega, v5]; simp
    · rw [h] at v5 s5 ⊢
      rw [← mval_succ, mval_succ_left, s5 TA (by omega), z4, v5]; simp
  have haA := mval_lt hm A NA
  have hp : (2 ^ W) ^ sw * mval (2 ^ W) m A NA * 2 ^ sb < (2 ^ W) ^ (NA + 2) := by
    have e1 : (2 ^ W) ^ sw ≤ 2 ^ W := by
      calc (2 ^ W) ^ sw ≤ (2 ^ W) ^ 1 := Nat.pow_le_pow_right hB0 hsw1
        _ = _ := pow_one _
    have e2 : 2 ^ sb ≤ 2 ^ W := Nat.pow_le_pow_right (by omega) (by omega)
    calc (2 ^ W) ^ sw * mval (2 ^ W) m A NA * 2 ^ sb < (2 ^ W) ^ sw * (2 ^ W) ^ NA * 2 ^ sb := by
          apply Nat.mul_lt_mul_of_pos_right _ (Nat.two_pow_pos _)
          exact Nat.mul_lt_mul_of_pos_left haA (Nat.pow_pos hB0)
      _ ≤ 2 ^ W * (2 ^ W) ^ NA * 2 ^ W := Nat.mul_le_mul (Nat.mul_le_mul_right _ e1) e2
      _ = (2 ^ W) ^ (NA + 2) := by ring
  obtain ⟨w6, s6, v6⟩ := mShl_spec n2 w5 TA (NA + 2) (by rw [vA5]; exact hp)
  generalize mShl W m5 TA (NA + 2) sb = m6 at *
  have hs : s = (2 ^ W) ^ sw * 2 ^ sb := by change (2 ^ W) ^ r.2.1 * 2 ^ r.2.2 = _; rw [hr]
  have eT : mval (2 ^ W) m6 TB NB = mval (2 ^ W) m3 TB NB := by
    rw [mval_same s6 (by omega), mval_same s5 (by omega), mval_same s4 (by omega)]
  rw [hs, hr]
  refine ⟨w6, ?_, hsw1, n2, ?_, ?_, ?_⟩
  · intro x h1 h2
    simp only
    rw [s6 x h1, s5 x (by omega), s4 x h1, s3 x h2, s2 x (by omega), s1 x h2]
  · simp only
    rw [eT, v3, vB2]; ring
  · simp only
    rw [v6, vA5]; ring
  · simp only
    rw [eT, v3]; exact n4

set_option maxHeartbeats 1000000 in
/-- integer.cpp:2798-2822 on a normalised divisor: the quotient is in `Q`, the remainder in `TA`. -/
theorem divCore_spec {W : Nat} (hW : 8 ≤ W) {m : WMem} (hm : AllW (2 ^ W) m) {Q TA TB TP NA NB b0 b1 : Nat}
    (hNB : 2 ≤ NB) (hNB2 : NB % 2 = 0) (hNA : NB ≤ NA) (hNA2 : NA % 2 = 0)
    (hTB : TA + (NA + 2) ≤ TB) (hTP : TB + NB ≤ TP) (hQ : Q + (NA - NB + 2) ≤ TA ∨ TP + 2 * (NB + 2) ≤ Q)
    (hb0 : b0 = (m (TB + (NB - 2)) + 1) % 2 ^ W)
    (hb1 : b1 = (m (TB + (NB - 1)) + if b0 = 0 then 1 else 0) % 2 ^ W)
    (hD : (2 ^ W) ^ NB ≤ 2 * mval (2 ^ W) m TB NB)
    (hV : 2 * mval (2 ^ W) m TA (NA + 2) < (2 ^ W) ^ (NA + 2)) :
    let t := divTop (2 ^ W) m Q TA TB NA NB
    let m' := divLoop (2 ^ W) Q TA TB TP NB b0 b1 t.2 t.1 t.2
    AllW (2 ^ W) m' ∧ (∀ x, (x < TA ∨ TA + (NA + 2) ≤ x) → (x < Q ∨ Q + (NA - NB + 2) ≤ x) →
        (x < TP ∨ TP + 2 * (NB + 2) ≤ x) → m' x = m x) ∧
      mval (2 ^ W) m' Q (NA - NB + 2) = mval (2 ^ W) m TA (NA + 2) / mval (2 ^ W) m TB NB ∧
      mval (2 ^ W) m' TA (NB + 1) = mval (2 ^ W) m TA (NA + 2) % mval (2 ^ W) m TB NB := by
  have hB : 256 ≤ 2 ^ W := by
    calc 256 = 2 ^ 8 := rfl
      _ ≤ 2 ^ W := Nat.pow_le_pow_right (by omega) hW
  have hev : 2 ^ W % 2 = 0 := by
    obtain ⟨k, rfl⟩ : ∃ k, W = k + 1 := ⟨W - 1, by omega⟩
    rw [pow_succ]; omega
  generalize 2 ^ W = B at *
  have hB0 : 0 < B := by omega
  have hXpos : 0 < B ^ NB := Nat.pow_pos hB0
  have hDpos : 0 < mval B m TB NB := by omega
  have hDlt := mval_lt hm TB NB
  have hb0l : b0 < B := by rw [hb0]; exact Nat.mod_lt _ hB0
  have hb1l : b1 < B := by rw [hb1]; exact Nat.mod_lt _ hB0
  -- the two-word estimate divisor
  have hbt : mval B m TB NB / B ^ (NB - 2) + 1 = if b0 = 0 ∧ b1 = 0 then B * B else b0 + B * b1 := by
    have e : mval B m TB NB / B ^ (NB - 2) = m (TB + (NB - 2)) + B * m (TB + (NB - 1)) := by
      rw [show mval B m TB NB = mval B m TB ((NB - 2) + 2) by rw [show NB - 2 + 2 = NB by omega], mval_add,
        Nat.add_mul_div_left _ _ (Nat.pow_pos hB0), Nat.div_eq_of_lt (mval_lt hm _ _), Nat.zero_add, mval_two,
        show TB + (NB - 2) + 1 = TB + (NB - 1) by omega]
    rw [e]
    have h0 := hm (TB + (NB - 2))
    have h1 := hm (TB + (NB - 1))
    generalize m (TB + (NB - 2)) = x at *
    generalize m (TB + (NB - 1)) = y at *
    by_cases hx : x + 1 = B
    · rw [hx, Nat.mod_self] at hb0
      rw [hb0, if_pos rfl] at hb1
      by_cases hy : y + 1 = B
      · rw [hy, Nat.mod_self] at hb1
        rw [if_pos ⟨hb0, hb1⟩, show B * B = B * y + B by rw [← Nat.mul_succ]; congr 1; omega]; omega
      · rw [Nat.mod_eq_of_lt (by omega)] at hb1
        rw [if_neg (by omega), hb0, hb1, Nat.mul_add]; omega
    · rw [Nat.mod_eq_of_lt (by omega)] at hb0
      rw [if_neg (by omega), Nat.add_zero, Nat.mod_eq_of_lt h1] at hb1
      rw [if_neg (by omega), hb0, hb1]; omega
  intro t m'
  have hm' : m' = divLoop B Q TA TB TP NB b0 b1 t.2 t.1 t.2 := rfl
  have ht : t = divTop B m Q TA TB NA NB := rfl
  unfold divTop at ht
  by_cases hc : m (TA + (NA + 1)) = 0 ∧ m (TA + NA) ≤ 1
  · rw [if_pos hc] at ht
    simp only at ht
    have w1 : AllW B (setW (setW m (Q + (NA - NB)) 0) (Q + (NA - NB + 1)) 0) := setW_allW (setW_allW hm _ hB0) _ hB0
    have s1 : Same m (setW (setW m (Q + (NA - NB)) 0) (Q + (NA - NB + 1)) 0) (Q + (NA - NB)) 2 := by
      intro x hx
      rw [setW_out _ _ _ _ (by omega), setW_out _ _ _ _ (by omega)]
    have q1 : setW (setW m (Q + (NA - NB)) 0) (Q + (NA - NB + 1)) 0 (Q + (NA - NB)) = 0 := by
      rw [setW_out _ _ _ _ (by omega), setW_same]
    have q1' : setW (setW m (Q + (NA - NB)) 0) (Q + (NA - NB + 1)) 0 (Q + (NA - NB + 1)) = 0 := setW_same _ _ _
    generalize setW (setW m (Q + (NA - NB)) 0) (Q + (NA - NB + 1)) 0 = m1 at *
    have eT1 : mval B m1 TB NB = mval B m TB NB := mval_same s1 (by omega)
    have eA1 : mval B m1 (TA + (NA - NB)) (NB + 1) = mval B m (TA + (NA - NB)) (NB + 1) := mval_same s1 (by omega)
    have hV1 : mval B m (TA + (NA - NB)) (NB + 1) < 4 * mval B m TB NB := by
      rw [mval_succ, show TA + (NA - NB) + NB = TA + NA by omega]
      have := mval_lt hm (TA + (NA - NB)) NB
      have : B ^ NB * m (TA + NA) ≤ B ^ NB * 1 := Nat.mul_le_mul_left _ hc.2
      omega
    have hVD : mval B m (TA + (NA - NB)) (NB + 1) / mval B m TB NB < B :=
      Nat.lt_of_lt_of_le ((Nat.div_lt_iff_lt_mul hDpos).mpr hV1) (by omega)
    obtain ⟨w2, s2, v2, q2⟩ := topLoop_spec (B := B) (by omega) (R := TA + (NA - NB)) (Q := Q + (NA - NB)) (Bp := TB) (N := NB) hNB2
      (by omega) (by omega) (by omega) B m1 w1 (by rw [eT1]; exact hDpos) (by
        rw [eT1, eA1]
        exact Nat.lt_of_lt_of_le hV1 (Nat.mul_le_mul_right _ (by omega))) (by rw [eT1, eA1, q1]; omega)
    rw [show TA + (NA - NB) + NB = TA + NA by omega] at w2 s2 v2 q2
    rw [eT1, eA1] at v2 q2
    rw [q1, Nat.zero_add] at q2
    generalize topLoop B (TA + (NA - NB)) (TA + NA) (Q + (NA - NB)) TB NB B m1 = m2 at *
    rw [ht] at hm'
    simp only at hm'
    have eT2 : mval B m2 TB NB = mval B m TB NB := by rw [mval_fr s2 (by omega) (by omega), eT1]
    have hlt2 : mval B m2 (TA + (NA - NB)) (NB + 1) < mval B m TB NB := by rw [v2]; exact Nat.mod_lt _ hDpos
    have hz2 : m2 (TA + NA) = 0 := by
      by_contra hne
      rw [mval_succ, show TA + (NA - NB) + NB = TA + NA by omega] at hlt2
      have : B ^ NB * 1 ≤ B ^ NB * m2 (TA + NA) := Nat.mul_le_mul_left _ (by omega)
      omega
    have hred : mval B m2 (TA + (NA - NB)) (NB + 1) = mval B m2 (TA + (NA - NB)) NB := by
      rw [mval_succ, show TA + (NA - NB) + NB = TA + NA by omega, hz2]; simp
    obtain ⟨g1, g2, g3, g4, g5⟩ := divLoop_spec hB hev (Q := Q) (TA := TA) (TB := TB) (TP := TP) (NB := NB) (b0 := b0) (b1 := b1)
      hNB2 hNB hb0l hb1l (by omega) NA NA m2 w2 (Nat.le_refl _) hNA hNA2 (by omega) (by omega) (by omega) (by omega) (by omega)
      (by rw [eT2]; exact hbt) (by rw [eT2]; exact hD) (by rw [eT2, ← hred]; exact hlt2)
    rw [← hm'] at g1 g2 g3 g4 g5
    rw [eT2] at g3 g4
    have hlow : mval B m2 TA (NA - NB) = mval B m TA (NA - NB) := by
      rw [mval_fr s2 (by omega) (by omega), mval_same s1 (by omega)]
    have hVs : mval B m TA (NA + 2) = mval B m TA (NA - NB) + B ^ (NA - NB) * mval B m (TA + (NA - NB)) (NB + 1) := by
      rw [mval_succ, hc.1, ← mval_add, show NA - NB + (NB + 1) = NA + 1 by omega]; simp
    have hV2s : mval B m2 TA NA = mval B m TA (NA - NB) + B ^ (NA - NB) * (mval B m (TA + (NA - NB)) (NB + 1) % mval B m TB NB) := by
      rw [← v2, hred, ← hlow, ← mval_add, show NA - NB + NB = NA by omega]
    have hrel : mval B m TA (NA + 2) = mval B m2 TA NA + mval B m TB NB * (B ^ (NA - NB) * (mval B m (TA + (NA - NB)) (NB + 1) / mval B m TB NB)) := by
      rw [hVs, hV2s]
      have := Nat.div_add_mod (mval B m (TA + (NA - NB)) (NB + 1)) (mval B m TB NB)
      generalize mval B m (TA + (NA - NB)) (NB + 1) / mval B m TB NB = qq at *
      generalize mval B m (TA + (NA - NB)) (NB + 1) % mval B m TB NB = rr at *
      rw [← this]; ring
    refine ⟨g1, ?_, ?_, ?_⟩
    · intro x h1 h2 h3
      rw [g2 x (by omega) (by omega) (by omega), s2 x (by omega) (by omega), s1 x (by omega)]
    · rw [hrel, Nat.add_mul_div_left _ _ hDpos, ← g4, mval_add, mval_two]
      rw [g2 (Q + (NA - NB)) (by omega) (by omega) (by omega), g2 (Q + (NA - NB) + 1) (by omega) (by omega) (by omega), q2,
        s2 (Q + (NA - NB) + 1) (by omega) (by omega), show Q + (NA - NB) + 1 = Q + (NA - NB + 1) by omega, q1']
      simp
    · have hz : m' (TA + NB) = 0 := by
        rcases Nat.lt_or_ge NB NA with h | h
        · exact g5 h
        · have : NA = NB := by omega
          rw [g2 _ (by omega) (by omega) (by omega), ← this, hz2]
      rw [mval_succ, hz, g3, hrel, Nat.add_mul_mod_self_left]; simp
  · rw [if_neg hc] at ht
    rw [ht] at hm'
    simp only at hm'
    have htop : mval B m (TA + (NA + 2 - NB)) NB < mval B m TB NB := by
      have e : mval B m TA (NA + 2) = mval B m TA (NA + 2 - NB) + B ^ (NA + 2 - NB) * mval B m (TA + (NA + 2 - NB)) NB := by
        rw [← mval_add, show NA + 2 - NB + NB = NA + 2 by omega]
      have e2 : B ^ (NA + 2) = B ^ (NA + 2 - NB) * B ^ NB := by rw [← pow_add]; congr 1; omega
      by_contra hcon
      have h1 : B ^ (NA + 2 - NB) * mval B m TB NB ≤ B ^ (NA + 2 - NB) * mval B m (TA + (NA + 2 - NB)) NB := Nat.mul_le_mul_left _ (by omega)
      have h2 : B ^ (NA + 2 - NB) * B ^ NB ≤ B ^ (NA + 2 - NB) * (2 * mval B m TB NB) := Nat.mul_le_mul_left _ hD
      rw [e2, e] at hV
      have h3 : B ^ (NA + 2 - NB) * (2 * mval B m TB NB) = 2 * (B ^ (NA + 2 - NB) * mval B m TB NB) := by ring
      omega
    obtain ⟨g1, g2, g3, g4, g5⟩ := divLoop_spec hB hev (Q := Q) (TA := TA) (TB := TB) (TP := TP) (NB := NB) (b0 := b0) (b1 := b1)
      hNB2 hNB hb0l hb1l (by omega) (NA + 2) (NA + 2) m hm (Nat.le_refl _) (by omega) (by omega) (by omega) (by omega) (by omega) (by omega)
      (by omega) hbt hD htop
    rw [← hm'] at g1 g2 g3 g4 g5
    rw [show NA + 2 - NB = NA - NB + 2 by omega] at g2 g4
    refine ⟨g1, g2, g4, ?_⟩
    rw [mval_succ, g5 (by omega), g3]; simp

set_option maxHeartbeats 1000000 in
/-- integer.cpp:2775: `Divide` computes the exact quotient and remainder. -/
theorem divideM_spec {W : Nat} (hW : 8 ≤ W) {m : WMem} (hm : AllW (2 ^ W) m) {R Q T A NA Bp NB : Nat}
    (hNB : 2 ≤ NB) (hNB2 : NB % 2 = 0) (hNA : NB ≤ NA) (hNA2 : NA % 2 = 0)
    (hA : A + NA ≤ T ∨ T + (NA + 3 * (NB + 2)) ≤ A) (hBp : Bp + NB ≤ T ∨ T + (NA + 3 * (NB + 2)) ≤ Bp)
    (hQ : Q + (NA - NB + 2) ≤ T ∨ T + (NA + 3 * (NB + 2)) ≤ Q) (hR : R + NB ≤ T ∨ T + (NA + 3 * (NB + 2)) ≤ R)
    (hRQ : R + NB ≤ Q ∨ Q + (NA - NB + 2) ≤ R)
    (hb : (2 ^ W) ^ (NB - 2) ≤ mval (2 ^ W) m Bp NB) :
    let m' := divideM W m R Q T A NA Bp NB
    AllW (2 ^ W) m' ∧ (∀ x, (x < T ∨ T + (NA + 3 * (NB + 2)) ≤ x) → (x < Q ∨ Q + (NA - NB + 2) ≤ x) → (x < R ∨ R + NB ≤ x) →
        m' x = m x) ∧
      mval (2 ^ W) m' Q (NA - NB + 2) = mval (2 ^ W) m A NA / mval (2 ^ W) m Bp NB ∧
      mval (2 ^ W) m' R NB = mval (2 ^ W) m A NA % mval (2 ^ W) m Bp NB := by
  intro m'
  have hm' : m' = divideM W m R Q T A NA Bp NB := rfl
  unfold divideM at hm'
  simp only at hm'
  have hB0 : 0 < 2 ^ W := Nat.two_pow_pos W
  have hB1 : 1 < 2 ^ W := Nat.one_lt_two_pow (by omega)
  have hbpos : 0 < mval (2 ^ W) m Bp NB := Nat.lt_of_lt_of_le (Nat.pow_pos hB0) hb
  obtain ⟨w1, s1, c1, c2, vB, vA, hD⟩ := divNormalize_spec hW hm (TA := T) (TB := T + NA + 2) (A := A) (NA := NA) (Bp := Bp) (NB := NB)
    hNB (by omega) (by omega) (by omega) hb
  generalize divNormalize W m T (T + NA + 2) A NA Bp NB = n at *
  obtain ⟨n1, sw, sb⟩ := n
  simp only at *
  have hspos : 0 < (2 ^ W) ^ sw * 2 ^ sb := Nat.mul_pos (Nat.pow_pos hB0) (Nat.two_pow_pos _)
  have hV : 2 * mval (2 ^ W) n1 T (NA + 2) < (2 ^ W) ^ (NA + 2) := by
    rw [vA]
    have e1 : (2 ^ W) ^ sw ≤ 2 ^ W := by
      calc (2 ^ W) ^ sw ≤ (2 ^ W) ^ 1 := Nat.pow_le_pow_right hB0 c1
        _ = _ := pow_one _
    have e2 : 2 ^ sb * 2 ≤ 2 ^ W := by rw [← pow_succ]; exact Nat.pow_le_pow_right (by omega) (by omega)
    calc 2 * (mval (2 ^ W) m A NA * ((2 ^ W) ^ sw * 2 ^ sb)) = mval (2 ^ W) m A NA * ((2 ^ W) ^ sw * (2 ^ sb * 2)) := by ring
      _ < (2 ^ W) ^ NA * ((2 ^ W) ^ sw * (2 ^ sb * 2)) := by
          apply Nat.mul_lt_mul_of_pos_right (mval_lt hm A NA)
          have := hspos; rw [← Nat.mul_assoc]; omega
      _ ≤ (2 ^ W) ^ NA * (2 ^ W * 2 ^ W) := Nat.mul_le_mul_left _ (Nat.mul_le_mul e1 e2)
      _ = _ := by ring
  -- the divisor estimate is read after the leading digit step, which leaves TB alone
  have htb : ∀ x, T + NA + 2 ≤ x → x < T + NA + 2 + NB → (divTop (2 ^ W) n1 Q T (T + NA + 2) NA NB).1 x = n1 x := by
    intro x h1 h2
    unfold divTop
    by_cases hc : n1 (T + (NA + 1)) = 0 ∧ n1 (T + NA) ≤ 1
    · rw [if_pos hc]
      simp only
      rw [topLoop_frame hB1 hNB2 (by omega) (by omega) (by omega) _ _ (setW_allW (setW_allW w1 _ hB0) _ hB0),
        setW_out _ _ _ _ (by omega), setW_out _ _ _ _ (by omega)]
    · rw [if_neg hc]
  rw [htb _ (by omega) (by omega), htb _ (by omega) (by omega)] at hm'
  obtain ⟨w2, s2, q2, r2⟩ := divCore_spec hW w1 (Q := Q) (TA := T) (TB := T + NA + 2) (TP := T + NA + 2 + NB) (NA := NA) (NB := NB)
    hNB hNB2 hNA hNA2 (by omega) (by omega) (by omega) rfl rfl hD hV
  generalize divLoop (2 ^ W) Q T (T + NA + 2) (T + NA + 2 + NB) NB ((n1 (T + NA + 2 + (NB - 2)) + 1) % 2 ^ W)
    ((n1 (T + NA + 2 + (NB - 1)) + if (n1 (T + NA + 2 + (NB - 2)) + 1) % 2 ^ W = 0 then 1 else 0) % 2 ^ W)
    (divTop (2 ^ W) n1 Q T (T + NA + 2) NA NB).2 (divTop (2 ^ W) n1 Q T (T + NA + 2) NA NB).1
    (divTop (2 ^ W) n1 Q T (T + NA + 2) NA NB).2 = m2 at *
  rw [vA, vB, Nat.mul_div_mul_right _ _ hspos] at q2
  have hXl : mval (2 ^ W) m2 T (NB + 1) < (2 ^ W) ^ NB := by
    rw [r2]
    exact Nat.lt_trans (Nat.mod_lt _ (by rw [vB]; exact Nat.mul_pos hbpos hspos)) (mval_lt w1 _ _)
  rw [vA, vB, Nat.mul_mod_mul_right] at r2
  obtain ⟨w3, s3, v3⟩ := mCopy_spec hB0 w2 R (T + sw) NB
  generalize mCopy m2 R (T + sw) NB = m3 at *
  obtain ⟨w4, s4, v4⟩ := mShr_spec c2 w3 R NB
  rw [← hm'] at w4 s4 v4
  refine ⟨w4, ?_, ?_, ?_⟩
  · intro x h1 h2 h3
    rw [s4 x h3, s3 x h3, s2 x (by omega) h2 (by omega), s1 x (by omega) (by omega)]
  · rw [mval_same s4 (by omega), mval_same s3 (by omega), q2]
  · rw [v4, v3]
    generalize mval (2 ^ W) m A NA % mval (2 ^ W) m Bp NB = X at *
    have e : mval (2 ^ W) m2 (T + sw) NB = X * 2 ^ sb := by
      rcases (by omega : sw = 0 ∨ sw = 1) with h | h
      · rw [h] at r2 ⊢
        rw [mval_succ] at r2
        rw [mval_succ] at hXl
        have hz : m2 (T + NB) = 0 := by
          by_contra hne
          have : (2 ^ W) ^ NB * 1 ≤ (2 ^ W) ^ NB * m2 (T + NB) := Nat.mul_le_mul_left _ (by omega)
          omega
        rw [hz] at r2
        simpa using r2
      · rw [h] at r2 ⊢
        rw [mval_succ_left, pow_one, ← Nat.mul_assoc, Nat.mul_comm X, Nat.mul_assoc] at r2
        have h0 : m2 T = 0 := by
          have h1 : (m2 T + 2 ^ W * mval (2 ^ W) m2 (T + 1) NB) % 2 ^ W = 0 := by rw [r2, Nat.mul_mod_right]
          rw [Nat.add_mul_mod_self_left, Nat.mod_eq_of_lt (w2 T)] at h1
          exact h1
        rw [h0, Nat.zero_add] at r2
        exact Nat.eq_of_mul_eq_mul_left hB0 r2
    rw [e, Nat.mul_div_cancel _ (Nat.two_pow_pos sb)]

end Verif.Integer
