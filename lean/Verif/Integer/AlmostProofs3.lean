import Verif.Integer.AlmostProofs2

/-!
# `DivideByPower2Mod` and `MultiplyByPower2Mod`
-/
namespace Verif.Integer

theorem half_step {W N : Nat} (hW : 1 ≤ W) (hN : 0 < N) {m : WMem} (hm : AllW (2 ^ W) m) {R c v : Nat} (hc : c ≤ 1)
    (hv : mval (2 ^ W) m R N = v / 2) (hvlt : v < (2 ^ W) ^ N) (hev : v % 2 = 0) :
    AllW (2 ^ W) (setW m (R + (N - 1)) ((m (R + (N - 1)) + (c <<< (W - 1)) % 2 ^ W) % 2 ^ W)) ∧
      2 * mval (2 ^ W) (setW m (R + (N - 1)) ((m (R + (N - 1)) + (c <<< (W - 1)) % 2 ^ W) % 2 ^ W)) R N = v + (2 ^ W) ^ N * c := by
  have hB : 0 < 2 ^ W := Nat.two_pow_pos W
  have eW : 2 ^ W = 2 * 2 ^ (W - 1) := by
    rw [Nat.mul_comm, ← pow_succ, show W - 1 + 1 = W by omega]
  have eN : (2 ^ W) ^ N = (2 ^ W) ^ (N - 1) * 2 ^ W := by rw [← pow_succ, show N - 1 + 1 = N by omega]
  refine ⟨setW_allW hm _ (Nat.mod_lt _ hB), ?_⟩
  have e := mval_succ (2 ^ W) m R (N - 1)
  have e' := mval_succ (2 ^ W) (setW m (R + (N - 1)) ((m (R + (N - 1)) + (c <<< (W - 1)) % 2 ^ W) % 2 ^ W)) R (N - 1)
  rw [show N - 1 + 1 = N by omega] at e e'
  rw [setW_same, mval_same (setW_sameR m (R + (N - 1)) _) (a := R) (n := N - 1) (by omega)] at e'
  have hsh : (c <<< (W - 1)) % 2 ^ W = 2 ^ (W - 1) * c := by
    rw [Nat.shiftLeft_eq, Nat.mul_comm, Nat.mod_eq_of_lt]
    have := Nat.mul_le_mul_left (2 ^ (W - 1)) hc
    have hp := Nat.two_pow_pos (W - 1)
    omega
  have htop : m (R + (N - 1)) < 2 ^ (W - 1) := by
    have h1 : (2 ^ W) ^ (N - 1) * m (R + (N - 1)) * 2 < (2 ^ W) ^ (N - 1) * 2 ^ W := by
      rw [← eN]
      have : (2 ^ W) ^ (N - 1) * m (R + (N - 1)) ≤ v / 2 := by omega
      omega
    rw [Nat.mul_assoc] at h1
    have := Nat.lt_of_mul_lt_mul_left h1
    omega
  have hmod : (m (R + (N - 1)) + 2 ^ (W - 1) * c) % 2 ^ W = m (R + (N - 1)) + 2 ^ (W - 1) * c := by
    apply Nat.mod_eq_of_lt
    have := Nat.mul_le_mul_left (2 ^ (W - 1)) hc
    omega
  rw [hsh, hmod] at e' ⊢
  have e2 : (2 ^ W) ^ N * c = 2 * ((2 ^ W) ^ (N - 1) * (2 ^ (W - 1) * c)) := by rw [eN, eW]; ring
  rw [e', e2, Nat.mul_add ((2 ^ W) ^ (N - 1))]
  omega

theorem divPow2Loop_spec {W : Nat} (hW : 8 ≤ W) {R M N V : Nat} (hN : 0 < N) (hN2 : N % 2 = 0) (hRM : R + N ≤ M ∨ M + N ≤ R) (hodd : V % 2 = 1) :
    ∀ (k : Nat) (m : WMem), AllW (2 ^ W) m → mval (2 ^ W) m M N = V → mval (2 ^ W) m R N < V →
    AllW (2 ^ W) (divPow2Loop W R M N k m) ∧ Same m (divPow2Loop W R M N k m) R N ∧
      mval (2 ^ W) (divPow2Loop W R M N k m) R N < V ∧
      mval (2 ^ W) (divPow2Loop W R M N k m) R N * 2 ^ k % V = mval (2 ^ W) m R N % V := by
  have hB1 : 1 < 2 ^ W := Nat.one_lt_pow (by omega) (by omega)
  intro k
  induction k with
  | zero => intro m hm _ hlt; exact ⟨hm, fun x _ => rfl, hlt, by simp [divPow2Loop]⟩
  | succ k ih =>
    intro m hm hM hlt
    rw [divPow2Loop]
    have hpar : mval (2 ^ W) m R N % 2 = m R % 2 := by
      obtain ⟨n, rfl⟩ : ∃ j, N = j + 1 := ⟨N - 1, by omega⟩
      obtain ⟨j, hj⟩ : ∃ j, W = j + 1 := ⟨W - 1, by omega⟩
      rw [mval_succ_left]
      have : 2 ^ W * mval (2 ^ W) m (R + 1) n = 2 * (2 ^ j * mval (2 ^ W) m (R + 1) n) := by
        rw [← Nat.mul_assoc, show 2 * 2 ^ j = 2 ^ W by rw [hj]; ring]
      rw [this]; omega
    have fin : ∀ (m1 : WMem), AllW (2 ^ W) m1 → Same m m1 R N → mval (2 ^ W) m1 R N < V →
        (2 * mval (2 ^ W) m1 R N) % V = mval (2 ^ W) m R N % V →
        AllW (2 ^ W) (divPow2Loop W R M N k m1) ∧ Same m (divPow2Loop W R M N k m1) R N ∧
          mval (2 ^ W) (divPow2Loop W R M N k m1) R N < V ∧
          mval (2 ^ W) (divPow2Loop W R M N k m1) R N * 2 ^ (k + 1) % V = mval (2 ^ W) m R N % V := by
      intro m1 w1 s1 l1 v1
      obtain ⟨a, b, c, d⟩ := ih m1 w1 (by rw [mval_same s1 (by omega), hM]) l1
      refine ⟨a, fun x hx => by rw [b x hx, s1 x hx], c, ?_⟩
      rw [pow_succ, ← Nat.mul_assoc, Nat.mul_mod, d, ← Nat.mul_mod, Nat.mul_comm, v1]
    by_cases hev : m R % 2 = 0
    · rw [if_pos hev]
      obtain ⟨w1, s1, v1⟩ := mShr_spec (s := 1) (by omega) hm R N
      rw [pow_one] at v1
      exact fin _ w1 s1 (by omega) (by rw [v1]; congr 1; omega)
    · rw [if_neg hev]
      simp only
      obtain ⟨w1, s1, b1, v1⟩ := mAdd_spec hB1 hm R R M N hN2
      generalize mAdd (2 ^ W) m R R M N = r1 at *
      obtain ⟨w2, s2, v2⟩ := mShr_spec (s := 1) (by omega) w1 R N
      rw [pow_one] at v2
      generalize mShr W r1.1 R N 1 = m2 at *
      rw [hM] at v1
      have hevN : ∃ q, (2 ^ W) ^ N = 2 * q := by
        obtain ⟨n, rfl⟩ : ∃ j, N = j + 1 := ⟨N - 1, by omega⟩
        obtain ⟨j, hj⟩ : ∃ j, W = j + 1 := ⟨W - 1, by omega⟩
        exact ⟨(2 ^ W) ^ n * 2 ^ j, by rw [pow_succ]; nth_rw 2 [hj]; ring⟩
      obtain ⟨q, hq⟩ := hevN
      have hr1 : mval (2 ^ W) r1.1 R N % 2 = 0 := by
        rw [hq, Nat.mul_assoc] at v1
        omega
      obtain ⟨w3, v3⟩ := half_step (by omega) hN w2 b1 v2 (mval_lt w1 R N) hr1
      have s3 := setW_sameR m2 (R + (N - 1)) ((m2 (R + (N - 1)) + (r1.2 <<< (W - 1)) % 2 ^ W) % 2 ^ W)
      generalize setW m2 (R + (N - 1)) ((m2 (R + (N - 1)) + (r1.2 <<< (W - 1)) % 2 ^ W) % 2 ^ W) = m3 at *
      rw [v1] at v3
      exact fin _ w3 (fun x hx => by rw [s3 x (by omega), s2 x hx, s1 x hx]) (by omega) (by rw [v3]; simp)

theorem divideByPower2Mod_spec {W : Nat} (hW : 8 ≤ W) {m : WMem} (hm : AllW (2 ^ W) m) {R A k M N : Nat} (hN : 0 < N) (hN2 : N % 2 = 0)
    (hRM : R + N ≤ M ∨ M + N ≤ R) (hodd : mval (2 ^ W) m M N % 2 = 1) (hA : mval (2 ^ W) m A N < mval (2 ^ W) m M N) :
    AllW (2 ^ W) (divideByPower2Mod W m R A k M N) ∧ Same m (divideByPower2Mod W m R A k M N) R N ∧
      mval (2 ^ W) (divideByPower2Mod W m R A k M N) R N < mval (2 ^ W) m M N ∧
      mval (2 ^ W) (divideByPower2Mod W m R A k M N) R N * 2 ^ k % mval (2 ^ W) m M N = mval (2 ^ W) m A N % mval (2 ^ W) m M N := by
  obtain ⟨w1, s1, v1⟩ := mCopy_spec (Nat.two_pow_pos W) hm R A N
  obtain ⟨a, b, c, d⟩ := divPow2Loop_spec hW hN hN2 hRM hodd k (mCopy m R A N) w1 (mval_same s1 (by omega)) (by rw [v1]; exact hA)
  exact ⟨a, fun x hx => by unfold divideByPower2Mod; rw [b x hx, s1 x hx], c, by rw [v1] at d; exact d⟩

theorem mulPow2Loop_spec {W : Nat} (hW : 8 ≤ W) {R M N V : Nat} (hN2 : N % 2 = 0) (hRM : R + N ≤ M ∨ M + N ≤ R) :
    ∀ (k : Nat) (m : WMem), AllW (2 ^ W) m → mval (2 ^ W) m M N = V → mval (2 ^ W) m R N < V →
    AllW (2 ^ W) (mulPow2Loop W R M N k m) ∧ Same m (mulPow2Loop W R M N k m) R N ∧
      mval (2 ^ W) (mulPow2Loop W R M N k m) R N < V ∧
      mval (2 ^ W) (mulPow2Loop W R M N k m) R N % V = mval (2 ^ W) m R N * 2 ^ k % V := by
  have hB1 : 1 < 2 ^ W := Nat.one_lt_pow (by omega) (by omega)
  intro k
  induction k with
  | zero => intro m hm _ hlt; exact ⟨hm, fun x _ => rfl, hlt, by simp [mulPow2Loop]⟩
  | succ k ih =>
    intro m hm hM hlt
    rw [mulPow2Loop]
    have fin : ∀ (m1 : WMem), AllW (2 ^ W) m1 → Same m m1 R N → mval (2 ^ W) m1 R N < V →
        mval (2 ^ W) m1 R N % V = mval (2 ^ W) m R N * 2 % V →
        AllW (2 ^ W) (mulPow2Loop W R M N k m1) ∧ Same m (mulPow2Loop W R M N k m1) R N ∧
          mval (2 ^ W) (mulPow2Loop W R M N k m1) R N < V ∧
          mval (2 ^ W) (mulPow2Loop W R M N k m1) R N % V = mval (2 ^ W) m R N * 2 ^ (k + 1) % V := by
      intro m1 w1 s1 l1 v1
      obtain ⟨a, b, c, d⟩ := ih m1 w1 (by rw [mval_same s1 (by omega), hM]) l1
      refine ⟨a, fun x hx => by rw [b x hx, s1 x hx], c, ?_⟩
      rw [d, Nat.mul_mod, v1, ← Nat.mul_mod]
      congr 1
      rw [pow_succ]; ring
    obtain ⟨w1, s1, c1, v1⟩ := mShlC_spec (s := 1) (by omega) hm R N
    rw [pow_one] at v1 c1
    generalize mShlC W m R N 1 = r1 at *
    have hM1 : mval (2 ^ W) r1.1 M N = V := by rw [mval_same s1 (by omega), hM]
    have hVlt : V < (2 ^ W) ^ N := by rw [← hM]; exact mval_lt hm _ _
    have hcmp := mCmp_spec w1 R M N
    rw [hM1] at hcmp
    have hlt1 := mval_lt w1 R N
    by_cases hge : V ≤ 2 * mval (2 ^ W) m R N
    · have hcond : r1.2 ≠ 0 ∨ mCmp r1.1 R M N ≥ 0 := by
        rcases (by omega : r1.2 = 0 ∨ r1.2 = 1) with h | h
        · right
          rw [h] at v1
          rw [hcmp]
          split
          · decide
          · rw [if_neg (by omega)]
        · left; omega
      rw [if_pos hcond]
      obtain ⟨w2, s2, b2, v2⟩ := mSub_spec hB1 w1 R R M N hN2
      rw [hM1] at v2
      generalize mSub (2 ^ W) r1.1 R R M N = r2 at *
      have hl2 := mval_lt w2 R N
      have hv : mval (2 ^ W) r2.1 R N = 2 * mval (2 ^ W) m R N - V := by
        rcases (by omega : r1.2 = 0 ∨ r1.2 = 1) with h | h <;> rcases (by omega : r2.2 = 0 ∨ r2.2 = 1) with h' | h' <;>
          rw [h] at v1 <;> rw [h'] at v2 <;> omega
      refine fin _ w2 (fun x hx => by rw [s2 x hx, s1 x hx]) (by omega) ?_
      rw [hv]
      conv_rhs => rw [show mval (2 ^ W) m R N * 2 = (2 * mval (2 ^ W) m R N - V) + V by omega]
      simp
    · have h0 : r1.2 = 0 := by
        rcases (by omega : r1.2 = 0 ∨ r1.2 = 1) with h | h
        · exact h
        · rw [h] at v1; omega
      rw [h0] at v1
      have hcond : ¬ (r1.2 ≠ 0 ∨ mCmp r1.1 R M N ≥ 0) := by
        rintro (h | h)
        · exact h h0
        · rw [hcmp, if_neg (by omega), if_pos (by omega)] at h
          omega
      rw [if_neg hcond]
      exact fin _ w1 s1 (by omega) (by congr 1)

theorem multiplyByPower2Mod_spec {W : Nat} (hW : 8 ≤ W) {m : WMem} (hm : AllW (2 ^ W) m) {R A k M N : Nat} (hN2 : N % 2 = 0)
    (hRM : R + N ≤ M ∨ M + N ≤ R) (hA : mval (2 ^ W) m A N < mval (2 ^ W) m M N) :
    AllW (2 ^ W) (multiplyByPower2Mod W m R A k M N) ∧ Same m (multiplyByPower2Mod W m R A k M N) R N ∧
      mval (2 ^ W) (multiplyByPower2Mod W m R A k M N) R N < mval (2 ^ W) m M N ∧
      mval (2 ^ W) (multiplyByPower2Mod W m R A k M N) R N % mval (2 ^ W) m M N
        = mval (2 ^ W) m A N * 2 ^ k % mval (2 ^ W) m M N := by
  obtain ⟨w1, s1, v1⟩ := mCopy_spec (Nat.two_pow_pos W) hm R A N
  obtain ⟨a, b, c, d⟩ := mulPow2Loop_spec hW hN2 hRM k (mCopy m R A N) w1 (mval_same s1 (by omega)) (by rw [v1]; exact hA)
  exact ⟨a, fun x hx => by unfold multiplyByPower2Mod; rw [b x hx, s1 x hx], c, by rw [v1] at d; exact d⟩

end Verif.Integer
