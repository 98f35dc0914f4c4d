import Verif.Integer.DivCls
import Mathlib.Tactic.LinearCombination

/-!
# Inverses modulo powers of two and Montgomery reduction (proofs about integer.cpp:188-199 and 2493-2541)
-/
namespace Verif.Integer

theorem atomicInv_step {W R A j : Nat} (h : (2 ^ j : Int) ∣ (R : Int) * A - 1) :
    (2 ^ min (j * 2) W : Int) ∣ ((R * ((2 + (2 ^ W - R * A % 2 ^ W)) % 2 ^ W) % 2 ^ W : Nat) : Int) * A - 1 := by
  obtain ⟨k, hk⟩ := h
  have hlt : R * A % 2 ^ W < 2 ^ W := Nat.mod_lt _ (Nat.pow_pos (by omega))
  have e1 := Nat.div_add_mod (R * A) (2 ^ W)
  have e2 := Nat.div_add_mod (2 + (2 ^ W - R * A % 2 ^ W)) (2 ^ W)
  have e3 := Nat.div_add_mod (R * ((2 + (2 ^ W - R * A % 2 ^ W)) % 2 ^ W)) (2 ^ W)
  generalize hu : (2 + (2 ^ W - R * A % 2 ^ W)) % 2 ^ W = u at *
  generalize hr : R * u % 2 ^ W = r at *
  generalize (2 + (2 ^ W - R * A % 2 ^ W)) / 2 ^ W = q2 at *
  generalize R * u / 2 ^ W = q3 at *
  generalize R * A / 2 ^ W = q1 at *
  generalize R * A % 2 ^ W = s at *
  have e2' : 2 ^ W * q2 + u + s = 2 + 2 ^ W := by omega
  have d1 : (2 ^ min (j * 2) W : Int) ∣ 2 ^ W := pow_dvd_pow 2 (by omega)
  have d2 : (2 ^ min (j * 2) W : Int) ∣ 2 ^ (j * 2) := pow_dvd_pow 2 (by omega)
  have e1 : (2 ^ W : Int) * q1 + s = R * A := by exact_mod_cast e1
  have e2' : (2 ^ W : Int) * q2 + u + s = 2 + 2 ^ W := by exact_mod_cast e2'
  have e3 : (2 ^ W : Int) * q3 + r = R * u := by exact_mod_cast e3
  have key : (r : Int) * A - 1 = 2 ^ W * (R * A * (1 + q1 - q2) - q3 * A) + 2 ^ (j * 2) * (-(k * k)) := by
    have hk2 : (2 ^ (j * 2) : Int) * (-(k * k)) = -((R : Int) * A - 1) ^ 2 := by
      rw [hk, pow_mul]; ring
    rw [hk2]
    linear_combination A * e3 - R * A * e1 + R * A * e2'
  rw [key]
  exact Int.dvd_add (Dvd.dvd.mul_right d1 _) (Dvd.dvd.mul_right d2 _)

theorem atomicInvLoop_spec {W A : Nat} : ∀ (f R i : Nat), 0 < i → W ≤ i * 2 ^ f → (2 ^ min i W : Int) ∣ (R : Int) * A - 1 →
    (2 ^ W : Int) ∣ (atomicInvLoop W A f R i : Int) * A - 1 := by
  intro f
  induction f with
  | zero =>
    intro R i hi hf h
    simp only [atomicInvLoop]
    rwa [show min i W = W by omega] at h
  | succ f ih =>
    intro R i hi hf h
    simp only [atomicInvLoop]
    split
    · rename_i hlt
      rw [show min i W = i by omega] at h
      exact ih _ _ (by omega) (by rw [pow_succ] at hf; rw [Nat.mul_assoc, Nat.mul_comm 2]; exact hf) (atomicInv_step h)
    · rename_i hlt
      rwa [show min i W = W by omega] at h

theorem atomicInvLoop_lt {W A : Nat} : ∀ (f R i : Nat), R < 2 ^ W → atomicInvLoop W A f R i < 2 ^ W := by
  intro f
  induction f with
  | zero => intro R i h; exact h
  | succ f ih =>
    intro R i h
    simp only [atomicInvLoop]
    split
    · exact ih _ _ (Nat.mod_lt _ (Nat.pow_pos (by omega)))
    · exact h

theorem odd_sq_mod8 {A : Nat} (h : A % 2 = 1) : (8 : Int) ∣ ((A % 8 : Nat) : Int) * A - 1 := by
  have e := Nat.div_add_mod A 8
  have hlt : A % 8 < 8 := Nat.mod_lt _ (by omega)
  generalize A % 8 = r at *
  generalize A / 8 = q at *
  have hr : r = 1 ∨ r = 3 ∨ r = 5 ∨ r = 7 := by omega
  subst e
  rcases hr with rfl | rfl | rfl | rfl
  · exact ⟨q, by push_cast; ring⟩
  · exact ⟨3 * q + 1, by push_cast; ring⟩
  · exact ⟨5 * q + 3, by push_cast; ring⟩
  · exact ⟨7 * q + 6, by push_cast; ring⟩

theorem atomicInverse_spec {W A : Nat} (hW : 3 ≤ W) (h : A % 2 = 1) :
    atomicInverseModPower2 W A < 2 ^ W ∧ (2 ^ W : Int) ∣ (atomicInverseModPower2 W A : Int) * A - 1 := by
  refine ⟨atomicInvLoop_lt _ _ _ ?_, atomicInvLoop_spec _ _ _ (by omega) ?_ ?_⟩
  · calc A % 8 < 2 ^ 3 := Nat.mod_lt _ (by omega)
      _ ≤ 2 ^ W := Nat.pow_le_pow_right (by omega) hW
  · have := Nat.lt_two_pow_self (n := W)
    omega
  · rw [show min 3 W = 3 by omega]
    exact odd_sq_mod8 h

/-- Doubling the precision of an inverse: the arithmetic of one step of `RecursiveInverseModPower2`. -/
theorem inv_double {X a0 a1 r0 h s c t r1 : Nat} (hX : 0 < X) (h1 : r0 * a0 = 1 + X * h) (hsX : s < X)
    (hs : s + X * c = h + r0 * a1 % X) (ht : t = (X - s) % X) (hr : r1 = r0 * t % X) :
    ((X * X : Nat) : Int) ∣ ((r0 + X * r1 : Nat) : Int) * ((a0 + X * a1 : Nat) : Int) - 1 := by
  have e1 := Nat.div_add_mod (r0 * a1) X
  have e2 := Nat.div_add_mod (r0 * t) X
  have e3 := Nat.div_add_mod (X - s) X
  rw [← hr] at e2
  rw [← ht] at e3
  generalize r0 * a1 / X = q1 at *
  generalize r0 * a1 % X = b at *
  generalize r0 * t / X = q2 at *
  generalize (X - s) / X = q3 at *
  have e3' : X * q3 + t + s = X := by omega
  clear ht hr e3
  zify at h1 hs e1 e2 e3'
  refine ⟨1 - q3 + q1 + c + t * h - q2 * a0 + r1 * a1, ?_⟩
  push_cast
  linear_combination (1 + X * t) * h1 - X * hs + X * e3' - X * e1 + X * a0 * e2

theorem inv_newton {X a i s u v c r : Nat} (hX : 1 < X) (h1 : (X : Int) ∣ (i : Int) * a - 1) (hs : s = i * a % (X * X))
    (hu : u = (X * X - s) % (X * X)) (hv : v + X * X * c = u + 2) (hr : r = i * v % (X * X)) :
    ((X * X : Nat) : Int) ∣ (r : Int) * a - 1 := by
  obtain ⟨k, hk⟩ := h1
  have hpos : 0 < X * X := Nat.mul_pos (by omega) (by omega)
  have hlt := Nat.mod_lt (i * a) hpos
  have e1 := Nat.div_add_mod (i * a) (X * X)
  have e2 := Nat.div_add_mod (X * X - s) (X * X)
  have e3 := Nat.div_add_mod (i * v) (X * X)
  rw [← hs] at e1 hlt
  rw [← hu] at e2
  rw [← hr] at e3
  generalize i * a / (X * X) = q1 at *
  generalize (X * X - s) / (X * X) = q2 at *
  generalize i * v / (X * X) = q3 at *
  have e2' : X * X * q2 + u + s = X * X := by omega
  clear hs hu hr e2 hlt
  zify at hv e1 e2' e3
  refine ⟨(i : Int) * a * (1 - q2 + q1 - c) - q3 * a - k * k, ?_⟩
  push_cast
  have hk2 : (X : Int) * X * (k * k) = ((i : Int) * a - 1) ^ 2 := by rw [hk]; ring
  linear_combination a * e3 + i * a * hv + i * a * e2' - i * a * e1 + hk2

theorem Fr.trans {m m' m'' : WMem} {R n T k : Nat} (h1 : Fr m m' R n T k) (h2 : Fr m' m'' R n T k) : Fr m m'' R n T k :=
  fun x hx hy => (h2 x hx hy).trans (h1 x hx hy)

theorem Fr.mono {m m' : WMem} {R n T k R' n' T' k' : Nat} (h : Fr m m' R' n' T' k')
    (h1 : ∀ x, (x < R ∨ R + n ≤ x) → (x < T ∨ T + k ≤ x) → (x < R' ∨ R' + n' ≤ x) ∧ (x < T' ∨ T' + k' ≤ x)) :
    Fr m m' R n T k := fun x hx hy => h x (h1 x hx hy).1 (h1 x hx hy).2

theorem int_dvd_one_mod {X x : Nat} (hX : 1 < X) (h : (X : Int) ∣ (x : Int) - 1) : x % X = 1 ∧ x = 1 + X * (x / X) := by
  have h1 : (x : Int) % X = 1 % X := by
    exact (Int.emod_emod_of_dvd x (dvd_refl _)).symm.trans (by
      rw [Int.emod_emod_of_dvd x (dvd_refl _)]; exact Int.emod_eq_emod_iff_emod_sub_eq_zero.mpr (Int.emod_eq_zero_of_dvd h))
  have h2 : x % X = 1 := by
    have : x % X = 1 % X := by exact_mod_cast h1
    rwa [Nat.mod_eq_of_lt hX] at this
  refine ⟨h2, ?_⟩
  have := Nat.div_add_mod x X
  omega

set_option maxHeartbeats 1000000 in
theorem recInv_spec {W : Nat} (hW : 8 ≤ W) : ∀ (f N : Nat) (m : WMem) (R T A K : Nat), AllW (2 ^ W) m → N ≤ f → Pow2 N →
    m A % 2 = 1 → 3 * N ≤ 2 * K → 4 ≤ K →
    (R + N ≤ T ∨ T + K ≤ R) → (R + N ≤ A ∨ A + N ≤ R) → (T + K ≤ A ∨ A + N ≤ T) →
    AllW (2 ^ W) (recInv W f m R T A N) ∧ Fr m (recInv W f m R T A N) R N T K ∧
      (((2 ^ W) ^ N : Nat) : Int) ∣ (mval (2 ^ W) (recInv W f m R T A N) R N : Int) * mval (2 ^ W) m A N - 1 := by
  intro f
  induction f with
  | zero => intro N m R T A K _ h hN; have := hN.two_le; omega
  | succ f ih =>
    intro N m R T A K hm hf hN hodd hK hK4 hRT hRA hTA
    have hB : 256 ≤ 2 ^ W := by
      calc 256 = 2 ^ 8 := rfl
        _ ≤ 2 ^ W := Nat.pow_le_pow_right (by omega) hW
    obtain ⟨hi1, hi2⟩ := atomicInverse_spec (W := W) (A := m A) (by omega) hodd
    have hi2' : ((2 ^ W : Nat) : Int) ∣ (atomicInverseModPower2 W (m A) : Int) * m A - 1 := by exact_mod_cast hi2
    clear hi2
    rw [recInv]
    simp only
    generalize hBe : 2 ^ W = B at *
    have hB1 : 1 < B := by omega
    by_cases hN2 : N ≠ 2
    · rw [if_pos hN2]
      obtain ⟨hP, hNN⟩ := hN.half (by have := hN.two_le; obtain ⟨k, rfl⟩ := hN; rcases k with _ | k <;> simp_all; omega)
      have hev := hP.even
      have h2le := hP.two_le
      generalize N / 2 = M at *
      subst hNN
      obtain ⟨w1, s1, v1⟩ := ih M m R T A K hm (by omega) hP hodd (by omega) hK4 (by omega) (by omega) (by omega)
      generalize recInv W f m R T A M = m1 at *
      have hXpos : 1 < B ^ M := Nat.one_lt_pow (by omega) hB1
      have v1' : ((B ^ M : Nat) : Int) ∣ ((mval B m1 R M * mval B m A M : Nat) : Int) - 1 := by exact_mod_cast v1
      obtain ⟨lo, spl⟩ := int_dvd_one_mod hXpos v1'
      have w2 : AllW B (setW m1 T 1) := setW_allW w1 _ (by omega)
      obtain ⟨w3, s3, v3⟩ := mZero_spec (by omega) w2 (T + 1) (M - 1)
      have f3 : Same m1 (mZero (setW m1 T 1) (T + 1) (M - 1)) T M := fun x hx => by
        rw [s3 x (by omega), setW_out _ _ _ _ (by omega)]
      have one3 : mval B (mZero (setW m1 T 1) (T + 1) (M - 1)) T M = 1 := by
        have e := mval_succ_left B (mZero (setW m1 T 1) (T + 1) (M - 1)) T (M - 1)
        rw [show M - 1 + 1 = M by omega, v3, s3 T (by omega), setW_same] at e
        simpa using e
      generalize mZero (setW m1 T 1) (T + 1) (M - 1) = m3 at *
      have vA3 : mval B m3 A M = mval B m A M := by
        rw [mval_same f3 (by omega), mval_fr s1 (by omega) (by omega)]
      have vR3 : mval B m3 R M = mval B m1 R M := mval_same f3 (by omega)
      obtain ⟨w4, s4, v4⟩ := multiplyTopM_spec hB w3 (R := R + M) (T := T + M) (L := T) (A := R) (Bp := A) hP (by omega)
        (by omega) (by omega) (by omega) (by omega) (by omega) (by omega) (by rw [one3, vR3, vA3, lo])
      rw [vR3, vA3] at v4
      generalize multiplyTopM B m3 (R + M) (T + M) T R A M = m4 at *
      obtain ⟨w5, s5, v5⟩ := multiplyBottomM_spec hB w4 (R := T) (T := T + M) (A := R) (Bp := A + M) hP (by omega)
        (by omega) (by omega) (by omega) (by omega)
      have vR4 : mval B m4 R M = mval B m1 R M := by rw [mval_fr s4 (by omega) (by omega), vR3]
      have vA4 : mval B m4 (A + M) M = mval B m (A + M) M := by
        rw [mval_fr s4 (by omega) (by omega), mval_same f3 (by omega), mval_fr s1 (by omega) (by omega)]
      rw [vR4, vA4] at v5
      generalize multiplyBottomM B m4 T (T + M) R (A + M) M = m5 at *
      obtain ⟨w6, s6, b6, v6⟩ := mAdd_spec hB1 w5 T (R + M) T M hev
      rw [mval_fr (a := R + M) s5 (by omega) (by omega), v4, v5] at v6
      generalize mAdd B m5 T (R + M) T M = r6 at *
      obtain ⟨w7, s7, v7⟩ := mNeg_spec hB1 w6 T M (by omega)
      generalize mNeg B r6.1 T M = m7 at *
      obtain ⟨w8, s8, v8⟩ := multiplyBottomM_spec hB w7 (R := R + M) (T := T + M) (A := R) (Bp := T) hP (by omega)
        (by omega) (by omega) (by omega) (by omega)
      have vR7 : mval B m7 R M = mval B m1 R M := by
        rw [mval_same s7 (by omega), mval_same s6 (by omega), mval_fr s5 (by omega) (by omega), vR4]
      rw [vR7] at v8
      generalize multiplyBottomM B m7 (R + M) (T + M) R T M = m8 at *
      refine ⟨w8, ?_, ?_⟩
      · intro x hx hy
        rw [s8 x (by omega) (by omega), s7 x (by omega), s6 x (by omega), s5 x (by omega) (by omega), s4 x (by omega) (by omega),
          f3 x (by omega), s1 x (by omega) (by omega)]
      · have hr0 : mval B m8 R M = mval B m1 R M := by rw [mval_fr s8 (by omega) (by omega), vR7]
        have := inv_double (by omega) spl (mval_lt w6 T M) v6 v7 v8
        rw [mval_add, mval_add, pow_add, hr0]
        exact this
    · rw [if_neg hN2]
      have hN2' : N = 2 := by omega
      subst hN2'
      have w1 : AllW B (setW m T (atomicInverseModPower2 W (m A))) := setW_allW hm _ hi1
      have w2 : AllW B (setW (setW m T (atomicInverseModPower2 W (m A))) (T + 1) 0) := setW_allW w1 _ (by omega)
      have f2 : Same m (setW (setW m T (atomicInverseModPower2 W (m A))) (T + 1) 0) T 2 := fun x hx => by
        rw [setW_out _ _ _ _ (by omega), setW_out _ _ _ _ (by omega)]
      have t2 : mval B (setW (setW m T (atomicInverseModPower2 W (m A))) (T + 1) 0) T 2 = atomicInverseModPower2 W (m A) := by
        rw [mval_succ, mval_one, setW_same, setW_out _ _ _ _ (by omega), setW_same]; simp
      generalize setW (setW m T (atomicInverseModPower2 W (m A))) (T + 1) 0 = m2 at *
      generalize atomicInverseModPower2 W (m A) = i at *
      obtain ⟨w3, s3, v3⟩ := sBot_spec hB w2 (R := T + 2) (A := T) (Bp := A) hN (by omega) (by omega) (by omega)
      rw [t2, mval_same f2 (by omega)] at v3
      simp only [Nat.reduceDiv] at w3 s3 v3
      generalize sBot B 0 m2 (T + 2) T A = m3 at *
      obtain ⟨w4, s4, v4⟩ := mNeg_spec hB1 w3 (T + 2) 2 (by omega)
      generalize mNeg B m3 (T + 2) 2 = m4 at *
      obtain ⟨w5, s5, b5, v5⟩ := mInc_spec hB1 w4 (T + 2) 2 2 (by omega) (by omega)
      generalize mInc B m4 (T + 2) 2 2 = r5 at *
      obtain ⟨w6, s6, v6⟩ := sBot_spec hB w5 (R := R) (A := T) (Bp := T + 2) hN (by omega) (by omega) (by omega)
      rw [mval_same (a := T) s5 (by omega), mval_same (a := T) s4 (by omega), mval_same (a := T) s3 (by omega), t2] at v6
      simp only [Nat.reduceDiv] at w6 s6 v6
      generalize sBot B 0 r5.1 R T (T + 2) = m6 at *
      refine ⟨w6, ?_, ?_⟩
      · intro x hx hy
        rw [s6 x (by omega), s5 x (by omega), s4 x (by omega), s3 x (by omega), f2 x (by omega)]
      · rw [pow_two] at *
        have hA : (B : Int) ∣ (i : Int) * mval B m A 2 - 1 := by
          have e : mval B m A 2 = m A + B * m (A + 1) := by rw [mval_succ, mval_one, pow_one]
          rw [e]
          obtain ⟨k, hk⟩ := hi2'
          exact ⟨k + i * m (A + 1), by push_cast; linear_combination hk⟩
        exact inv_newton hB1 hA v3 v4 v5 v6

theorem recursiveInverse_spec {W : Nat} (hW : 8 ≤ W) {m : WMem} (hm : AllW (2 ^ W) m) {R T A N K : Nat} (hN : Pow2 N)
    (hodd : m A % 2 = 1) (hK : 3 * N ≤ 2 * K) (hK4 : 4 ≤ K) (hRT : R + N ≤ T ∨ T + K ≤ R) (hRA : R + N ≤ A ∨ A + N ≤ R)
    (hTA : T + K ≤ A ∨ A + N ≤ T) :
    AllW (2 ^ W) (recursiveInverseModPower2 W m R T A N) ∧ Fr m (recursiveInverseModPower2 W m R T A N) R N T K ∧
      mval (2 ^ W) (recursiveInverseModPower2 W m R T A N) R N * mval (2 ^ W) m A N % (2 ^ W) ^ N = 1 := by
  obtain ⟨h1, h2, h3⟩ := recInv_spec hW N N m R T A K hm (Nat.le_refl _) hN hodd hK hK4 hRT hRA hTA
  refine ⟨h1, h2, ?_⟩
  have : 1 < (2 ^ W) ^ N := Nat.one_lt_pow (by have := hN.two_le; omega) (Nat.one_lt_pow (by omega) (by omega))
  exact (int_dvd_one_mod this (by exact_mod_cast h3)).1

theorem mont_arith {Q M U xl xh r t d bw e c res : Nat} (hxl : xl < Q) (hxh : xh < M) (hU : U * M % Q = 1)
    (hQM : M < Q) (hr : r = xl * U % Q) (ht : t = r * M / Q) (hd : d + t = xh + Q * bw) (hdQ : d < Q) (hbw : bw ≤ 1)
    (he : e + Q * c = d + M) (heQ : e < Q) (hres : res = if bw ≠ 0 then e else d) :
    xl = r * M % Q ∧ res < M ∧ ∃ k : Nat, res * Q + r * M = xl + Q * xh + k * Q * M := by
  have hQ : 0 < Q := by omega
  have h1 : r * M % Q = xl := by
    rw [hr, Nat.mod_mul_mod, Nat.mul_assoc, Nat.mul_mod, hU, Nat.mul_one, Nat.mod_mod, Nat.mod_eq_of_lt hxl]
  have hrM := Nat.div_add_mod (r * M) Q
  rw [h1, ← ht] at hrM
  have hrQ : r < Q := by rw [hr]; exact Nat.mod_lt _ hQ
  have htM : t < M := by
    have : Q * t < Q * M := by
      calc Q * t ≤ r * M := by omega
        _ < Q * M := Nat.mul_lt_mul_of_pos_right hrQ (by omega)
    exact Nat.lt_of_mul_lt_mul_left this
  refine ⟨h1.symm, ?_, ?_⟩
  · rcases (by omega : bw = 0 ∨ bw = 1) with rfl | rfl
    · rw [hres]; simp; omega
    · rw [hres]; simp only [ne_eq, one_ne_zero, not_false_eq_true, if_true]
      rcases Nat.eq_zero_or_pos c with rfl | hc
      · omega
      · have : Q * 1 ≤ Q * c := Nat.mul_le_mul_left _ hc
        omega
  · rcases (by omega : bw = 0 ∨ bw = 1) with rfl | rfl
    · rw [hres]
      refine ⟨0, ?_⟩
      simp only [ne_eq, not_true_eq_false, if_false]
      have : d + t = xh := by omega
      rw [← hrM, ← this]; ring
    · rw [hres]; simp only [ne_eq, one_ne_zero, not_false_eq_true, if_true]
      have hc : c = 1 := by
        rcases Nat.lt_trichotomy c 1 with h | h | h
        · have : c = 0 := by omega
          subst this; omega
        · exact h
        · have : Q * 2 ≤ Q * c := Nat.mul_le_mul_left _ h
          omega
      subst hc
      refine ⟨1, ?_⟩
      have h2 : e + t = xh + M := by omega
      rw [← hrM]
      have h3 : (e + t) * Q = (xh + M) * Q := by rw [h2]
      calc e * Q + (Q * t + xl) = (e + t) * Q + xl := by ring
        _ = (xh + M) * Q + xl := by rw [h3]
        _ = xl + Q * xh + 1 * Q * M := by ring

/-- `MontgomeryReduce`: a reduced residue congruent to `X / B^N`. -/
theorem montgomeryReduce_spec {B : Nat} (hB : 256 ≤ B) {m : WMem} (hm : AllW B m) {R T X M U N : Nat} (hN : Pow2 N)
    (hRT : R + N ≤ T ∨ T + 3 * N ≤ R) (hRX : R + N ≤ X ∨ X + 2 * N ≤ R) (hRM : R + N ≤ M ∨ M + N ≤ R)
    (hRU : R + N ≤ U ∨ U + N ≤ R) (hTX : T + 3 * N ≤ X ∨ X + 2 * N ≤ T) (hTM : T + 3 * N ≤ M ∨ M + N ≤ T)
    (hTU : T + 3 * N ≤ U ∨ U + N ≤ T) (hU : mval B m U N * mval B m M N % B ^ N = 1)
    (hX : mval B m X (2 * N) < B ^ N * mval B m M N) :
    AllW B (montgomeryReduce B m R T X M U N) ∧ Fr m (montgomeryReduce B m R T X M U N) R N T (3 * N) ∧
      mval B (montgomeryReduce B m R T X M U N) R N < mval B m M N ∧
      mval B (montgomeryReduce B m R T X M U N) R N * B ^ N % mval B m M N = mval B m X (2 * N) % mval B m M N := by
  have hev := hN.even
  have h2le := hN.two_le
  have hB1 : 1 < B := by omega
  unfold montgomeryReduce
  simp only
  obtain ⟨w1, s1, v1⟩ := multiplyBottomM_spec hB hm (R := R) (T := T) (A := X) (Bp := U) hN (by omega) (by omega) (by omega)
    (by omega) (by omega)
  generalize multiplyBottomM B m R T X U N = m1 at *
  have vX1 : mval B m1 X N = mval B m X N := mval_fr s1 (by omega) (by omega)
  have vXh1 : mval B m1 (X + N) N = mval B m (X + N) N := mval_fr s1 (by omega) (by omega)
  have vM1 : mval B m1 M N = mval B m M N := mval_fr s1 (by omega) (by omega)
  have hxl : mval B m X N = mval B m1 R N * mval B m M N % B ^ N := by
    rw [v1, Nat.mod_mul_mod, Nat.mul_assoc, Nat.mul_mod, hU, Nat.mul_one, Nat.mod_mod, Nat.mod_eq_of_lt (mval_lt hm _ _)]
  obtain ⟨w2, s2, v2⟩ := multiplyTopM_spec hB w1 (R := T) (T := T + N) (L := X) (A := R) (Bp := M) hN (by omega)
    (by omega) (by omega) (by omega) (by omega) (by omega) (by omega) (by rw [vX1, vM1, hxl])
  rw [vM1] at v2
  generalize multiplyTopM B m1 T (T + N) X R M N = m2 at *
  obtain ⟨w3, s3, b3, v3⟩ := mSub_spec hB1 w2 T (X + N) T N hev
  rw [mval_fr (a := X + N) s2 (by omega) (by omega), vXh1] at v3
  generalize mSub B m2 T (X + N) T N = r3 at *
  obtain ⟨w4, s4, b4, v4⟩ := mAdd_spec hB1 w3 (T + N) T M N hev
  rw [mval_same (a := M) s3 (by omega), mval_fr (a := M) s2 (by omega) (by omega), vM1] at v4
  generalize mAdd B r3.1 (T + N) T M N = r4 at *
  obtain ⟨w5, s5, v5⟩ := mCopy_spec (by omega) w4 R (T + (if r3.2 ≠ 0 then N else 0)) N
  have hres : mval B (mCopy r4.1 R (T + (if r3.2 ≠ 0 then N else 0)) N) R N
      = if r3.2 ≠ 0 then mval B r4.1 (T + N) N else mval B r3.1 T N := by
    rw [v5]
    by_cases hb : r3.2 ≠ 0
    · rw [if_pos hb, if_pos hb]
    · rw [if_neg hb, if_neg hb]; exact mval_same s4 (by omega)
  generalize mCopy r4.1 R (T + (if r3.2 ≠ 0 then N else 0)) N = m5 at *
  have hsplit : mval B m X (2 * N) = mval B m X N + B ^ N * mval B m (X + N) N := by
    rw [show 2 * N = N + N by omega, mval_add]
  have hxh : mval B m (X + N) N < mval B m M N := by
    have : B ^ N * mval B m (X + N) N < B ^ N * mval B m M N := by omega
    exact Nat.lt_of_mul_lt_mul_left this
  obtain ⟨_, hlt, k, hk⟩ := mont_arith (mval_lt hm X N) hxh hU (mval_lt hm M N) v1 v2 v3 (mval_lt w3 T N) b3 v4
    (mval_lt w4 _ _) hres
  refine ⟨w5, ?_, hlt, ?_⟩
  · intro x hx hy
    rw [s5 x (by omega), s4 x (by omega), s3 x (by omega), s2 x (by omega) (by omega), s1 x (by omega) (by omega)]
  · rw [hsplit]
    have e := congrArg (· % mval B m M N) hk
    simp only [Nat.add_mul_mod_self_right] at e
    exact e

end Verif.Integer
