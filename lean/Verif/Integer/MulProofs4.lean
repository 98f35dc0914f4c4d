import Verif.Integer.MulProofs3

/-!
# Correctness of `MultiplyTop` and `AsymmetricMultiply`
-/
namespace Verif.Integer

section
variable {B : Nat} (hB : 256 ≤ B)
include hB

set_option maxHeartbeats 1000000 in
/-- integer.cpp:2361: given the low half of the product, `MultiplyTop` computes the high half; scratch `T[2N]`. -/
theorem multiplyTopM_spec {m : WMem} (hm : AllW B m) {R T L A Bp N : Nat} (hN : Pow2 N)
    (hRT : R + N ≤ T ∨ T + 2 * N ≤ R) (hRL : R + N ≤ L ∨ L + N ≤ R) (hTL : T + 2 * N ≤ L ∨ L + N ≤ T)
    (hRA : R + N ≤ A ∨ A + N ≤ R) (hRB : R + N ≤ Bp ∨ Bp + N ≤ R)
    (hTA : T + 2 * N ≤ A ∨ A + N ≤ T) (hTB : T + 2 * N ≤ Bp ∨ Bp + N ≤ T)
    (hL : mval B m L N = mval B m A N * mval B m Bp N % B ^ N) :
    AllW B (multiplyTopM B m R T L A Bp N) ∧ Fr m (multiplyTopM B m R T L A Bp N) R N T (2 * N) ∧
      mval B (multiplyTopM B m R T L A Bp N) R N = mval B m A N * mval B m Bp N / B ^ N := by
  have h2 := hN.two_le
  unfold multiplyTopM
  by_cases hle : N ≤ 16
  · rw [if_pos hle]
    have hlw : m (L + (N - 1)) = mval B m A N * mval B m Bp N / B ^ (N - 1) % B := by
      have e : B ^ N = B ^ (N - 1) * B := by rw [← pow_succ, show N - 1 + 1 = N by omega]
      have hlow := mval_lt hm L (N - 1)
      have h1 := mval_add B m L (N - 1) 1
      rw [show N - 1 + 1 = N by omega, mval_one] at h1
      rw [h1, e, Nat.mod_mul] at hL
      have hp : 0 < B ^ (N - 1) := by positivity
      have h3 := congrArg (· / B ^ (N - 1)) hL
      rw [Nat.add_mul_div_left _ _ hp, Nat.add_mul_div_left _ _ hp, Nat.div_eq_of_lt hlow, Nat.zero_add,
        Nat.div_eq_of_lt (Nat.mod_lt _ hp), Nat.zero_add] at h3
      exact h3
    obtain ⟨h1, h2, h3⟩ := sTop_spec hB hm hN hle hRA hRB hlw
    exact ⟨h1, h2.fr _ _, h3⟩
  rw [if_neg hle]
  obtain ⟨hN2, hNN⟩ := hN.half (by omega)
  have hev := hN2.even
  have h2le := hN2.two_le
  generalize N / 2 = N2 at *
  subst hNN
  simp only
  obtain ⟨w1, s1, d1⟩ := absDiff_spec hB hm (R := R) (A := A) hev (by omega)
  generalize absDiff B m R A N2 = a1 at *
  obtain ⟨w2, s2, d2⟩ := absDiff_spec hB w1 (R := R + N2) (A := Bp) hev (by omega)
  generalize absDiff B a1.1 (R + N2) Bp N2 = a2 at *
  rw [mval_same (a := Bp) s1 (by omega), mval_same (a := Bp + N2) s1 (by omega)] at d2
  obtain ⟨w3, s3, v3⟩ := multiplyM_spec hB w2 (R := T) (T := T + (N2 + N2)) (A := R) (Bp := R + N2) hN2
    (by omega) (by omega) (by omega) (by omega) (by omega)
  generalize multiplyM B a2.1 T (T + (N2 + N2)) R (R + N2) N2 = m3 at *
  rw [mval_same (a := R) s2 (by omega), Nat.two_mul] at v3
  obtain ⟨w4, s4, v4⟩ := multiplyM_spec hB w3 (R := R) (T := T + (N2 + N2)) (A := A + N2) (Bp := Bp + N2) hN2
    (by omega) (by omega) (by omega) (by omega) (by omega)
  generalize multiplyM B m3 R (T + (N2 + N2)) (A + N2) (Bp + N2) N2 = m4 at *
  rw [mval_fr (a := A + N2) s3 (by omega) (by omega), mval_same (a := A + N2) s2 (by omega),
    mval_same (a := A + N2) s1 (by omega), mval_fr (a := Bp + N2) s3 (by omega) (by omega),
    mval_same (a := Bp + N2) s2 (by omega), mval_same (a := Bp + N2) s1 (by omega), Nat.two_mul] at v4
  rw [← mval_fr (m' := m4) (a := T) s4 (by omega) (by omega)] at v3
  have P1 := mval_add B m A N2 N2
  have P2 := mval_add B m Bp N2 N2
  have L1 := mval_lt hm A (N2 + N2)
  have L2 := mval_lt hm Bp (N2 + N2)
  have la := mval_lt hm A N2
  have lb := mval_lt hm Bp N2
  have eL : mval B m4 L (N2 + N2) = mval B m L (N2 + N2) := by
    rw [mval_fr s4 (by omega) (by omega), mval_fr s3 (by omega) (by omega), mval_same s2 (by omega), mval_same s1 (by omega)]
  obtain ⟨g1, g2, g3⟩ := topCombine_spec hB w4 (R := R) (T := T) (L := L) (N := N2 + N2) hev (by omega) rfl (by omega)
    hRL (by omega) (a1.2 == a2.2) (mval B m A (N2 + N2) * mval B m Bp (N2 + N2)) (mval B m A N2 * mval B m Bp N2) (by
      rw [v3, v4, P1, P2]
      push_cast
      rcases d1 with ⟨i1, j1⟩ | ⟨i1, j1⟩ <;> rcases d2 with ⟨i2, j2⟩ | ⟨i2, j2⟩ <;> rw [i1, i2, j1, j2]
      · simp; ring
      · rw [if_neg (by simp; omega)]; ring
      · rw [if_neg (by simp; omega)]; ring
      · simp; ring) (by rw [pow_add]; exact Nat.mul_lt_mul'' la lb) (by
      rw [Nat.two_mul, pow_add]
      exact Nat.mul_lt_mul'' L1 L2) (by
      rw [v4, P1, P2]
      generalize mval B m A N2 = x
      generalize mval B m Bp N2 = y
      generalize mval B m (A + N2) N2 = x'
      generalize mval B m (Bp + N2) N2 = y'
      generalize B ^ N2 = X
      calc X * X * (x' * y') = (X * x') * (X * y') := by ring
        _ ≤ _ := Nat.mul_le_mul (Nat.le_add_left _ _) (Nat.le_add_left _ _)) (by rw [eL, hL])
  refine ⟨g1, ?_, g3⟩
  intro x hx1 hx2
  rw [g2 x (by omega) (by omega), s4 x (by omega) (by omega), s3 x (by omega) (by omega), s2 x (by omega), s1 x (by omega)]

end

/-- `∑_{j<cnt} B^(2 NA j) * (block of NA words at p + 2 NA j)`: every other block. -/
def sblk (B : Nat) (m : WMem) (NA : Nat) : Nat → Nat → Nat
  | 0, _ => 0
  | cnt + 1, p => mval B m p NA + B ^ (2 * NA) * sblk B m NA cnt (p + 2 * NA)

theorem sblk_congr {B : Nat} {m m' : WMem} {NA : Nat} : ∀ (cnt p : Nat),
    (∀ x, p ≤ x → x + NA < p + 2 * NA * cnt → m' x = m x) → sblk B m' NA cnt p = sblk B m NA cnt p := by
  intro cnt
  induction cnt with
  | zero => intros; rfl
  | succ c ih =>
    intro p h
    rw [Nat.mul_succ] at h
    simp only [sblk]
    rw [ih (p + 2 * NA) (fun x h1 h2 => h x (by omega) (by omega)), mval_congr fun x h1 h2 => h x h1 (by
      have := Nat.zero_le (2 * NA * c); omega)]

theorem sblk_full (B : Nat) (m : WMem) (NA : Nat) : ∀ (cnt p : Nat),
    mval B m p (2 * NA * cnt) = sblk B m NA cnt p + B ^ NA * sblk B m NA cnt (p + NA) := by
  intro cnt
  induction cnt with
  | zero => intro p; simp [sblk, mval, loadW, wval]
  | succ c ih =>
    intro p
    rw [show 2 * NA * (c + 1) = NA + (NA + 2 * NA * c) by rw [Nat.mul_succ]; omega, mval_add, mval_add]
    simp only [sblk]
    rw [show p + NA + NA = p + 2 * NA by omega, ih, show p + NA + 2 * NA = p + 2 * NA + NA by omega, Nat.two_mul, pow_add]
    ring

theorem sblk_full_odd (B : Nat) (m : WMem) (NA c p : Nat) :
    mval B m p (2 * NA * c + NA) = sblk B m NA (c + 1) p + B ^ NA * sblk B m NA c (p + NA) := by
  rw [Nat.add_comm, mval_add, sblk_full]
  simp only [sblk]
  rw [show p + NA + NA = p + 2 * NA by omega, Nat.two_mul, pow_add]
  ring

theorem mulLoop_spec {B : Nat} (hB : 256 ≤ B) {D T A Bp NA NB : Nat} (hNA : Pow2 NA)
    (hTA : T + 2 * NA ≤ A ∨ A + NA ≤ T) (hTB : T + 2 * NA ≤ Bp ∨ Bp + NB ≤ T) : ∀ (cnt f : Nat) (m : WMem) (i : Nat),
    AllW B m → cnt ≤ f → (i + 2 * NA * cnt = NB ∨ i + 2 * NA * cnt = NB + NA) →
    (D + i + 2 * NA * cnt ≤ T ∨ T + 2 * NA ≤ D + i) → (D + i + 2 * NA * cnt ≤ A ∨ A + NA ≤ D + i) →
    (D + i + 2 * NA * cnt ≤ Bp ∨ Bp + NB ≤ D + i) →
    AllW B (mulLoop B D T A Bp NA NB f m i) ∧ Fr m (mulLoop B D T A Bp NA NB f m i) (D + i) (2 * NA * cnt) T (2 * NA) ∧
      mval B (mulLoop B D T A Bp NA NB f m i) (D + i) (2 * NA * cnt) = mval B m A NA * sblk B m NA cnt (Bp + i) := by
  have h2 := hNA.two_le
  intro cnt
  induction cnt with
  | zero =>
    intro f m i hm _ hi _ _ _
    have : mulLoop B D T A Bp NA NB f m i = m := by
      cases f with
      | zero => rfl
      | succ f => rw [mulLoop, if_neg (by omega)]
    rw [this]
    exact ⟨hm, fun x _ _ => rfl, by simp [sblk, mval, loadW, wval]⟩
  | succ c ih =>
    intro f m i hm hf hi hDT hDA hDB
    obtain ⟨f, rfl⟩ : ∃ g, f = g + 1 := ⟨f - 1, by omega⟩
    rw [Nat.mul_succ] at hi hDT hDA hDB
    have hc0 := Nat.zero_le (2 * NA * c)
    have hc1 : c = 0 ∨ 2 * NA ≤ 2 * NA * c := by
      rcases Nat.eq_zero_or_pos c with h | h
      · exact Or.inl h
      · right; exact Nat.le_mul_of_pos_right _ h
    rw [mulLoop, if_pos (by omega)]
    obtain ⟨w1, s1, v1⟩ := multiplyM_spec hB hm (R := D + i) (T := T) (A := A) (Bp := Bp + i) hNA (by omega) (by omega) (by omega)
      hTA (by omega)
    generalize multiplyM B m (D + i) T A (Bp + i) NA = m1 at *
    obtain ⟨g1, g2, g3⟩ := ih f m1 (i + 2 * NA) w1 (by omega) (by omega) (by omega) (by omega) (by omega)
    generalize mulLoop B D T A Bp NA NB f m1 (i + 2 * NA) = m2 at *
    refine ⟨g1, ?_, ?_⟩
    · intro x hx1 hx2
      rw [Nat.mul_succ] at hx1
      rw [g2 x (by omega) (by omega), s1 x (by omega) (by omega)]
    · rw [show 2 * NA * (c + 1) = 2 * NA + 2 * NA * c by rw [Nat.mul_succ]; omega, mval_add,
        mval_fr (a := D + i) g2 (by omega) (by omega), v1, show D + i + 2 * NA = D + (i + 2 * NA) by omega, g3,
        mval_fr (a := A) s1 (by omega) (by omega), sblk_congr (m := m) (m' := m1) c (Bp + (i + 2 * NA)) (fun x hx1 hx2 =>
          s1 x (by omega) (by omega))]
      simp only [sblk]
      rw [show Bp + i + 2 * NA = Bp + (i + 2 * NA) by omega]
      ring

/-- The closing addition of `AsymmetricMultiply`. -/
theorem asymFinish_spec {B : Nat} (hB : 256 ≤ B) {m : WMem} (hm : AllW B m) {R T NA NB : Nat} (hNA : NA % 2 = 0)
    (hpos : 0 < NA) (hNB : NB % 2 = 0) (hle : NA ≤ NB) (hRT : R + NA + NB ≤ T ∨ T + NA + NB ≤ R) (P : Nat)
    (hP : P = mval B m R (NA + NB) + B ^ NA * mval B m (T + 2 * NA) (NB - NA)) (hlt : P < B ^ (NA + NB)) :
    let r := mAdd B m (R + NA) (R + NA) (T + 2 * NA) (NB - NA)
    let m' := if r.2 ≠ 0 then (mInc B r.1 (R + NB) NA 1).1 else r.1
    AllW B m' ∧ Same m m' R (NA + NB) ∧ mval B m' R (NA + NB) = P := by
  intro r m'
  have hB1 : 1 < B := by omega
  obtain ⟨w1, s1, b1, v1⟩ := mAdd_spec hB1 hm (R + NA) (R + NA) (T + 2 * NA) (NB - NA) (by omega)
  change AllW B r.1 at w1
  change Same m r.1 _ _ at s1
  change r.2 ≤ 1 at b1
  change mval B r.1 _ _ + _ * r.2 = _ at v1
  have g : ∀ n : WMem, mval B n R (NA + NB) = mval B n R NA + B ^ NA * mval B n (R + NA) (NB - NA) + B ^ NB * mval B n (R + NB) NA := by
    intro n
    rw [show NA + NB = NA + (NB - NA) + NA by omega, mval_add, mval_add, show NA + (NB - NA) = NB by omega]
  have hXY : B ^ NB = B ^ NA * B ^ (NB - NA) := by rw [← pow_add]; congr 1; omega
  by_cases hc : r.2 = 0
  · have hm' : m' = r.1 := by simp [m', hc]
    rw [hm']
    refine ⟨w1, fun x hx => s1 x (by omega), ?_⟩
    rw [hP, g r.1, g m, mval_same (a := R) s1 (by omega), mval_same (a := R + NB) s1 (by omega)]
    rw [hc, Nat.mul_zero, Nat.add_zero] at v1
    rw [v1]; ring
  · have h1 : r.2 = 1 := by omega
    have hm' : m' = (mInc B r.1 (R + NB) NA 1).1 := by simp [m', hc]
    obtain ⟨w2, s2, b2, v2⟩ := mInc_spec hB1 w1 (R + NB) NA 1 (by omega) hpos
    rw [hm']
    generalize mInc B r.1 (R + NB) NA 1 = r2 at *
    rw [mval_same (a := R + NB) s1 (by omega)] at v2
    refine ⟨w2, fun x hx => by rw [s2 x (by omega), s1 x (by omega)], ?_⟩
    rw [g r2.1, mval_same (a := R) s2 (by omega), mval_same (a := R) s1 (by omega), mval_same (a := R + NA) s2 (by omega)]
    rw [g m] at hP
    rw [h1] at v1
    rw [pow_add, Nat.mul_comm] at hlt
    rw [hXY] at hP hlt ⊢
    generalize mval B m R NA = x0 at *
    generalize mval B m (R + NA) (NB - NA) = x1 at *
    generalize mval B m (R + NB) NA = x2 at *
    generalize mval B m (T + 2 * NA) (NB - NA) = t at *
    generalize mval B r.1 (R + NA) (NB - NA) = y1 at *
    generalize mval B r2.1 (R + NB) NA = y2 at *
    have hX : 0 < B ^ NA := by positivity
    generalize B ^ NA = X at *
    generalize B ^ (NB - NA) = Y at *
    have e : P = x0 + X * y1 + X * Y * (y2 + X * r2.2) := by
      have e' : (P : Int) = x0 + X * y1 + X * Y * (y2 + X * r2.2) := by
        have v1' : (y1 : Int) + Y * 1 = x1 + t := by exact_mod_cast v1
        have v2' : (y2 : Int) + X * r2.2 = x2 + 1 := by exact_mod_cast v2
        have hP' : (P : Int) = x0 + X * x1 + X * Y * x2 + X * t := by exact_mod_cast hP
        linear_combination hP' - X * v1' - X * Y * v2'
      exact_mod_cast e'
    have hz : r2.2 = 0 := by
      by_contra hne
      have h2 : r2.2 = 1 := by omega
      rw [h2] at e
      have : X * Y * X ≤ X * Y * (y2 + X * 1) := Nat.mul_le_mul_left _ (by omega)
      omega
    rw [e, hz]; simp

/-- integer.cpp:2469-2490. -/
theorem asymBlocks_spec {B : Nat} (hB : 256 ≤ B) {m : WMem} (hm : AllW B m) {R T A NA Bp NB : Nat} (hNA : Pow2 NA)
    (hdvd : NB % NA = 0) (hlt : NA < NB) (hRT : R + NA + NB ≤ T ∨ T + NA + NB ≤ R)
    (hRA : R + NA + NB ≤ A ∨ A + NA ≤ R) (hRB : R + NA + NB ≤ Bp ∨ Bp + NB ≤ R)
    (hTA : T + NA + NB ≤ A ∨ A + NA ≤ T) (hTB : T + NA + NB ≤ Bp ∨ Bp + NB ≤ T) :
    AllW B (asymBlocks B m R T A NA Bp NB) ∧ Fr m (asymBlocks B m R T A NA Bp NB) R (NA + NB) T (NA + NB) ∧
      mval B (asymBlocks B m R T A NA Bp NB) R (NA + NB) = mval B m A NA * mval B m Bp NB := by
  have h2 := hNA.two_le
  have hev := hNA.even
  have hNBe : NB % 2 = 0 := by
    obtain ⟨k, hk⟩ := Nat.dvd_of_mod_eq_zero hdvd
    obtain ⟨j, hj⟩ := Nat.dvd_of_mod_eq_zero hev
    rw [hk, hj, Nat.mul_assoc]; omega
  have hPlt : mval B m A NA * mval B m Bp NB < B ^ (NA + NB) := by
    rw [pow_add]; exact Nat.mul_lt_mul'' (mval_lt hm _ _) (mval_lt hm _ _)
  suffices hmain : ∀ m1 : WMem, AllW B m1 → Fr m m1 R (NA + NB) T (NA + NB) →
      mval B m A NA * mval B m Bp NB = mval B m1 R (NA + NB) + B ^ NA * mval B m1 (T + 2 * NA) (NB - NA) →
      let r := mAdd B m1 (R + NA) (R + NA) (T + 2 * NA) (NB - NA)
      let m' := if r.2 ≠ 0 then (mInc B r.1 (R + NB) NA 1).1 else r.1
      AllW B m' ∧ Fr m m' R (NA + NB) T (NA + NB) ∧ mval B m' R (NA + NB) = mval B m A NA * mval B m Bp NB by
    unfold asymBlocks
    simp only
    obtain ⟨k, hk⟩ := Nat.dvd_of_mod_eq_zero hdvd
    have hkdiv : NB / NA = k := by rw [hk, Nat.mul_div_cancel_left _ (by omega)]
    by_cases hpar : NB / NA % 2 = 0
    · rw [if_pos hpar]
      obtain ⟨c, hc⟩ : ∃ c, k = 2 * (c + 1) := by
        rw [hkdiv] at hpar
        have : k ≠ 0 := by rintro rfl; simp at hk; omega
        exact ⟨k / 2 - 1, by omega⟩
      have hNB : NB = 2 * NA * c + 2 * NA := by rw [hk, hc]; ring
      have hcle : c ≤ 2 * NA * c := Nat.le_mul_of_pos_left _ (by omega)
      obtain ⟨w1, s1, v1⟩ := multiplyM_spec hB hm (R := R) (T := T) (A := A) (Bp := Bp) hNA (by omega) (by omega) (by omega)
        (by omega) (by omega)
      generalize multiplyM B m R T A Bp NA = a at *
      obtain ⟨w2, s2, v2⟩ := mCopy_spec (by omega) w1 (T + 2 * NA) (R + NA) NA
      generalize mCopy a (T + 2 * NA) (R + NA) NA = b at *
      obtain ⟨w3, s3, v3⟩ := mulLoop_spec hB (D := T + NA) (T := T) (A := A) (Bp := Bp) (NB := NB) hNA (by omega) (by omega)
        c NB b (2 * NA) w2 (by omega) (by omega) (by omega) (by omega) (by omega)
      generalize mulLoop B (T + NA) T A Bp NA NB NB b (2 * NA) = d at *
      obtain ⟨w4, s4, v4⟩ := mulLoop_spec hB (D := R) (T := T) (A := A) (Bp := Bp) (NB := NB) hNA (by omega) (by omega)
        (c + 1) NB d NA w3 (by omega) (by rw [Nat.mul_succ]; omega) (by rw [Nat.mul_succ]; omega) (by rw [Nat.mul_succ]; omega)
        (by rw [Nat.mul_succ]; omega)
      generalize mulLoop B R T A Bp NA NB NB d NA = e at *
      rw [Nat.mul_succ] at s4 v4
      refine hmain e w4 ?_ ?_
      · intro x hx1 hx2
        rw [s4 x (by omega) (by omega), s3 x (by omega) (by omega), s2 x (by omega), s1 x (by omega) (by omega)]
      · have eT : mval B e (T + 2 * NA) (NB - NA) = mval B a (R + NA) NA + B ^ NA * (mval B m A NA * sblk B m NA c (Bp + 2 * NA)) := by
          rw [mval_fr s4 (by omega) (by omega), show NB - NA = NA + 2 * NA * c by omega, mval_add,
            mval_fr (a := T + 2 * NA) s3 (by omega) (by omega), v2, show T + 2 * NA + NA = T + NA + 2 * NA by omega, v3,
            mval_same (a := A) s2 (by omega), mval_fr (a := A) s1 (by omega) (by omega),
            sblk_congr (m := m) (m' := b) c (Bp + 2 * NA) (fun x h1 h2 => by
              rw [s2 x (by omega), s1 x (by omega) (by omega)])]
        have eR : mval B e R (NA + NB) = mval B a R NA + B ^ NA * (mval B m A NA * sblk B m NA (c + 1) (Bp + NA)) := by
          rw [show NA + NB = NA + (2 * NA * c + 2 * NA) by omega, mval_add, mval_fr (a := R) s4 (by omega) (by omega),
            mval_fr (a := R) s3 (by omega) (by omega), mval_same (a := R) s2 (by omega), v4,
            mval_fr (a := A) s3 (by omega) (by omega), mval_same (a := A) s2 (by omega),
            mval_fr (a := A) s1 (by omega) (by omega),
            sblk_congr (m := m) (m' := d) (c + 1) (Bp + NA) (fun x h1 h2 => by
              rw [Nat.mul_succ] at h2
              rw [s3 x (by omega) (by omega), s2 x (by omega), s1 x (by omega) (by omega)])]
        have hfull : mval B m Bp NB = sblk B m NA (c + 1) Bp + B ^ NA * sblk B m NA (c + 1) (Bp + NA) := by
          rw [← sblk_full, hNB, Nat.mul_succ]
        rw [Nat.two_mul, mval_add] at v1
        rw [eT, eR, hfull]
        have hs : sblk B m NA (c + 1) Bp = mval B m Bp NA + B ^ (2 * NA) * sblk B m NA c (Bp + 2 * NA) := rfl
        rw [hs, Nat.two_mul, pow_add]
        generalize mval B m A NA = α at *
        generalize sblk B m NA (c + 1) (Bp + NA) = so at *
        generalize sblk B m NA c (Bp + (NA + NA)) = se at *
        generalize mval B m Bp NA = b0 at *
        generalize B ^ NA = X at *
        generalize mval B a R NA = x at *
        generalize mval B a (R + NA) NA = y at *
        calc α * (b0 + X * X * se + X * so) = α * b0 + X * X * (α * se) + X * (α * so) := by ring
          _ = x + X * y + X * X * (α * se) + X * (α * so) := by rw [v1]
          _ = _ := by ring
    · rw [if_neg hpar]
      obtain ⟨c, hc⟩ : ∃ c, k = 2 * c + 1 := by
        rw [hkdiv] at hpar
        exact ⟨k / 2, by omega⟩
      have hNB : NB = 2 * NA * c + NA := by rw [hk, hc]; ring
      have hcle : c ≤ 2 * NA * c := Nat.le_mul_of_pos_left _ (by omega)
      obtain ⟨w1, s1, v1⟩ := mulLoop_spec hB (D := R) (T := T) (A := A) (Bp := Bp) (NB := NB) hNA (by omega) (by omega)
        (c + 1) NB m 0 hm (by omega) (by rw [Nat.mul_succ]; omega) (by rw [Nat.mul_succ]; omega) (by rw [Nat.mul_succ]; omega)
        (by rw [Nat.mul_succ]; omega)
      generalize mulLoop B R T A Bp NA NB NB m 0 = a at *
      rw [Nat.mul_succ] at s1 v1
      obtain ⟨w2, s2, v2⟩ := mulLoop_spec hB (D := T + NA) (T := T) (A := A) (Bp := Bp) (NB := NB) hNA (by omega) (by omega)
        c NB a NA w1 (by omega) (by omega) (by omega) (by omega) (by omega)
      generalize mulLoop B (T + NA) T A Bp NA NB NB a NA = b at *
      refine hmain b w2 ?_ ?_
      · intro x hx1 hx2
        rw [s2 x (by omega) (by omega), s1 x (by omega) (by omega)]
      · have eT : mval B b (T + 2 * NA) (NB - NA) = mval B m A NA * sblk B m NA c (Bp + NA) := by
          rw [show NB - NA = 2 * NA * c by omega, show T + 2 * NA = T + NA + NA by omega, v2,
            mval_fr (a := A) s1 (by omega) (by omega),
            sblk_congr (m := m) (m' := a) c (Bp + NA) (fun x h1 h2 => by
              rw [s1 x (by omega) (by omega)])]
        have eR : mval B b R (NA + NB) = mval B m A NA * sblk B m NA (c + 1) Bp := by
          rw [mval_fr s2 (by omega) (by omega), show NA + NB = 2 * NA * c + 2 * NA by omega]
          exact v1
        rw [eT, eR, hNB, sblk_full_odd]; ring
  intro m1 w1 s1 hval
  obtain ⟨g1, g2, g3⟩ := asymFinish_spec hB w1 (R := R) (T := T) (NA := NA) (NB := NB) hev (by omega) hNBe (by omega) hRT _ hval hPlt
  exact ⟨g1, fun x hx1 hx2 => by rw [g2 x hx1, s1 x hx1 hx2], g3⟩

/-- integer.cpp:2449-2490. -/
theorem asymOrdered_spec {B : Nat} (hB : 256 ≤ B) {m : WMem} (hm : AllW B m) {R T A NA Bp NB : Nat} (hNA : Pow2 NA)
    (hdvd : NB % NA = 0) (hlt : NA < NB) (hRT : R + NA + NB ≤ T ∨ T + NA + NB ≤ R)
    (hRA : R + NA + NB ≤ A ∨ A + NA ≤ R) (hRB : R + NA + NB ≤ Bp ∨ Bp + NB ≤ R)
    (hTA : T + NA + NB ≤ A ∨ A + NA ≤ T) (hTB : T + NA + NB ≤ Bp ∨ Bp + NB ≤ T) :
    AllW B (asymOrdered B m R T A NA Bp NB) ∧ Fr m (asymOrdered B m R T A NA Bp NB) R (NA + NB) T (NA + NB) ∧
      mval B (asymOrdered B m R T A NA Bp NB) R (NA + NB) = mval B m A NA * mval B m Bp NB := by
  have hB0 : 0 < B := by omega
  unfold asymOrdered
  by_cases h2 : NA = 2 ∧ m (A + 1) = 0
  · rw [if_pos h2]
    obtain ⟨rfl, hz⟩ := h2
    have hA : mval B m A 2 = m A := by
      rw [show (2 : Nat) = 1 + 1 by omega, mval_add, mval_one, mval_one, hz]; simp
    have htop : ∀ (n : WMem), mval B n R (2 + NB) = mval B n R NB + B ^ NB * n (R + NB) + B ^ NB * B * n (R + (NB + 1)) := by
      intro n
      rw [show 2 + NB = NB + 1 + 1 by omega, mval_add, mval_add, mval_one, mval_one, pow_succ]
    rw [hA]
    by_cases h0 : m A = 0
    · rw [if_pos h0, h0]
      obtain ⟨g1, g2, g3⟩ := mZero_spec hB0 hm R (NB + 2)
      refine ⟨g1, fun x hx1 _ => g2 x (by omega), ?_⟩
      rw [Nat.add_comm 2 NB, g3]; simp
    rw [if_neg h0]
    by_cases h1 : m A = 1
    · rw [if_pos h1, h1]
      obtain ⟨g1, g2, g3⟩ := mCopy_spec hB0 hm R Bp NB
      simp only
      generalize mCopy m R Bp NB = n at *
      refine ⟨setW_allW (setW_allW g1 _ hB0) _ hB0, ?_, ?_⟩
      · intro x hx1 _
        rw [setW_out _ _ _ _ (by omega), setW_out _ _ _ _ (by omega), g2 x (by omega)]
      · rw [htop, setW_same, setW_out _ _ _ _ (by omega), setW_same, ← g3]
        rw [mval_congr (m' := setW (setW n (R + (NB + 1)) 0) (R + NB) 0) (m := n) (fun x h1 h2 => by
          rw [setW_out _ _ _ _ (by omega), setW_out _ _ _ _ (by omega)])]
        ring
    rw [if_neg h1]
    obtain ⟨g1, g2, g3, g4⟩ := mLinear_spec (by omega) hm R Bp (m A) NB (hm A)
    simp only
    generalize mLinear B m R Bp (m A) NB = r at *
    refine ⟨setW_allW (setW_allW g1 _ g3) _ hB0, ?_, ?_⟩
    · intro x hx1 _
      rw [setW_out _ _ _ _ (by omega), setW_out _ _ _ _ (by omega), g2 x (by omega)]
    · rw [htop, setW_same, setW_out _ _ _ _ (by omega), setW_same]
      rw [mval_congr (m' := setW (setW r.1 (R + NB) r.2) (R + (NB + 1)) 0) (m := r.1) (fun x h1 h2 => by
        rw [setW_out _ _ _ _ (by omega), setW_out _ _ _ _ (by omega)])]
      rw [Nat.mul_zero, Nat.add_zero, g4]; ring
  · rw [if_neg h2]
    exact asymBlocks_spec hB hm hNA hdvd hlt hRT hRA hRB hTA hTB

/-- integer.cpp:2430: `AsymmetricMultiply` computes the full product. -/
theorem asymmetricMultiply_spec {B : Nat} (hB : 256 ≤ B) (hev : B % 2 = 0) {m : WMem} (hm : AllW B m) {R T A NA Bp NB : Nat}
    (hN : (NA ≤ NB ∧ Pow2 NA ∧ NB % NA = 0) ∨ (NB ≤ NA ∧ Pow2 NB ∧ NA % NB = 0))
    (hRT : R + NA + NB ≤ T ∨ T + NA + NB ≤ R)
    (hRA : R + NA + NB ≤ A ∨ A + NA ≤ R) (hRB : R + NA + NB ≤ Bp ∨ Bp + NB ≤ R)
    (hTA : T + NA + NB ≤ A ∨ A + NA ≤ T) (hTB : T + NA + NB ≤ Bp ∨ Bp + NB ≤ T) :
    AllW B (asymmetricMultiply B m R T A NA Bp NB) ∧
      Fr m (asymmetricMultiply B m R T A NA Bp NB) R (NA + NB) T (NA + NB) ∧
      mval B (asymmetricMultiply B m R T A NA Bp NB) R (NA + NB) = mval B m A NA * mval B m Bp NB := by
  unfold asymmetricMultiply
  by_cases he : NA = NB
  · subst he
    rw [if_pos rfl]
    have hp : Pow2 NA := by rcases hN with h | h <;> exact h.2.1
    by_cases hab : A ≠ Bp
    · rw [if_pos hab]
      have := multiplyM_spec hB hm (R := R) (T := T) (A := A) (Bp := Bp) hp (by omega) (by omega) (by omega) (by omega) (by omega)
      rwa [Nat.two_mul] at this
    · rw [if_neg hab]
      have hab' : A = Bp := by omega
      subst hab'
      have := squareM_spec hB hev hm (R := R) (T := T) (A := A) hp (by omega) (by omega) (by omega)
      rwa [Nat.two_mul] at this
  · rw [if_neg he]
    by_cases hgt : NA > NB
    · rw [if_pos hgt]
      have hp : Pow2 NB ∧ NA % NB = 0 := by
        rcases hN with h | h
        · omega
        · exact h.2
      have := asymOrdered_spec hB hm (R := R) (T := T) (A := Bp) (NA := NB) (Bp := A) (NB := NA) hp.1 hp.2 hgt (by omega)
        (by omega) (by omega) (by omega) (by omega)
      rwa [Nat.add_comm NB NA, Nat.mul_comm] at this
    · rw [if_neg hgt]
      have hp : Pow2 NA ∧ NB % NA = 0 := by
        rcases hN with h | h
        · exact h.2
        · omega
      exact asymOrdered_spec hB hm hp.1 hp.2 (by omega) hRT hRA hRB hTA hTB

end Verif.Integer
