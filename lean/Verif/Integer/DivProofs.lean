import Verif.Integer.DivModel

/-!
# Correctness of the small divisions: three words by two, four words by two
-/
namespace Verif.Integer

theorem dsub_cast {B : Nat} (hB : 0 < B) (x y : Nat) : (dsub B x y : Int) = ((x : Int) - y) % ((B * B : Nat) : Int) := by
  unfold dsub
  have : (0 : Int) < ((B * B : Nat) : Int) := by exact_mod_cast Nat.mul_pos hB hB
  exact Int.toNat_of_nonneg (Int.emod_nonneg _ (by omega))

theorem dsub_lt {B : Nat} (hB : 0 < B) (x y : Nat) : dsub B x y < B * B := by
  have h : (0 : Int) < ((B * B : Nat) : Int) := by exact_mod_cast Nat.mul_pos hB hB
  have := Int.emod_lt_of_pos ((x : Int) - y) h
  rw [← dsub_cast hB] at this
  exact_mod_cast this

/-- Subtracting one word from another in double-word arithmetic. -/
theorem dsub_word {B a p : Nat} (hB : 1 < B) (ha : a < B) (hp : p < B) :
    asBorrow B (dsub B a p) ≤ 1 ∧ ((dsub B a p % B : Nat) : Int) = a - p + B * asBorrow B (dsub B a p) := by
  have hBB : B * B = B * (B - 1) + B := by
    calc B * B = B * (B - 1 + 1) := by rw [Nat.sub_add_cancel (by omega)]
      _ = _ := by ring
  have hb1 : B ≤ B * (B - 1) := Nat.le_mul_of_pos_right _ (by omega)
  by_cases h : p ≤ a
  · have e : dsub B a p = a - p := by
      have := dsub_cast (B := B) (by omega) a p
      rw [Int.emod_eq_of_lt (by omega) (by omega)] at this
      omega
    rw [e]
    have h1 : (a - p) / B = 0 := Nat.div_eq_of_lt (by omega)
    unfold asBorrow
    rw [h1, Nat.sub_zero, Nat.mod_self, Nat.mod_eq_of_lt (by omega : a - p < B)]
    omega
  · have e : dsub B a p = B * (B - 1) + (B + a - p) := by
      have := dsub_cast (B := B) (by omega) a p
      rw [← Int.add_emod_right, Int.emod_eq_of_lt (by omega) (by omega)] at this
      omega
    rw [e]
    have h1 : (B * (B - 1) + (B + a - p)) / B = B - 1 := by
      rw [Nat.mul_add_div (by omega), Nat.div_eq_of_lt (by omega)]; omega
    have h2 : (B * (B - 1) + (B + a - p)) % B = B + a - p := by
      rw [Nat.mul_add_mod, Nat.mod_eq_of_lt (by omega)]
    unfold asBorrow
    rw [h1, h2, show B - (B - 1) = 1 by omega, Nat.mod_eq_of_lt hB]
    omega

/-- The three-word subtraction performed by `DivideThreeWordsByTwo`. -/
theorem sub3_core {B a0 a1 a2 p v : Nat} (hB : 1 < B) (h0 : a0 < B) (hp : p < B) (s : Int)
    (hv : (v : Int) = ((a1 : Int) - asBorrow B (dsub B a0 p) - s) % ((B * B : Nat) : Int)) (V : Nat)
    (hV : (V : Int) = a0 + B * a1 + B * B * a2 - p - B * s) (hlt : V < B * B * B) :
    dsub B a0 p % B + B * (v % B) + B * B * ((a2 + v / B) % B) = V := by
  obtain ⟨hb, hu⟩ := dsub_word hB h0 hp
  have hu1 : dsub B a0 p % B < B := Nat.mod_lt _ (by omega)
  generalize asBorrow B (dsub B a0 p) = bw at *
  generalize dsub B a0 p % B = w0 at *
  have hd := Int.emod_add_mul_ediv ((a1 : Int) - bw - s) ((B * B : Nat) : Int)
  rw [← hv] at hd
  generalize ((a1 : Int) - bw - s) / ((B * B : Nat) : Int) = k at hd
  have hvm := Nat.div_add_mod v B
  have hv1 : v % B < B := Nat.mod_lt _ (by omega)
  generalize v % B = w1 at *
  generalize v / B = w at *
  have hBi : (0 : Int) < B := by omega
  have key : (V : Int) = w0 + B * w1 + B * B * ((a2 : Int) + w + B * k) := by
    have hvm' : (B : Int) * w + w1 = v := by exact_mod_cast hvm
    push_cast at hd
    rw [hV]
    linear_combination -hu - B * hd - B * hvm'
  have hlow : (w0 : Int) + B * w1 < B * B := by
    have : (B : Int) * (w1 + 1) ≤ B * B := mul_le_mul_of_nonneg_left (by omega) hBi.le
    linarith
  have hlow0 : (0 : Int) ≤ w0 + B * w1 := by positivity
  have hBB : (0 : Int) < B * B := by positivity
  have c0 : 0 ≤ (a2 : Int) + w + B * k := by
    by_contra hc
    have : (B : Int) * B * ((a2 : Int) + w + B * k) ≤ B * B * (-1) := mul_le_mul_of_nonneg_left (by omega) hBB.le
    have : (0 : Int) ≤ V := by positivity
    linarith
  have c1 : (a2 : Int) + w + B * k < B := by
    by_contra hc
    have : (B : Int) * B * B ≤ B * B * ((a2 : Int) + w + B * k) := mul_le_mul_of_nonneg_left (by omega) hBB.le
    have : (V : Int) < B * B * B := by exact_mod_cast hlt
    linarith
  have hm : (((a2 + w) % B : Nat) : Int) = (a2 : Int) + w + B * k := by
    push_cast
    rw [← Int.add_mul_emod_self_left ((a2 : Int) + w) B k, Int.emod_eq_of_lt c0 c1]
  have : ((w0 + B * w1 + B * B * ((a2 + w) % B) : Nat) : Int) = V := by
    push_cast at hm ⊢
    rw [hm, key]
  exact_mod_cast this

theorem cond3 {B a0 a1 a2 b0 b1 : Nat} (h0 : a0 < B) (h1 : a1 < B) (g0 : b0 < B) (g1 : b1 < B) :
    (a2 ≠ 0 ∨ a1 > b1 ∨ (a1 = b1 ∧ a0 ≥ b0)) ↔ b0 + B * b1 ≤ a0 + B * a1 + B * B * a2 := by
  constructor
  · rintro (h | h | ⟨rfl, h⟩)
    · have h2 : B * B * 1 ≤ B * B * a2 := Nat.mul_le_mul_left _ (by omega)
      have h3 : B * (b1 + 1) ≤ B * B := Nat.mul_le_mul_left _ (by omega)
      rw [Nat.mul_add] at h3; omega
    · have h3 : B * (b1 + 1) ≤ B * a1 := Nat.mul_le_mul_left _ h
      rw [Nat.mul_add] at h3; omega
    · omega
  · intro h
    by_contra hc
    simp only [not_or, not_and, Nat.not_lt, ge_iff_le, Nat.not_le, ne_eq, not_not, gt_iff_lt] at hc
    obtain ⟨rfl, hle, himp⟩ := hc
    rcases Nat.lt_or_ge a1 b1 with h2 | h2
    · have h3 : B * (a1 + 1) ≤ B * b1 := Nat.mul_le_mul_left _ h2
      rw [Nat.mul_add] at h3; omega
    · have : a1 = b1 := by omega
      subst this
      have := himp rfl
      omega

theorem div3Fix_spec {B b0 b1 : Nat} (hB : 1 < B) (g0 : b0 < B) (g1 : b1 < B) (hD : 0 < b0 + B * b1) :
    ∀ (f q a0 a1 a2 : Nat), a0 < B → a1 < B → a2 < B →
      a0 + B * a1 + B * B * a2 < (f + 1) * (b0 + B * b1) → q + (a0 + B * a1 + B * B * a2) / (b0 + B * b1) < B →
      ∃ r0 r1, div3Fix B b0 b1 f (q, a0, a1, a2) = (q + (a0 + B * a1 + B * B * a2) / (b0 + B * b1), r0, r1, 0) ∧
        r0 < B ∧ r1 < B ∧ r0 + B * r1 = (a0 + B * a1 + B * B * a2) % (b0 + B * b1) := by
  have hDlt : b0 + B * b1 < B * B := by
    have h3 : B * (b1 + 1) ≤ B * B := Nat.mul_le_mul_left _ (by omega)
    rw [Nat.mul_add] at h3; omega
  intro f
  induction f with
  | zero =>
    intro q a0 a1 a2 h0 h1 h2 hf hq
    have hlt : a0 + B * a1 + B * B * a2 < b0 + B * b1 := by simpa using hf
    have hz : a2 = 0 := by
      have := (cond3 (a2 := a2) h0 h1 g0 g1).not.mpr (by omega)
      simp only [not_or, ne_eq, not_not] at this
      exact this.1
    subst hz
    refine ⟨a0, a1, ?_, h0, h1, ?_⟩
    · rw [Nat.div_eq_of_lt hlt]; rfl
    · rw [Nat.mod_eq_of_lt hlt]; omega
  | succ f ih =>
    intro q a0 a1 a2 h0 h1 h2 hf hq
    rw [div3Fix]
    by_cases hc : b0 + B * b1 ≤ a0 + B * a1 + B * B * a2
    · rw [if_pos ((cond3 h0 h1 g0 g1).mpr hc)]
      simp only
      have hlt3 : a0 + B * a1 + B * B * a2 < B * B * B := by
        have e1 : B * (a1 + 1) ≤ B * B := Nat.mul_le_mul_left _ (by omega)
        have e2 : B * B * (a2 + 1) ≤ B * B * B := Nat.mul_le_mul_left _ (by omega)
        rw [Nat.mul_add] at e1 e2; omega
      have hcore := sub3_core (B := B) (a0 := a0) (a1 := a1) (a2 := a2) (p := b0)
        (v := dsub B (dsub B a1 b1) (asBorrow B (dsub B a0 b0))) hB h0 g0 (b1 : Int)
        (by rw [dsub_cast (by omega), dsub_cast (by omega), Int.emod_sub_emod]; congr 1; ring)
        (a0 + B * a1 + B * B * a2 - (b0 + B * b1)) (by push_cast [Nat.cast_sub hc]; ring) (by omega)
      generalize dsub B (dsub B a1 b1) (asBorrow B (dsub B a0 b0)) = v at *
      have hw0 : dsub B a0 b0 % B < B := Nat.mod_lt _ (by omega)
      generalize dsub B a0 b0 % B = w0 at *
      generalize a0 + B * a1 + B * B * a2 = V at *
      have hdv : V / (b0 + B * b1) = (V - (b0 + B * b1)) / (b0 + B * b1) + 1 := by
        rw [← Nat.add_div_right _ hD, Nat.sub_add_cancel hc]
      have hmv : V % (b0 + B * b1) = (V - (b0 + B * b1)) % (b0 + B * b1) := (Nat.mod_eq_sub_mod hc)
      have hq1 : (q + 1) % B = q + 1 := Nat.mod_eq_of_lt (by
        have := Nat.zero_le ((V - (b0 + B * b1)) / (b0 + B * b1)); omega)
      obtain ⟨r0, r1, e, e0, e1, e2⟩ := ih ((q + 1) % B) w0 (v % B) ((a2 + v / B) % B) hw0 (Nat.mod_lt _ (by omega))
        (Nat.mod_lt _ (by omega)) (by
          rw [hcore]
          have : (f + 1 + 1) * (b0 + B * b1) = (f + 1) * (b0 + B * b1) + (b0 + B * b1) := by ring
          omega) (by rw [hcore, hq1]; omega)
      rw [hcore] at e e2
      exact ⟨r0, r1, by rw [e, hq1, hdv]; congr 1; omega, e0, e1, by rw [e2, hmv]⟩
    · rw [if_neg ((cond3 h0 h1 g0 g1).not.mpr hc)]
      have hz : a2 = 0 := by
        have := (cond3 (a2 := a2) h0 h1 g0 g1).not.mpr hc
        simp only [not_or, ne_eq, not_not] at this
        exact this.1
      subst hz
      refine ⟨a0, a1, ?_, h0, h1, ?_⟩
      · rw [Nat.div_eq_of_lt (by omega)]; rfl
      · rw [Nat.mod_eq_of_lt (by omega)]; omega

/-- The estimate is a word and does not exceed the quotient. -/
theorem div3Est_spec {B a0 a1 a2 b0 b1 : Nat} (hB : 1 < B) (h0 : a0 < B) (h2 : a2 < B) (g0 : b0 < B)
    (g1 : b1 < B) (hA : a1 + B * a2 < b0 + B * b1) :
    div3Est B a0 a1 a2 b0 b1 < B ∧ div3Est B a0 a1 a2 b0 b1 * (b0 + B * b1) ≤ a0 + B * a1 + B * B * a2 := by
  unfold div3Est
  by_cases hpre : b1 + 1 = B
  · have hp : (b1 + 1) % B = 0 := by rw [hpre, Nat.mod_self]
    rw [if_neg (by simp [hp]), if_pos hp]
    refine ⟨h2, ?_⟩
    have hD : b0 + B * b1 ≤ B * B := by
      have : B * (b1 + 1) = B * B := by rw [hpre]
      rw [Nat.mul_add] at this; omega
    calc a2 * (b0 + B * b1) ≤ a2 * (B * B) := Nat.mul_le_mul_left _ hD
      _ = B * B * a2 := by ring
      _ ≤ _ := Nat.le_add_left _ _
  · have hp : (b1 + 1) % B = b1 + 1 := Nat.mod_eq_of_lt (by omega)
    rw [hp]
    by_cases hb : b1 > 0
    · rw [if_pos ⟨hb, by omega⟩]
      have hlt : (a1 + B * a2) / (b1 + 1) < B := by
        rw [Nat.div_lt_iff_lt_mul (by omega), Nat.mul_add]; omega
      rw [Nat.mod_eq_of_lt hlt]
      refine ⟨hlt, ?_⟩
      have hq := Nat.div_mul_le_self (a1 + B * a2) (b1 + 1)
      generalize (a1 + B * a2) / (b1 + 1) = q at *
      calc q * (b0 + B * b1) ≤ q * (B * (b1 + 1)) := Nat.mul_le_mul_left _ (by rw [Nat.mul_add]; omega)
        _ = B * (q * (b1 + 1)) := by ring
        _ ≤ B * (a1 + B * a2) := Nat.mul_le_mul_left _ hq
        _ = B * a1 + B * B * a2 := by ring
        _ ≤ _ := by omega
    · rw [if_neg (by omega), if_neg (by omega)]
      have hb0 : b1 = 0 := by omega
      subst hb0
      simp only [Nat.mul_zero, Nat.add_zero] at hA ⊢
      have ha2 : a2 = 0 := by
        rcases Nat.eq_zero_or_pos a2 with h | h
        · exact h
        · have : B * 1 ≤ B * a2 := Nat.mul_le_mul_left _ h
          omega
      subst ha2
      have hlt : (a0 + B * a1) / b0 < B := by
        rw [Nat.div_lt_iff_lt_mul (by omega)]
        have : B * (a1 + 1) ≤ B * b0 := Nat.mul_le_mul_left _ (by omega)
        rw [Nat.mul_add] at this; omega
      rw [Nat.mod_eq_of_lt hlt]
      have hq := Nat.div_mul_le_self (a0 + B * a1) b0
      exact ⟨hlt, by omega⟩

/-- integer.cpp:476: exact quotient and remainder. -/
theorem div3_spec {B a0 a1 a2 b0 b1 : Nat} (hB : 1 < B) (h0 : a0 < B) (h1 : a1 < B) (h2 : a2 < B) (g0 : b0 < B)
    (g1 : b1 < B) (hA : a1 + B * a2 < b0 + B * b1) :
    ∃ r0 r1, div3 B a0 a1 a2 b0 b1 = ((a0 + B * a1 + B * B * a2) / (b0 + B * b1), r0, r1, 0) ∧
      (a0 + B * a1 + B * B * a2) / (b0 + B * b1) < B ∧ r0 < B ∧ r1 < B ∧
      r0 + B * r1 = (a0 + B * a1 + B * B * a2) % (b0 + B * b1) := by
  have hD : 0 < b0 + B * b1 := by omega
  obtain ⟨hq, hle⟩ := div3Est_spec (b0 := b0) (b1 := b1) hB h0 h2 g0 g1 hA
  unfold div3
  simp only
  generalize div3Est B a0 a1 a2 b0 b1 = q at *
  have hlt3 : a0 + B * a1 + B * B * a2 < B * B * B := by
    have e1 : B * (a1 + 1) ≤ B * B := Nat.mul_le_mul_left _ (by omega)
    have e2 : B * B * (a2 + 1) ≤ B * B * B := Nat.mul_le_mul_left _ (by omega)
    rw [Nat.mul_add] at e1 e2; omega
  have hdm := Nat.div_add_mod (b0 * q) B
  have hcore := sub3_core (B := B) (a0 := a0) (a1 := a1) (a2 := a2) (p := b0 * q % B)
    (v := dsub B (dsub B (dsub B a1 (b0 * q / B)) (asBorrow B (dsub B a0 (b0 * q % B)))) (b1 * q)) hB h0
    (Nat.mod_lt _ (by omega)) (b0 * q / B + b1 * q : Nat)
    (by
      rw [dsub_cast (by omega), dsub_cast (by omega), dsub_cast (by omega), Int.emod_sub_emod, Int.sub_sub,
        Int.emod_sub_emod]
      congr 1; push_cast; ring)
    (a0 + B * a1 + B * B * a2 - q * (b0 + B * b1)) (by
      have hdm' : ((b0 * q % B : Nat) : Int) = b0 * q - B * (b0 * q / B : Nat) := by
        have : ((B * (b0 * q / B) + b0 * q % B : Nat) : Int) = ((b0 * q : Nat) : Int) := by rw [hdm]
        push_cast at this ⊢
        linarith
      rw [hdm', Nat.cast_sub hle]; push_cast; ring) (by omega)
  generalize dsub B (dsub B (dsub B a1 (b0 * q / B)) (asBorrow B (dsub B a0 (b0 * q % B)))) (b1 * q) = v at *
  have hAB : a0 + B * a1 + B * B * a2 < B * (b0 + B * b1) := by
    have : B * (a1 + B * a2 + 1) ≤ B * (b0 + B * b1) := Nat.mul_le_mul_left _ hA
    have e : B * (a1 + B * a2 + 1) = B * a1 + B * B * a2 + B := by ring
    omega
  have hqA : (a0 + B * a1 + B * B * a2) / (b0 + B * b1) < B := by
    rw [Nat.div_lt_iff_lt_mul hD]; exact hAB
  have hdv : q + (a0 + B * a1 + B * B * a2 - q * (b0 + B * b1)) / (b0 + B * b1)
      = (a0 + B * a1 + B * B * a2) / (b0 + B * b1) := by
    rw [Nat.mul_comm q, Nat.sub_mul_div]
    have : q ≤ (a0 + B * a1 + B * B * a2) / (b0 + B * b1) := (Nat.le_div_iff_mul_le hD).mpr hle
    omega
  have hmv : (a0 + B * a1 + B * B * a2 - q * (b0 + B * b1)) % (b0 + B * b1) = (a0 + B * a1 + B * B * a2) % (b0 + B * b1) := by
    rw [Nat.mul_comm q]; exact Nat.sub_mul_mod (by rw [Nat.mul_comm]; exact hle)
  obtain ⟨r0, r1, e, e0, e1, e2⟩ := div3Fix_spec hB g0 g1 hD B q (dsub B a0 (b0 * q % B) % B) (v % B) ((a2 + v / B) % B)
    (Nat.mod_lt _ (by omega)) (Nat.mod_lt _ (by omega)) (Nat.mod_lt _ (by omega)) (by
      rw [hcore, Nat.add_mul]; omega) (by rw [hcore, hdv]; exact hqA)
  rw [hcore, hdv] at e
  rw [hcore, hmv] at e2
  exact ⟨r0, r1, e, hqA, e0, e1, e2⟩

/-- integer.cpp:519: the two-word quotient; a zero divisor stands for `B*B`. -/
theorem div4_spec {B a0 a1 a2 a3 b0 b1 D : Nat} (hB : 1 < B) (h0 : a0 < B) (h1 : a1 < B) (h2 : a2 < B) (h3 : a3 < B)
    (g0 : b0 < B) (g1 : b1 < B) (hD : D = if b0 = 0 ∧ b1 = 0 then B * B else b0 + B * b1)
    (hA : a2 + B * a3 < D) :
    (div4 B a0 a1 a2 a3 b0 b1).1 < B ∧ (div4 B a0 a1 a2 a3 b0 b1).2 < B ∧
      (div4 B a0 a1 a2 a3 b0 b1).1 + B * (div4 B a0 a1 a2 a3 b0 b1).2
        = (a0 + B * a1 + B * B * (a2 + B * a3)) / D := by
  unfold div4
  by_cases hz : b0 = 0 ∧ b1 = 0
  · rw [if_neg (by simpa using hz)]
    rw [if_pos hz] at hD
    refine ⟨h2, h3, ?_⟩
    have hlow : a0 + B * a1 < B * B := by
      have e1 : B * (a1 + 1) ≤ B * B := Nat.mul_le_mul_left _ (by omega)
      rw [Nat.mul_add] at e1; omega
    rw [hD, Nat.add_mul_div_left _ _ (by positivity), Nat.div_eq_of_lt hlow]; simp
  · rw [if_pos hz]
    rw [if_neg hz] at hD
    subst hD
    simp only
    obtain ⟨r0, r1, e, eq, e0, e1, e2⟩ := div3_spec (a0 := a1) hB h1 h2 h3 g0 g1 hA
    rw [e]
    simp only
    have hD : 0 < b0 + B * b1 := by omega
    have hrl : r0 + B * r1 < b0 + B * b1 := by rw [e2]; exact Nat.mod_lt _ hD
    obtain ⟨s0, s1, e', eq', f0, f1, f2⟩ := div3_spec (a0 := a0) hB h0 e0 e1 g0 g1 hrl
    rw [e']
    refine ⟨eq', eq, ?_⟩
    simp only
    have hdm := Nat.div_add_mod (a1 + B * a2 + B * B * a3) (b0 + B * b1)
    rw [← e2] at hdm
    generalize (a1 + B * a2 + B * B * a3) / (b0 + B * b1) = Q at *
    have : a0 + B * a1 + B * B * (a2 + B * a3) = a0 + B * r0 + B * B * r1 + (b0 + B * b1) * (B * Q) := by
      calc a0 + B * a1 + B * B * (a2 + B * a3) = a0 + B * (a1 + B * a2 + B * B * a3) := by ring
        _ = a0 + B * ((b0 + B * b1) * Q + (r0 + B * r1)) := by rw [hdm]
        _ = _ := by ring
    rw [this, Nat.add_mul_div_left _ _ hD]

end Verif.Integer
