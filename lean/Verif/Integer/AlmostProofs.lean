import Verif.Integer.AlmostModel
import Verif.Integer.MontProofs

/-!
# Correctness of `AlmostInverse`: the arithmetic invariant and the word-array lemmas
-/
namespace Verif.Integer

/-- The sign carried by the flag `s`. -/
def sg (s : Bool) : Int := if s then -1 else 1

theorem sg_not (s : Bool) : sg (!s) = - sg s := by cases s <;> rfl

/-- The invariant of the main loop, on numbers. -/
structure AInv (A M k : Nat) (s : Bool) (b c f g : Nat) : Prop where
  bg : b * g + c * f = M
  bA : (M : Int) ∣ sg s * b * A - f * 2 ^ k
  cA : (M : Int) ∣ - sg s * c * A - g * 2 ^ k
  godd : g % 2 = 1
  gcd : Nat.gcd f g = Nat.gcd A M
  fz : f = 0 → g ≠ 1 ∨ M = 1
  size : f * g * 2 ^ k ≤ A * M

theorem AInv.init {A M : Nat} (hM : M % 2 = 1) (hA : A < M) : AInv A M 0 false 1 0 A M where
  bg := by simp
  bA := by simp [sg]
  cA := by simp
  godd := hM
  gcd := rfl
  fz := fun h => by omega
  size := by simp

theorem coprime_two_pow_odd {g i : Nat} (h : g % 2 = 1) : Nat.Coprime (2 ^ i) g :=
  Nat.Coprime.pow_left i (by unfold Nat.Coprime; rw [Nat.gcd_rec, h]; rfl)

theorem AInv.shr {A M k : Nat} {s : Bool} {b c f g i : Nat} (h : AInv A M k s b c (2 ^ i * f) g) :
    AInv A M (k + i) s b (c * 2 ^ i) f g where
  bg := by rw [← h.bg]; ring
  bA := by
    obtain ⟨q, hq⟩ := h.bA
    refine ⟨q, ?_⟩
    push_cast at hq
    rw [← hq, pow_add]; ring
  cA := by
    obtain ⟨q, hq⟩ := h.cA
    refine ⟨q * 2 ^ i, ?_⟩
    rw [← mul_assoc, ← hq, pow_add]; push_cast; ring
  godd := h.godd
  gcd := by rw [← h.gcd, Nat.Coprime.gcd_mul_left_cancel _ (coprime_two_pow_odd h.godd)]
  fz := fun hf => h.fz (by rw [hf]; simp)
  size := by
    refine Nat.le_trans (Nat.le_of_eq ?_) h.size
    rw [pow_add]; ring

theorem AInv.swap {A M k : Nat} {s : Bool} {b c f g : Nat} (h : AInv A M k s b c f g) (hf : f % 2 = 1) :
    AInv A M k (!s) c b g f where
  bg := by rw [← h.bg]; ring
  bA := by rw [sg_not]; exact h.cA
  cA := by rw [sg_not, neg_neg]; exact h.bA
  godd := hf
  gcd := by rw [Nat.gcd_comm]; exact h.gcd
  fz := fun hg => by have := h.godd; omega
  size := by rw [Nat.mul_comm g f]; exact h.size

theorem AInv.sub {A M k : Nat} {s : Bool} {b c f g : Nat} (h : AInv A M k s b c f g) (hle : g ≤ f) (hne : f = g → g ≠ 1) :
    AInv A M k s (b + c) c (f - g) g where
  bg := by
    obtain ⟨d, rfl⟩ := Nat.exists_eq_add_of_le hle
    rw [Nat.add_sub_cancel_left, ← h.bg]; ring
  bA := by
    obtain ⟨q, hq⟩ := h.bA
    obtain ⟨r, hr⟩ := h.cA
    obtain ⟨d, rfl⟩ := Nat.exists_eq_add_of_le hle
    rw [Nat.add_sub_cancel_left]
    refine ⟨q - r, ?_⟩
    push_cast at hq ⊢
    linear_combination hq - hr
  cA := h.cA
  godd := h.godd
  gcd := by rw [Nat.gcd_sub_self_left hle, h.gcd]
  fz := fun hf => Or.inl (hne (by omega))
  size := Nat.le_trans (Nat.mul_le_mul_right _ (Nat.mul_le_mul_right _ (Nat.sub_le _ _))) h.size

theorem AInv.bound {A M k : Nat} {s : Bool} {b c f g : Nat} (h : AInv A M k s b c f g) (hf : f ≠ 0) {X : Nat} (hX : A * M < 2 ^ X) :
    k < X := by
  have h1 : 1 * 2 ^ k ≤ f * g * 2 ^ k := by
    have : 0 < f * g := Nat.mul_pos (by omega) (by have := h.godd; omega)
    exact Nat.mul_le_mul_right _ this
  have : 2 ^ k < 2 ^ X := by have := h.size; omega
  exact (Nat.pow_lt_pow_iff_right (by omega)).mp this

/-- What the loop has found when `f` reaches one. -/
theorem AInv.done {A M k : Nat} {s : Bool} {b c g : Nat} (h : AInv A M k s b c 1 g) (hM : M % 2 = 1) (h1 : 1 < M) :
    Nat.gcd A M = 1 ∧ 0 < b ∧ b < M ∧ (if s then M - b else b) * A % M = 2 ^ k % M := by
  have hcop : Nat.Coprime (2 ^ k) M := coprime_two_pow_odd hM
  have hnd : ¬ M ∣ 2 ^ k := fun hd => by
    have := Nat.Coprime.eq_one_of_dvd hcop.symm hd
    omega
  have hbM : b ≤ M := by
    have h2 := h.bg
    have h3 := h.godd
    have : b * 1 ≤ b * g := Nat.mul_le_mul_left _ (by omega)
    omega
  have hb : ¬ M ∣ b := fun hd => by
    apply hnd
    obtain ⟨q, hq⟩ := h.bA
    obtain ⟨d, hd⟩ := hd
    have : (M : Int) ∣ ((2 ^ k : Nat) : Int) := ⟨sg s * d * A - q, by rw [hd] at hq; push_cast at hq ⊢; linear_combination -hq⟩
    exact_mod_cast this
  have hb0 : 0 < b := Nat.pos_of_ne_zero (fun h0 => hb (by rw [h0]; exact Nat.dvd_zero _))
  have hblt : b < M := Nat.lt_of_le_of_ne hbM (fun he => hb (by rw [he]))
  refine ⟨by rw [← h.gcd]; exact Nat.gcd_one_left _, hb0, hblt, ?_⟩
  obtain ⟨q, hq⟩ := h.bA
  have key : (((if s then M - b else b) * A : Nat) : Int) % M = ((2 ^ k : Nat) : Int) % M := by
    apply Int.emod_eq_emod_iff_emod_sub_eq_zero.mpr
    apply Int.emod_eq_zero_of_dvd
    cases s with
    | true =>
      refine ⟨q + A, ?_⟩
      simp only [sg, if_true] at hq ⊢
      push_cast [Nat.cast_sub hbM] at hq ⊢
      linear_combination hq
    | false =>
      refine ⟨q, ?_⟩
      simp only [sg, Bool.false_eq_true, if_false] at hq ⊢
      push_cast at hq ⊢
      linear_combination hq
  exact_mod_cast key

/-- What the loop has found when `f` reaches zero. -/
theorem AInv.zero {A M k : Nat} {s : Bool} {b c g : Nat} (h : AInv A M k s b c 0 g) (h1 : M ≠ 1) : Nat.gcd A M ≠ 1 := by
  rw [← h.gcd, Nat.gcd_zero_left]
  rcases h.fz rfl with h2 | h2
  · exact h2
  · exact absurd h2 h1

theorem trailingZeros_spec : ∀ (W v : Nat), v ≠ 0 → v < 2 ^ W →
    trailingZeros W v < W ∧ v = 2 ^ trailingZeros W v * (v >>> trailingZeros W v) ∧ (v >>> trailingZeros W v) % 2 = 1 := by
  intro W
  induction W with
  | zero => intro v h1 h2; simp at h2; omega
  | succ W ih =>
    intro v h1 h2
    simp only [trailingZeros]
    split
    · rename_i h
      exact ⟨by omega, by simp, by simpa using h⟩
    · rename_i h
      obtain ⟨g1, g2, g3⟩ := ih (v / 2) (by omega) (by rw [pow_succ] at h2; omega)
      generalize trailingZeros W (v / 2) = i at *
      have e : v >>> (i + 1) = (v / 2) >>> i := by
        rw [Nat.shiftRight_eq_div_pow, Nat.shiftRight_eq_div_pow, pow_succ, Nat.mul_comm, Nat.div_div_eq_div_mul]
      rw [e]
      refine ⟨by omega, ?_, g3⟩
      generalize (v / 2) >>> i = u at *
      rw [pow_succ, Nat.mul_comm _ 2, Nat.mul_assoc, ← g2]
      omega

theorem evenWC_spec {B : Nat} (m : WMem) (X : Nat) : ∀ (n : Nat), n % 2 = 0 →
    evenWC m X n % 2 = 0 ∧ evenWC m X n ≤ n ∧ mval B m X (evenWC m X n) = mval B m X n := by
  intro n
  induction n using Nat.strongRecOn with
  | ind n ih =>
    intro hn
    match n with
    | 0 => exact ⟨rfl, Nat.le_refl _, rfl⟩
    | 1 => omega
    | n + 2 =>
      simp only [evenWC]
      split
      · rename_i h
        obtain ⟨h1, h2, h3⟩ := ih n (by omega) (by omega)
        refine ⟨h1, by omega, ?_⟩
        rw [h3, mval_succ B m X (n + 1), mval_succ B m X n, h.1, h.2]
        simp
      · exact ⟨hn, Nat.le_refl _, rfl⟩

theorem evenWC_eq_zero {B : Nat} (hB : 0 < B) (m : WMem) (X n : Nat) (hn : n % 2 = 0) :
    evenWC m X n = 0 ↔ mval B m X n = 0 := by
  constructor
  · intro h
    have := (evenWC_spec (B := B) m X n hn).2.2
    rw [h] at this
    exact this.symm
  · intro h
    induction n using Nat.strongRecOn with
    | ind n ih =>
      match n with
      | 0 => rfl
      | 1 => omega
      | n + 2 =>
        rw [mval_succ B m X (n + 1), mval_succ B m X n] at h
        have h1 : B ^ n * m (X + n) = 0 := by omega
        have h2 : B ^ (n + 1) * m (X + (n + 1)) = 0 := by omega
        have p1 : 0 < B ^ n := Nat.pow_pos hB
        have p2 : 0 < B ^ (n + 1) := Nat.pow_pos hB
        rcases Nat.mul_eq_zero.mp h1 with h1 | h1
        · omega
        rcases Nat.mul_eq_zero.mp h2 with h2 | h2
        · omega
        simp only [evenWC]
        rw [if_pos ⟨h1, h2⟩]
        exact ih n (by omega) (by omega) (by rw [h1, h2] at h; simpa using h)

theorem mShlC_spec {W s : Nat} (hs : s < W) {m : WMem} (hm : AllW (2 ^ W) m) (r n : Nat) :
    AllW (2 ^ W) (mShlC W m r n s).1 ∧ Same m (mShlC W m r n s).1 r n ∧ (mShlC W m r n s).2 < 2 ^ s ∧
      mval (2 ^ W) (mShlC W m r n s).1 r n + (2 ^ W) ^ n * (mShlC W m r n s).2 = mval (2 ^ W) m r n * 2 ^ s := by
  obtain ⟨l, w, c, v⟩ := shiftWordsLeftByBits_spec hs (loadW m r n) (loadW_words hm r n)
  rw [loadW_length] at l v
  refine ⟨storeW_allW (Nat.two_pow_pos W) hm r w, storeW_same _ _ _ _ l, c, ?_⟩
  simp only [mShlC]
  rw [mval_storeW _ _ _ _ _ l]
  exact v

theorem loadW_drop (m : WMem) (a n k : Nat) (h : k ≤ n) : (loadW m a n).drop k = loadW m (a + k) (n - k) := by
  have e := loadW_append m a k (n - k)
  rw [show k + (n - k) = n by omega] at e
  rw [e, List.drop_left' (by simp)]

theorem mShrWords_spec {B : Nat} (hB : 0 < B) {m : WMem} (hm : AllW B m) (r n : Nat) (hn : 0 < n) (h0 : m r = 0) :
    AllW B (mShrWords m r n 1) ∧ Same m (mShrWords m r n 1) r n ∧ mval B m r n = B * mval B (mShrWords m r n 1) r n := by
  have l : (shiftWordsRightByWords (loadW m r n) 1).length = n := by simp [shiftWordsRightByWords]
  have e : shiftWordsRightByWords (loadW m r n) 1 = loadW m (r + 1) (n - 1) ++ [0] := by
    unfold shiftWordsRightByWords
    rw [loadW_length, show min 1 n = 1 by omega, loadW_drop _ _ _ _ (by omega)]; rfl
  have w : Words B (shiftWordsRightByWords (loadW m r n) 1) := by
    rw [e]
    intro x hx
    rcases List.mem_append.mp hx with hx | hx
    · exact loadW_words hm _ _ x hx
    · simp at hx; omega
  refine ⟨storeW_allW hB hm r w, storeW_same _ _ _ _ l, ?_⟩
  rw [mShrWords, mval_storeW _ _ _ _ _ l, e]
  have e2 := mval_succ_left B m r (n - 1)
  rw [show n - 1 + 1 = n by omega, h0] at e2
  rw [e2, Nat.zero_add]
  congr 1
  rw [mval]
  simp [wval_append, wval]

theorem mShlWords_spec {B : Nat} (hB : 0 < B) {m : WMem} (hm : AllW B m) (r n : Nat) (hn : 0 < n) (h0 : m (r + (n - 1)) = 0) :
    AllW B (mShlWords m r n 1) ∧ Same m (mShlWords m r n 1) r n ∧ mval B (mShlWords m r n 1) r n = mval B m r n * B := by
  have l : (shiftWordsLeftByWords (loadW m r n) 1).length = n := by simp [shiftWordsLeftByWords]
  have e : shiftWordsLeftByWords (loadW m r n) 1 = 0 :: loadW m r (n - 1) := by
    unfold shiftWordsLeftByWords
    rw [loadW_length, show min 1 n = 1 by omega, loadW_take _ _ _ _ (by omega)]; rfl
  have w : Words B (shiftWordsLeftByWords (loadW m r n) 1) := by
    rw [e]
    intro x hx
    rcases List.mem_cons.mp hx with hx | hx
    · omega
    · exact loadW_words hm _ _ x hx
  refine ⟨storeW_allW hB hm r w, storeW_same _ _ _ _ l, ?_⟩
  rw [mShlWords, mval_storeW _ _ _ _ _ l, e]
  have e2 := mval_succ B m r (n - 1)
  rw [show n - 1 + 1 = n by omega, h0] at e2
  rw [e2, Nat.mul_zero, Nat.add_zero, wval, Nat.zero_add, mval, Nat.mul_comm]

end Verif.Integer
