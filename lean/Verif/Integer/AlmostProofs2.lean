import Verif.Integer.AlmostProofs

/-!
# Correctness of `AlmostInverse` on word memory
-/
namespace Verif.Integer

/-- The state of the main loop is well formed and its numbers satisfy the invariant. -/
structure Good (W T N A M : Nat) (st : AISt) : Prop where
  allw : AllW (2 ^ W) st.m
  bc : (st.b = T ∧ st.c = T + N) ∨ (st.b = T + N ∧ st.c = T)
  fg : (st.f = T + 2 * N ∧ st.g = T + 3 * N) ∨ (st.f = T + 3 * N ∧ st.g = T + 2 * N)
  bcE : st.bcLen % 2 = 0
  bc2 : 2 ≤ st.bcLen
  bcN : st.bcLen ≤ N
  fgE : st.fgLen % 2 = 0
  fg2 : 2 ≤ st.fgLen
  fgN : st.fgLen ≤ N
  zb : ∀ x, st.bcLen ≤ x → x < N → st.m (st.b + x) = 0
  zc : ∀ x, st.bcLen ≤ x → x < N → st.m (st.c + x) = 0
  kle : st.k ≤ 2 * N * W
  inv : AInv A M st.k st.s (mval (2 ^ W) st.m st.b st.bcLen) (mval (2 ^ W) st.m st.c st.bcLen)
    (mval (2 ^ W) st.m st.f st.fgLen) (mval (2 ^ W) st.m st.g st.fgLen)

theorem mval_pad {B : Nat} {m : WMem} {a n k : Nat} (h : ∀ x, n ≤ x → x < n + k → m (a + x) = 0) :
    mval B m a (n + k) = mval B m a n := by
  rw [mval_add, mval_of_zero (a := a + n) (n := k) (fun x h1 h2 => by
    have := h (x - a) (by omega) (by omega)
    rwa [show a + (x - a) = x by omega] at this)]
  simp

theorem mval_pad_le {B : Nat} {m : WMem} {a n k : Nat} (hk : n ≤ k) (h : ∀ x, n ≤ x → x < k → m (a + x) = 0) :
    mval B m a k = mval B m a n := by
  obtain ⟨d, rfl⟩ := Nat.exists_eq_add_of_le hk
  exact mval_pad h

/-- The top word of a number below `B^n / B` is zero. -/
theorem top_zero {B : Nat} (hB : 0 < B) {m : WMem} {a n : Nat} (hn : 0 < n) (h : mval B m a n * B < B ^ n) : m (a + (n - 1)) = 0 := by
  have e := mval_succ B m a (n - 1)
  rw [show n - 1 + 1 = n by omega] at e
  rcases Nat.eq_zero_or_pos (m (a + (n - 1))) with h0 | h0
  · exact h0
  · exfalso
    have h1 : B ^ (n - 1) * 1 ≤ B ^ (n - 1) * m (a + (n - 1)) := Nat.mul_le_mul_left _ h0
    have h2 : B ^ (n - 1) * B ≤ mval B m a n * B := Nat.mul_le_mul_right _ (by omega)
    rw [← pow_succ, show n - 1 + 1 = n by omega] at h2
    omega

theorem AInv.c_le {A M k : Nat} {s : Bool} {b c f g : Nat} (h : AInv A M k s b c f g) (hf : f ≠ 0) : c ≤ M ∧ b + c ≤ M := by
  have h1 := h.bg
  have h2 := h.godd
  have h3 : c * 1 ≤ c * f := Nat.mul_le_mul_left _ (by omega)
  have h4 : b * 1 ≤ b * g := Nat.mul_le_mul_left _ (by omega)
  omega

theorem prod_bound {W N A M : Nat} (hM : M < (2 ^ W) ^ N) (hA : A < M) : A * M < 2 ^ (2 * N * W) := by
  have e : 2 ^ (2 * N * W) = (2 ^ W) ^ N * (2 ^ W) ^ N := by
    rw [← pow_mul, ← pow_add]; congr 1; ring
  rw [e]
  exact Nat.mul_lt_mul_of_lt_of_le (by omega) (by omega) (by omega)

section
variable {W T N A M : Nat} (hW : 8 ≤ W) (hN2 : N % 2 = 0) (hM : M < (2 ^ W) ^ N) (hA : A < M)
include hW hN2 hM hA

theorem aiWordShift_spec {st : AISt} (h : Good W T N A M st) (h0 : st.m st.f = 0) (hf : mval (2 ^ W) st.m st.f st.fgLen ≠ 0) :
    Good W T N A M (aiWordShift W st) ∧ Same st.m (aiWordShift W st).m T (4 * N) ∧
      mval (2 ^ W) st.m st.f st.fgLen = 2 ^ W * mval (2 ^ W) (aiWordShift W st).m (aiWordShift W st).f (aiWordShift W st).fgLen ∧
      (aiWordShift W st).k = st.k + W := by
  have hB : 0 < 2 ^ W := Nat.two_pow_pos W
  obtain ⟨allw, bc, fg, bcE, bc2, bcN, fgE, fg2, fgN, zb, zc, kle, inv⟩ := h
  obtain ⟨w1, s1, v1⟩ := mShrWords_spec hB allw st.f st.fgLen (by omega) h0
  unfold aiWordShift
  simp only
  generalize mShrWords st.m st.f st.fgLen 1 = m1 at *
  have hb1 : mval (2 ^ W) m1 st.b st.bcLen = mval (2 ^ W) st.m st.b st.bcLen := mval_same s1 (by omega)
  have hc1 : mval (2 ^ W) m1 st.c st.bcLen = mval (2 ^ W) st.m st.c st.bcLen := mval_same s1 (by omega)
  have hg1 : mval (2 ^ W) m1 st.g st.fgLen = mval (2 ^ W) st.m st.g st.fgLen := mval_same s1 (by omega)
  have zb1 : ∀ x, st.bcLen ≤ x → x < N → m1 (st.b + x) = 0 := fun x hx hxN => by rw [s1 _ (by omega)]; exact zb x hx hxN
  have zc1 : ∀ x, st.bcLen ≤ x → x < N → m1 (st.c + x) = 0 := fun x hx hxN => by rw [s1 _ (by omega)]; exact zc x hx hxN
  have inv' := inv
  rw [v1] at inv'
  have inv2 := inv'.shr (i := W)
  have hf2 : mval (2 ^ W) m1 st.f st.fgLen ≠ 0 := fun he => by rw [he] at v1; simp at v1; exact hf v1
  have hcM := (inv2.c_le hf2).1
  have hk := inv2.bound hf2 (prod_bound hM hA)
  rw [← hc1] at hcM
  -- the new length
  have hlen : ∃ L, st.bcLen + 2 * (if m1 (st.c + (st.bcLen - 1)) ≠ 0 then 1 else 0) = L ∧ st.bcLen ≤ L ∧ L ≤ N ∧ L % 2 = 0 ∧
      m1 (st.c + (L - 1)) = 0 := by
    by_cases hz : m1 (st.c + (st.bcLen - 1)) ≠ 0
    · rw [if_pos hz]
      have hlt : st.bcLen < N := by
        rcases Nat.lt_or_ge st.bcLen N with h | h
        · exact h
        · exfalso
          have : st.bcLen = N := by omega
          rw [← this] at hM
          exact hz (top_zero hB (by omega) (by omega))
      refine ⟨_, rfl, by omega, by omega, by omega, ?_⟩
      rw [show st.bcLen + 2 * 1 - 1 = st.bcLen + 1 by omega]
      exact zc1 _ (by omega) (by omega)
    · rw [if_neg hz]
      exact ⟨_, rfl, by omega, by omega, by omega, by rw [show st.bcLen + 2 * 0 - 1 = st.bcLen - 1 by omega]; omega⟩
  obtain ⟨L, hL, hL1, hL2, hL3, hL4⟩ := hlen
  rw [hL]
  obtain ⟨w2, s2, v2⟩ := mShlWords_spec hB w1 st.c L (by omega) hL4
  generalize mShlWords m1 st.c L 1 = m2 at *
  have hcL : mval (2 ^ W) m1 st.c L = mval (2 ^ W) m1 st.c st.bcLen := mval_pad_le hL1 (fun x h1 h2 => zc1 x h1 (by omega))
  have hbL : mval (2 ^ W) m2 st.b L = mval (2 ^ W) st.m st.b st.bcLen := by
    rw [mval_same s2 (by omega), mval_pad_le hL1 (fun x h1 h2 => zb1 x h1 (by omega)), hb1]
  have hf3 : mval (2 ^ W) m2 st.f st.fgLen = mval (2 ^ W) m1 st.f st.fgLen := mval_same s2 (by omega)
  have hg3 : mval (2 ^ W) m2 st.g st.fgLen = mval (2 ^ W) st.m st.g st.fgLen := by rw [mval_same s2 (by omega), hg1]
  rw [hcL, hc1] at v2
  refine ⟨⟨w2, bc, fg, hL3, by first | omega | (simp only; omega), hL2, fgE, fg2, fgN, ?_, ?_, by first | omega | (simp only; omega), ?_⟩, ?_, ?_, trivial⟩
  · intro x hx hxN
    try simp only at hx ⊢
    rw [s2 _ (by omega)]; exact zb1 x (by omega) hxN
  · intro x hx hxN
    try simp only at hx ⊢
    rw [s2 _ (by omega)]; exact zc1 x (by omega) hxN
  · try simp only
    rw [hbL, v2, hf3, hg3]
    exact inv2
  · intro x hx
    try simp only
    rw [s2 x (by omega), s1 x (by omega)]
  · try simp only
    rw [hf3]; exact v1

theorem low_word_of (hB : 0 < 2 ^ W) {m : WMem} {a n : Nat} (hn : 0 < n) :
    ∃ r, mval (2 ^ W) m a n = m a + 2 ^ W * r := by
  obtain ⟨n, rfl⟩ : ∃ j, n = j + 1 := ⟨n - 1, by omega⟩
  exact ⟨_, mval_succ_left _ _ _ _⟩

theorem aiInner_spec : ∀ (n : Nat) (st : AISt), Good W T N A M st → mval (2 ^ W) st.m st.f st.fgLen < (2 ^ W) ^ n →
    ∃ z st', aiInner W (n + 1) st = some (z, st') ∧ Good W T N A M st' ∧ Same st.m st'.m T (4 * N) ∧ st.k ≤ st'.k ∧
      (z = true → mval (2 ^ W) st'.m st'.f st'.fgLen = 0) ∧ (z = false → st'.m st'.f ≠ 0) ∧
      (z = false → st'.k = st.k → st'.m st'.f = st.m st.f) := by
  have hB : 0 < 2 ^ W := Nat.two_pow_pos W
  intro n
  induction n with
  | zero =>
    intro st h hlt
    have hz : mval (2 ^ W) st.m st.f st.fgLen = 0 := by simpa using hlt
    have h0 : st.m st.f = 0 := by
      obtain ⟨r, hr⟩ := low_word_of hW hN2 hM hA hB (m := st.m) (a := st.f) (n := st.fgLen) (by have := h.fg2; omega)
      omega
    refine ⟨true, st, ?_, h, fun x _ => rfl, Nat.le_refl _, fun _ => hz, by simp, by simp⟩
    simp only [aiInner]
    rw [if_pos h0, if_pos ((evenWC_eq_zero hB _ _ _ h.fgE).mpr hz)]
  | succ n ih =>
    intro st h hlt
    rw [aiInner]
    by_cases h0 : st.m st.f = 0
    · rw [if_pos h0]
      by_cases hz : mval (2 ^ W) st.m st.f st.fgLen = 0
      · rw [if_pos ((evenWC_eq_zero hB _ _ _ h.fgE).mpr hz)]
        exact ⟨true, st, rfl, h, fun x _ => rfl, Nat.le_refl _, fun _ => hz, by simp, by simp⟩
      · rw [if_neg (fun he => hz ((evenWC_eq_zero hB _ _ _ h.fgE).mp he))]
        obtain ⟨g1, g2, g3, g4⟩ := aiWordShift_spec hW hN2 hM hA h h0 hz
        obtain ⟨z, st', e1, e2, e3, e4, e5, e6, e7⟩ := ih _ g1 (by
          have : 2 ^ W * mval (2 ^ W) (aiWordShift W st).m (aiWordShift W st).f (aiWordShift W st).fgLen < 2 ^ W * (2 ^ W) ^ n := by
            rw [← g3, Nat.mul_comm, ← pow_succ]; exact hlt
          exact Nat.lt_of_mul_lt_mul_left this)
        exact ⟨z, st', e1, e2, fun x hx => by rw [e3 x hx, g2 x hx], by omega, e5, e6, fun _ hk => by omega⟩
    · rw [if_neg h0]
      exact ⟨false, st, rfl, h, fun x _ => rfl, Nat.le_refl _, by simp, fun _ => h0, fun _ _ => rfl⟩

theorem aiBitShift_spec {st : AISt} (h : Good W T N A M st) (h0 : st.m st.f ≠ 0) :
    Good W T N A M (aiBitShift W st (trailingZeros W (st.m st.f))) ∧
      Same st.m (aiBitShift W st (trailingZeros W (st.m st.f))).m T (4 * N) ∧
      mval (2 ^ W) st.m st.f st.fgLen = 2 ^ trailingZeros W (st.m st.f) *
        mval (2 ^ W) (aiBitShift W st (trailingZeros W (st.m st.f))).m st.f st.fgLen ∧
      mval (2 ^ W) (aiBitShift W st (trailingZeros W (st.m st.f))).m st.f st.fgLen % 2 = 1 := by
  have hB : 0 < 2 ^ W := Nat.two_pow_pos W
  obtain ⟨allw, bc, fg, bcE, bc2, bcN, fgE, fg2, fgN, zb, zc, kle, inv⟩ := h
  obtain ⟨t1, t2, t3⟩ := trailingZeros_spec W (st.m st.f) h0 (allw _)
  obtain ⟨r, hr⟩ := low_word_of hW hN2 hM hA hB (m := st.m) (a := st.f) (n := st.fgLen) (by omega)
  unfold aiBitShift
  try simp only
  generalize trailingZeros W (st.m st.f) = i at *
  obtain ⟨w1, s1, v1⟩ := mShr_spec t1 allw st.f st.fgLen
  generalize mShr W st.m st.f st.fgLen i = m1 at *
  generalize hu : st.m st.f >>> i = u at *
  have hF : mval (2 ^ W) st.m st.f st.fgLen = 2 ^ i * (u + 2 ^ (W - i) * r) := by
    have e : (2 : Nat) ^ W = 2 ^ i * 2 ^ (W - i) := by rw [← pow_add]; congr 1; omega
    rw [hr, t2, e]; ring
  rw [hF, Nat.mul_div_cancel_left _ (Nat.two_pow_pos i)] at v1
  have hFodd : (u + 2 ^ (W - i) * r) % 2 = 1 := by
    obtain ⟨j, hj⟩ : ∃ j, W - i = j + 1 := ⟨W - i - 1, by omega⟩
    rw [hj, pow_succ, show 2 ^ j * 2 * r = 2 * (2 ^ j * r) by ring]
    omega
  have inv' := inv
  rw [hF] at inv'
  have inv2 := inv'.shr
  have hne : u + 2 ^ (W - i) * r ≠ 0 := by omega
  have hcM := (inv2.c_le hne).1
  have hk := inv2.bound hne (prod_bound hM hA)
  obtain ⟨w2, s2, c2, v2⟩ := mShlC_spec t1 w1 st.c st.bcLen
  have hc1 : mval (2 ^ W) m1 st.c st.bcLen = mval (2 ^ W) st.m st.c st.bcLen := mval_same s1 (by omega)
  rw [hc1] at v2
  generalize mShlC W m1 st.c st.bcLen i = r2 at *
  have zb2 : ∀ x, st.bcLen ≤ x → x < N → r2.1 (st.b + x) = 0 := fun x hx hxN => by
    rw [s2 _ (by omega), s1 _ (by omega)]; exact zb x hx hxN
  have zc2 : ∀ x, st.bcLen ≤ x → x < N → r2.1 (st.c + x) = 0 := fun x hx hxN => by
    rw [s2 _ (by omega), s1 _ (by omega)]; exact zc x hx hxN
  have hb2 : mval (2 ^ W) r2.1 st.b st.bcLen = mval (2 ^ W) st.m st.b st.bcLen := by
    rw [mval_same s2 (by omega), mval_same s1 (by omega)]
  have hf2 : mval (2 ^ W) r2.1 st.f st.fgLen = u + 2 ^ (W - i) * r := by rw [mval_same s2 (by omega), v1]
  have hg2 : mval (2 ^ W) r2.1 st.g st.fgLen = mval (2 ^ W) st.m st.g st.fgLen := by
    rw [mval_same s2 (by omega), mval_same s1 (by omega)]
  by_cases hz : r2.2 = 0
  · -- no carry
    have hset : setW r2.1 (st.c + st.bcLen) ((r2.1 (st.c + st.bcLen) + r2.2) % 2 ^ W) = r2.1 := by
      funext x
      rcases Nat.decEq x (st.c + st.bcLen) with hx | hx
      · exact setW_out _ _ _ _ hx
      · rw [hx, setW_same, hz, Nat.add_zero, Nat.mod_eq_of_lt (w2 _)]
    rw [hset, if_neg (by simp [hz])]
    rw [hz, Nat.mul_zero, Nat.add_zero] at v2
    refine ⟨⟨w2, bc, fg, by simpa using bcE, by simpa using bc2, by simpa using bcN, fgE, fg2, fgN, ?_, ?_, by first | omega | (simp only; omega), ?_⟩, ?_, ?_, ?_⟩
    · intro x hx hxN; exact zb2 x (by simpa using hx) hxN
    · intro x hx hxN; exact zc2 x (by simpa using hx) hxN
    · simp only [Nat.mul_zero, Nat.add_zero]
      rw [hb2, v2, hf2, hg2]
      exact inv2
    · intro x hx; try simp only
      rw [s2 x (by omega), s1 x (by omega)]
    · try simp only
      rw [hf2]; exact hF
    · try simp only
      rw [hf2]; exact hFodd
  · -- the carry opens two new words
    have hlt : st.bcLen < N := by
      rcases Nat.lt_or_ge st.bcLen N with h | h
      · exact h
      · exfalso
        have he : st.bcLen = N := by omega
        have : (2 ^ W) ^ st.bcLen * 1 ≤ (2 ^ W) ^ st.bcLen * r2.2 := Nat.mul_le_mul_left _ (by omega)
        rw [he] at this v2 hcM
        omega
    have hrB : r2.2 < 2 ^ W := Nat.lt_trans c2 ((Nat.pow_lt_pow_iff_right (by omega)).mpr t1)
    rw [zc2 _ (Nat.le_refl _) hlt, Nat.zero_add, Nat.mod_eq_of_lt hrB, if_pos hz]
    have w3 : AllW (2 ^ W) (setW r2.1 (st.c + st.bcLen) r2.2) := setW_allW w2 _ hrB
    have s3 := setW_sameR r2.1 (st.c + st.bcLen) r2.2
    have e3 : (setW r2.1 (st.c + st.bcLen) r2.2) (st.c + st.bcLen) = r2.2 := setW_same _ _ _
    generalize setW r2.1 (st.c + st.bcLen) r2.2 = m3 at *
    have hc3 : mval (2 ^ W) m3 st.c (st.bcLen + 2 * 1) = mval (2 ^ W) st.m st.c st.bcLen * 2 ^ i := by
      rw [show st.bcLen + 2 * 1 = st.bcLen + 1 + 1 by omega, mval_succ, mval_succ, e3, mval_same s3 (by omega),
        s3 _ (by omega), zc2 _ (by omega) (by omega), Nat.mul_zero, Nat.add_zero, v2]
    have hb3 : mval (2 ^ W) m3 st.b (st.bcLen + 2 * 1) = mval (2 ^ W) st.m st.b st.bcLen := by
      rw [mval_same s3 (by omega), mval_pad (fun x h1 h2 => zb2 x h1 (by omega)), hb2]
    have hf3 : mval (2 ^ W) m3 st.f st.fgLen = u + 2 ^ (W - i) * r := by rw [mval_same s3 (by omega), hf2]
    have hg3 : mval (2 ^ W) m3 st.g st.fgLen = mval (2 ^ W) st.m st.g st.fgLen := by rw [mval_same s3 (by omega), hg2]
    refine ⟨⟨w3, bc, fg, by first | omega | (simp only; omega), by first | omega | (simp only; omega), by first | omega | (simp only; omega), fgE, fg2, fgN, ?_, ?_, by first | omega | (simp only; omega), ?_⟩, ?_, ?_, ?_⟩
    · intro x hx hxN
      try simp only at hx ⊢
      rw [s3 _ (by omega)]; exact zb2 x (by omega) hxN
    · intro x hx hxN
      try simp only at hx ⊢
      rw [s3 _ (by omega)]; exact zc2 x (by omega) hxN
    · try simp only
      rw [hb3, hc3, hf3, hg3]
      exact inv2
    · intro x hx; try simp only
      rw [s3 x (by omega), s2 x (by omega), s1 x (by omega)]
    · try simp only
      rw [hf3]; exact hF
    · try simp only
      rw [hf3]; exact hFodd

omit hW hN2 hM hA in
theorem aiSwap_spec {st : AISt} (h : Good W T N A M st) (hodd : mval (2 ^ W) st.m st.f st.fgLen % 2 = 1)
    (h1 : mval (2 ^ W) st.m st.f st.fgLen ≠ 1) :
    Good W T N A M (aiSwap st) ∧ (aiSwap st).m = st.m ∧ (aiSwap st).k = st.k ∧
      mval (2 ^ W) (aiSwap st).m (aiSwap st).g (aiSwap st).fgLen ≤ mval (2 ^ W) (aiSwap st).m (aiSwap st).f (aiSwap st).fgLen ∧
      mval (2 ^ W) (aiSwap st).m (aiSwap st).f (aiSwap st).fgLen % 2 = 1 ∧
      (mval (2 ^ W) (aiSwap st).m (aiSwap st).f (aiSwap st).fgLen = mval (2 ^ W) (aiSwap st).m (aiSwap st).g (aiSwap st).fgLen →
        mval (2 ^ W) (aiSwap st).m (aiSwap st).g (aiSwap st).fgLen ≠ 1) := by
  have hc := mCmp_spec h.allw st.f st.g st.fgLen
  have godd := h.inv.godd
  unfold aiSwap
  by_cases hlt : mval (2 ^ W) st.m st.f st.fgLen < mval (2 ^ W) st.m st.g st.fgLen
  · rw [if_neg (by omega), if_pos hlt] at hc
    rw [if_pos hc]
    obtain ⟨allw, bc, fg, bcE, bc2, bcN, fgE, fg2, fgN, zb, zc, kle, inv⟩ := h
    refine ⟨⟨allw, by first | omega | (simp only; omega), by first | omega | (simp only; omega), bcE, bc2, bcN, fgE, fg2, fgN, zc, zb, kle, inv.swap hodd⟩, rfl, rfl, ?_, godd, ?_⟩
    · try simp only
      omega
    · try simp only
      omega
  · have hne : mCmp st.m st.f st.g st.fgLen ≠ -1 := by
      rw [hc, if_neg hlt]
      split <;> decide
    rw [if_neg hne]
    exact ⟨h, rfl, rfl, by omega, hodd, by omega⟩

omit hN2 hM hA in
theorem aiShrink_spec {st : AISt} (h : Good W T N A M st)
    (hle : mval (2 ^ W) st.m st.g st.fgLen ≤ mval (2 ^ W) st.m st.f st.fgLen) :
    Good W T N A M (aiShrink st) ∧ (aiShrink st).m = st.m ∧ (aiShrink st).k = st.k ∧
      mval (2 ^ W) (aiShrink st).m (aiShrink st).f (aiShrink st).fgLen = mval (2 ^ W) st.m st.f st.fgLen ∧
      mval (2 ^ W) (aiShrink st).m (aiShrink st).g (aiShrink st).fgLen = mval (2 ^ W) st.m st.g st.fgLen := by
  have hB : 0 < 2 ^ W := Nat.two_pow_pos W
  obtain ⟨allw, bc, fg, bcE, bc2, bcN, fgE, fg2, fgN, zb, zc, kle, inv⟩ := h
  have gpos : mval (2 ^ W) st.m st.g st.fgLen ≠ 0 := by have := inv.godd; omega
  unfold aiShrink
  by_cases hz : st.m (st.f + (st.fgLen - 2)) = 0 ∧ st.m (st.f + (st.fgLen - 1)) = 0
  · rw [if_pos hz]
    simp only [Nat.mul_one]
    obtain ⟨L, hL⟩ : ∃ L, st.fgLen = L + 2 := ⟨st.fgLen - 2, by omega⟩
    rw [hL] at hz hle fgE fgN gpos inv ⊢
    simp only [Nat.add_sub_cancel, show L + 2 - 1 = L + 1 by omega] at hz ⊢
    have hf : mval (2 ^ W) st.m st.f (L + 2) = mval (2 ^ W) st.m st.f L := by
      rw [mval_succ _ _ _ (L + 1), mval_succ, hz.1, hz.2]; simp
    have hfl := mval_lt allw st.f L
    have hg : mval (2 ^ W) st.m st.g (L + 2) = mval (2 ^ W) st.m st.g L := by
      rw [mval_add] at hle ⊢
      rcases Nat.eq_zero_or_pos (mval (2 ^ W) st.m (st.g + L) 2) with h0 | h0
      · rw [h0]; simp
      · have : (2 ^ W) ^ L * 1 ≤ (2 ^ W) ^ L * mval (2 ^ W) st.m (st.g + L) 2 := Nat.mul_le_mul_left _ h0
        omega
    have hL2 : 2 ≤ L := by
      rcases (by omega : L = 0 ∨ 2 ≤ L) with rfl | h
      · rw [hf, hg] at hle
        rw [hg] at gpos
        simp at gpos
      · exact h
    refine ⟨⟨allw, bc, fg, bcE, bc2, bcN, by first | omega | (simp only; omega), hL2, by first | omega | (simp only; omega), zb, zc, kle, ?_⟩, trivial, trivial, hf.symm, hg.symm⟩
    try simp only
    rw [← hf, ← hg]; exact inv
  · rw [if_neg hz]
    exact ⟨⟨allw, bc, fg, bcE, bc2, bcN, fgE, fg2, fgN, zb, zc, kle, inv⟩, rfl, rfl, rfl, rfl⟩

theorem aiSub_spec {st : AISt} (h : Good W T N A M st)
    (hle : mval (2 ^ W) st.m st.g st.fgLen ≤ mval (2 ^ W) st.m st.f st.fgLen)
    (hodd : mval (2 ^ W) st.m st.f st.fgLen % 2 = 1)
    (hne : mval (2 ^ W) st.m st.f st.fgLen = mval (2 ^ W) st.m st.g st.fgLen → mval (2 ^ W) st.m st.g st.fgLen ≠ 1) :
    Good W T N A M (aiSub W st) ∧ Same st.m (aiSub W st).m T (4 * N) ∧ (aiSub W st).k = st.k ∧
      mval (2 ^ W) (aiSub W st).m (aiSub W st).f (aiSub W st).fgLen % 2 = 0 := by
  have hB : 0 < 2 ^ W := Nat.two_pow_pos W
  have hB1 : 1 < 2 ^ W := Nat.one_lt_pow (by omega) (by omega)
  obtain ⟨allw, bc, fg, bcE, bc2, bcN, fgE, fg2, fgN, zb, zc, kle, inv⟩ := h
  have inv2 := inv.sub hle hne
  have hbc := (inv.c_le (by omega)).2
  unfold aiSub
  try simp only
  obtain ⟨w1, s1, b1, v1⟩ := mSub_spec hB1 allw st.f st.f st.g st.fgLen fgE
  generalize mSub (2 ^ W) st.m st.f st.f st.g st.fgLen = r1 at *
  have hr1 : r1.2 = 0 := by
    rcases (by omega : r1.2 = 0 ∨ r1.2 = 1) with h | h
    · exact h
    · rw [h] at v1
      have := mval_lt w1 st.f st.fgLen
      omega
  rw [hr1, Nat.mul_zero, Nat.add_zero] at v1
  have hf1 : mval (2 ^ W) r1.1 st.f st.fgLen = mval (2 ^ W) st.m st.f st.fgLen - mval (2 ^ W) st.m st.g st.fgLen := by omega
  obtain ⟨w2, s2, b2, v2⟩ := mAdd_spec hB1 w1 st.b st.b st.c st.bcLen bcE
  rw [mval_same (a := st.b) s1 (by omega), mval_same (a := st.c) s1 (by omega)] at v2
  generalize mAdd (2 ^ W) r1.1 st.b st.b st.c st.bcLen = r2 at *
  have zb2 : ∀ x, st.bcLen ≤ x → x < N → r2.1 (st.b + x) = 0 := fun x hx hxN => by
    rw [s2 _ (by omega), s1 _ (by omega)]; exact zb x hx hxN
  have zc2 : ∀ x, st.bcLen ≤ x → x < N → r2.1 (st.c + x) = 0 := fun x hx hxN => by
    rw [s2 _ (by omega), s1 _ (by omega)]; exact zc x hx hxN
  have hc2 : mval (2 ^ W) r2.1 st.c st.bcLen = mval (2 ^ W) st.m st.c st.bcLen := by
    rw [mval_same s2 (by omega), mval_same s1 (by omega)]
  have hf2 : mval (2 ^ W) r2.1 st.f st.fgLen = mval (2 ^ W) st.m st.f st.fgLen - mval (2 ^ W) st.m st.g st.fgLen := by
    rw [mval_same s2 (by omega), hf1]
  have hg2 : mval (2 ^ W) r2.1 st.g st.fgLen = mval (2 ^ W) st.m st.g st.fgLen := by
    rw [mval_same s2 (by omega), mval_same s1 (by omega)]
  have godd := inv.godd
  rcases (by omega : r2.2 = 0 ∨ r2.2 = 1) with hz | hz
  · have hset : setW r2.1 (st.b + st.bcLen) ((r2.1 (st.b + st.bcLen) + r2.2) % 2 ^ W) = r2.1 := by
      funext x
      rcases Nat.decEq x (st.b + st.bcLen) with hx | hx
      · exact setW_out _ _ _ _ hx
      · rw [hx, setW_same, hz, Nat.add_zero, Nat.mod_eq_of_lt (w2 _)]
    rw [hset]
    rw [hz, Nat.mul_zero, Nat.add_zero] at v2
    refine ⟨⟨w2, bc, fg, ?_, ?_, ?_, fgE, fg2, fgN, ?_, ?_, kle, ?_⟩, ?_, trivial, ?_⟩
    · simp only [hz]; omega
    · simp only [hz]; omega
    · simp only [hz]; omega
    · intro x hx hxN; exact zb2 x (by simpa [hz] using hx) hxN
    · intro x hx hxN; exact zc2 x (by simpa [hz] using hx) hxN
    · simp only [hz, Nat.mul_zero, Nat.add_zero]
      rw [v2, hc2, hf2, hg2]
      exact inv2
    · intro x hx; try simp only
      rw [s2 x (by omega), s1 x (by omega)]
    · try simp only
      rw [hf2]; omega
  · have hlt : st.bcLen < N := by
      rcases Nat.lt_or_ge st.bcLen N with h | h
      · exact h
      · exfalso
        have he : st.bcLen = N := by omega
        rw [hz, he] at v2
        rw [he] at hbc
        omega
    rw [zb2 _ (Nat.le_refl _) hlt, Nat.zero_add, hz, Nat.mod_eq_of_lt hB1]
    have w3 : AllW (2 ^ W) (setW r2.1 (st.b + st.bcLen) 1) := setW_allW w2 _ hB1
    have s3 := setW_sameR r2.1 (st.b + st.bcLen) 1
    have e3 : (setW r2.1 (st.b + st.bcLen) 1) (st.b + st.bcLen) = 1 := setW_same _ _ _
    generalize setW r2.1 (st.b + st.bcLen) 1 = m3 at *
    rw [hz] at v2
    have hb3 : mval (2 ^ W) m3 st.b (st.bcLen + 2 * 1) = mval (2 ^ W) st.m st.b st.bcLen + mval (2 ^ W) st.m st.c st.bcLen := by
      rw [show st.bcLen + 2 * 1 = st.bcLen + 1 + 1 by omega, mval_succ, mval_succ, e3, mval_same s3 (by omega),
        s3 _ (by omega), zb2 _ (by omega) (by omega), Nat.mul_zero, Nat.add_zero, v2]
    have hc3 : mval (2 ^ W) m3 st.c (st.bcLen + 2 * 1) = mval (2 ^ W) st.m st.c st.bcLen := by
      rw [mval_same s3 (by omega), mval_pad (fun x h1 h2 => zc2 x h1 (by omega)), hc2]
    have hf3 : mval (2 ^ W) m3 st.f st.fgLen = mval (2 ^ W) st.m st.f st.fgLen - mval (2 ^ W) st.m st.g st.fgLen := by
      rw [mval_same s3 (by omega), hf2]
    have hg3 : mval (2 ^ W) m3 st.g st.fgLen = mval (2 ^ W) st.m st.g st.fgLen := by rw [mval_same s3 (by omega), hg2]
    refine ⟨⟨w3, bc, fg, by first | omega | (simp only; omega), by first | omega | (simp only; omega), by first | omega | (simp only; omega), fgE, fg2, fgN, ?_, ?_, kle, ?_⟩, ?_, trivial, ?_⟩
    · intro x hx hxN
      try simp only at hx ⊢
      rw [s3 _ (by omega)]; exact zb2 x (by omega) hxN
    · intro x hx hxN
      try simp only at hx ⊢
      rw [s3 _ (by omega)]; exact zc2 x (by omega) hxN
    · try simp only
      rw [hb3, hc3, hf3, hg3]
      exact inv2
    · intro x hx; try simp only
      rw [s3 x (by omega), s2 x (by omega), s1 x (by omega)]
    · try simp only
      rw [hf3]; omega

/-- The loop's exit test says exactly that `f` is a power of two. -/
theorem aiIsOne_spec {st : AISt} (h : Good W T N A M st) (h0 : st.m st.f ≠ 0) {F : Nat}
    (hF : mval (2 ^ W) st.m st.f st.fgLen = 2 ^ trailingZeros W (st.m st.f) * F) :
    (st.m st.f >>> trailingZeros W (st.m st.f) = 1 ∧ st.m (st.f + 1) = 0 ∧ evenWC st.m (st.f + 2) (st.fgLen - 2) = 0) ↔ F = 1 := by
  have hB : 0 < 2 ^ W := Nat.two_pow_pos W
  obtain ⟨t1, t2, t3⟩ := trailingZeros_spec W (st.m st.f) h0 (h.allw _)
  generalize trailingZeros W (st.m st.f) = i at *
  have fgE := h.fgE
  have fg2 := h.fg2
  rw [evenWC_eq_zero hB _ _ _ (by omega)]
  have e := mval_add (2 ^ W) st.m st.f 2 (st.fgLen - 2)
  rw [show 2 + (st.fgLen - 2) = st.fgLen by omega, mval_succ, mval_one, pow_one] at e
  have hlt : 2 ^ i < 2 ^ W := (Nat.pow_lt_pow_iff_right (by omega)).mpr t1
  constructor
  · rintro ⟨a1, a2, a3⟩
    rw [a1, Nat.mul_one] at t2
    rw [a2, a3, Nat.mul_zero, Nat.mul_zero] at e
    replace e : mval (2 ^ W) st.m st.f st.fgLen = st.m st.f := e
    rw [t2, hF] at e
    have : 2 ^ i * F = 2 ^ i * 1 := by omega
    exact Nat.eq_of_mul_eq_mul_left (Nat.two_pow_pos i) this
  · intro h1
    rw [h1, Nat.mul_one] at hF
    rw [hF] at e
    have z1 : st.m (st.f + 1) = 0 := by
      rcases Nat.eq_zero_or_pos (st.m (st.f + 1)) with z | z
      · exact z
      · have := Nat.mul_le_mul_left (2 ^ W) z
        omega
    have z2 : mval (2 ^ W) st.m (st.f + 2) (st.fgLen - 2) = 0 := by
      rcases Nat.eq_zero_or_pos (mval (2 ^ W) st.m (st.f + 2) (st.fgLen - 2)) with z | z
      · exact z
      · have h3 := Nat.mul_le_mul_left ((2 ^ W) ^ 2) z
        have h4 : 2 ^ W * 1 ≤ (2 ^ W) ^ 2 := by rw [pow_two]; exact Nat.mul_le_mul_left _ hB
        omega
    rw [z1, z2, Nat.mul_zero, Nat.mul_zero] at e
    replace e : 2 ^ i = st.m st.f := e
    refine ⟨?_, z1, z2⟩
    rw [← e, Nat.shiftRight_eq_div_pow, Nat.div_self (Nat.two_pow_pos i)]

/-- The result of the main loop. -/
structure AIRes (W : Nat) (m m' : WMem) (R T A M N k : Nat) : Prop where
  allw : AllW (2 ^ W) m'
  frame : Fr m m' R N T (4 * N)
  kle : k ≤ 2 * N * W
  zero : Nat.gcd A M ≠ 1 ∨ M = 1 → mval (2 ^ W) m' R N = 0 ∧ k = 0
  inv : Nat.gcd A M = 1 → M ≠ 1 → 0 < mval (2 ^ W) m' R N ∧ mval (2 ^ W) m' R N < M ∧ mval (2 ^ W) m' R N * A % M = 2 ^ k % M

theorem aiLoop_spec {R Mp : Nat} (hMo : M % 2 = 1) (hRT : R + N ≤ T ∨ T + 4 * N ≤ R) (hRM : R + N ≤ Mp ∨ Mp + N ≤ R)
    (hTM : T + 4 * N ≤ Mp ∨ Mp + N ≤ T) : ∀ (n : Nat) (st : AISt), Good W T N A M st → mval (2 ^ W) st.m Mp N = M →
    ((mval (2 ^ W) st.m st.f st.fgLen % 2 = 0 ∧ 2 * N * W + 1 ≤ n + st.k) ∨ 2 * N * W + 2 ≤ n + st.k) →
    ∃ m' k, aiLoop W R Mp N n st = some (m', k) ∧ AIRes W st.m m' R T A M N k := by
  have hB : 0 < 2 ^ W := Nat.two_pow_pos W
  have hB1 : 1 < 2 ^ W := Nat.one_lt_pow (by omega) (by omega)
  intro n
  induction n with
  | zero => intro st h _ hn; have := h.kle; omega
  | succ n ih =>
    intro st h hMv hn
    rw [aiLoop]
    obtain ⟨z, st1, e1, h1, s1, k1, z1, z2, z3⟩ := aiInner_spec hW hN2 hM hA st.fgLen st h (mval_lt h.allw _ _)
    rw [e1]
    have hMv1 : mval (2 ^ W) st1.m Mp N = M := by rw [mval_same s1 (by omega), hMv]
    have bcN := h1.bcN
    have bc := h1.bc
    cases z with
    | true =>
      simp only
      refine ⟨_, _, rfl, ?_⟩
      obtain ⟨w2, s2, v2⟩ := mZero_spec hB h1.allw R N
      have hz := z1 rfl
      have inv := h1.inv
      rw [hz] at inv
      exact ⟨w2, fun x hx hy => by rw [s2 x hx, s1 x hy], by omega, fun _ => ⟨v2, rfl⟩, fun hg hM1 => absurd hg (inv.zero hM1)⟩
    | false =>
      simp only
      have hne := z2 rfl
      obtain ⟨g1, gs, g2, g3⟩ := aiBitShift_spec hW hN2 hM hA h1 hne
      have hone := aiIsOne_spec hW hN2 hM hA h1 hne g2
      by_cases hd : mval (2 ^ W) (aiBitShift W st1 (trailingZeros W (st1.m st1.f))).m st1.f st1.fgLen = 1
      · rw [if_pos (hone.mpr hd)]
        refine ⟨_, _, rfl, ?_⟩
        have inv := h1.inv
        rw [g2, hd] at inv
        have inv2 := inv.shr
        have hkb := inv2.bound (by omega) (prod_bound hM hA)
        have hM1 : M ≠ 1 := by
          rintro rfl
          have hsz := inv2.size
          have h0 : A = 0 := by omega
          rw [h0, Nat.zero_mul, Nat.one_mul] at hsz
          have hgp := inv2.godd
          have := Nat.mul_pos (show 0 < mval (2 ^ W) st1.m st1.g st1.fgLen by omega) (Nat.two_pow_pos (st1.k + trailingZeros W (st1.m st1.f)))
          omega
        obtain ⟨d1, d2, d3, d4⟩ := inv2.done hMo (by omega)
        have hbN : mval (2 ^ W) st1.m st1.b N = mval (2 ^ W) st1.m st1.b st1.bcLen := mval_pad_le bcN h1.zb
        have hres : ∀ m', AllW (2 ^ W) m' → Same st1.m m' R N →
            mval (2 ^ W) m' R N = (if st1.s then M - mval (2 ^ W) st1.m st1.b st1.bcLen else mval (2 ^ W) st1.m st1.b st1.bcLen) →
            AIRes W st.m m' R T A M N (st1.k + trailingZeros W (st1.m st1.f)) := by
          intro m' wm sm vm
          refine ⟨wm, fun x hx hy => by rw [sm x hx, s1 x hy], by omega, fun hg => absurd d1 (by rcases hg with hg | hg <;> [exact hg; exact absurd hg hM1]), fun _ _ => ?_⟩
          rw [vm]
          refine ⟨?_, ?_, d4⟩
          · split <;> omega
          · split <;> omega
        cases hs : st1.s with
        | true =>
          rw [if_pos rfl]
          rw [hs] at hres
          obtain ⟨w2, s2, b2, v2⟩ := mSub_spec hB1 h1.allw R Mp st1.b N hN2
          refine hres _ w2 s2 ?_
          rw [hMv1, hbN] at v2
          rw [if_pos rfl]
          rcases (by omega : (mSub (2 ^ W) st1.m R Mp st1.b N).2 = 0 ∨ (mSub (2 ^ W) st1.m R Mp st1.b N).2 = 1) with hb | hb
          · rw [hb] at v2; omega
          · rw [hb] at v2
            have := mval_lt w2 R N
            omega
        | false =>
          rw [if_neg (by simp)]
          rw [hs] at hres
          obtain ⟨w2, s2, v2⟩ := mCopy_spec hB h1.allw R st1.b N
          refine hres _ w2 s2 ?_
          rw [v2, hbN, if_neg (by simp)]
      · rw [if_neg (fun hc => hd (hone.mp hc))]
        have kb : (aiBitShift W st1 (trailingZeros W (st1.m st1.f))).k = st1.k + trailingZeros W (st1.m st1.f) := rfl
        have hf0 : (aiBitShift W st1 (trailingZeros W (st1.m st1.f))).f = st1.f := rfl
        have hl0 : (aiBitShift W st1 (trailingZeros W (st1.m st1.f))).fgLen = st1.fgLen := rfl
        -- k grows when `f` was even
        have hgrow : mval (2 ^ W) st.m st.f st.fgLen % 2 = 0 → st.k < st1.k + trailingZeros W (st1.m st1.f) := by
          intro hev
          rcases Nat.lt_or_ge st.k st1.k with hlt | hge
          · omega
          · have hkeq : st1.k = st.k := by omega
            have hw := z3 rfl hkeq
            obtain ⟨t1, t2, t3⟩ := trailingZeros_spec W (st1.m st1.f) hne (h1.allw _)
            rcases Nat.eq_zero_or_pos (trailingZeros W (st1.m st1.f)) with h0 | h0
            · exfalso
              rw [h0, Nat.shiftRight_zero] at t3
              obtain ⟨r, hr⟩ := low_word_of hW hN2 hM hA hB (m := st.m) (a := st.f) (n := st.fgLen) (by have := h.fg2; omega)
              obtain ⟨j, hj⟩ : ∃ j, W = j + 1 := ⟨W - 1, by omega⟩
              have ej : 2 ^ W * r = 2 * (2 ^ j * r) := by rw [hj]; ring
              rw [ej, ← hw] at hr
              omega
            · omega
        replace g3 : mval (2 ^ W) (aiBitShift W st1 (trailingZeros W (st1.m st1.f))).m
          (aiBitShift W st1 (trailingZeros W (st1.m st1.f))).f (aiBitShift W st1 (trailingZeros W (st1.m st1.f))).fgLen % 2 = 1 := g3
        replace hd : mval (2 ^ W) (aiBitShift W st1 (trailingZeros W (st1.m st1.f))).m
          (aiBitShift W st1 (trailingZeros W (st1.m st1.f))).f (aiBitShift W st1 (trailingZeros W (st1.m st1.f))).fgLen ≠ 1 := hd
        clear hone g2 hf0 hl0
        generalize aiBitShift W st1 (trailingZeros W (st1.m st1.f)) = st2 at *
        obtain ⟨p1, p2, p3, p4, p5, p6⟩ := aiSwap_spec g1 g3 hd
        generalize aiSwap st2 = st3 at *
        obtain ⟨q1, q2, q3, q4, q5⟩ := aiShrink_spec hW p1 p4
        generalize aiShrink st3 = st4 at *
        rw [← q4, ← q5] at p4 p6
        rw [← q4] at p5
        obtain ⟨r1, r2, r3, r4⟩ := aiSub_spec hW hN2 hM hA q1 p4 p5 p6
        generalize aiSub W st4 = st5 at *
        rw [q2, p2] at r2
        have hs5 : Same st.m st5.m T (4 * N) := fun x hx => by rw [r2 x hx, gs x hx, s1 x hx]
        obtain ⟨m', k, e2, res⟩ := ih st5 r1 (by rw [mval_same hs5 (by omega), hMv]) (by
          left
          refine ⟨r4, ?_⟩
          rcases hn with ⟨ha, hb⟩ | hb
          · have := hgrow ha; omega
          · omega)
        refine ⟨m', k, e2, res.allw, fun x hx hy => by rw [res.frame x hx hy, hs5 x hy], res.kle, res.zero, res.inv⟩

end

/-- `AlmostInverse(R, T, A, NA, M, N)` for an odd modulus and a reduced argument.  The argument may overlap the result. -/
theorem almostInverse_spec {W : Nat} (hW : 8 ≤ W) {m : WMem} (hm : AllW (2 ^ W) m) {R T A NA M N : Nat} (hN2 : N % 2 = 0) (hN : 0 < N)
    (hNA : NA ≤ 2 * N) (hodd : mval (2 ^ W) m M N % 2 = 1) (hA : mval (2 ^ W) m A NA < mval (2 ^ W) m M N)
    (hRT : R + N ≤ T ∨ T + 4 * N ≤ R) (hRM : R + N ≤ M ∨ M + N ≤ R) (hTM : T + 4 * N ≤ M ∨ M + N ≤ T)
    (hTA : T + 4 * N ≤ A ∨ A + NA ≤ T) :
    ∃ m' k, almostInverse W m R T A NA M N = some (m', k) ∧
      AIRes W m m' R T (mval (2 ^ W) m A NA) (mval (2 ^ W) m M N) N k := by
  have hB : 0 < 2 ^ W := Nat.two_pow_pos W
  have hB1 : 1 < 2 ^ W := Nat.one_lt_pow (by omega) (by omega)
  unfold almostInverse
  simp only
  obtain ⟨l1, l2, l3⟩ := evenWC_spec (B := 2 ^ W) m M N hN2
  have l4 : evenWC m M N ≠ 0 := fun h => by
    rw [(evenWC_eq_zero hB m M N hN2).mp h] at hodd; omega
  obtain ⟨w0, s0, v0⟩ := mZero_spec hB hm T (3 * N)
  have z0 : ∀ x, T ≤ x → x < T + 3 * N → mZero m T (3 * N) x = 0 := fun x h1 h2 => mZero_at m T (3 * N) x h1 h2
  generalize mZero m T (3 * N) = m0 at *
  have w1 : AllW (2 ^ W) (setW m0 T 1) := setW_allW w0 _ hB1
  have s1 := setW_sameR m0 T 1
  have e1 : setW m0 T 1 T = 1 := setW_same _ _ _
  generalize setW m0 T 1 = m1 at *
  obtain ⟨w2, s2, v2⟩ := mCopy_spec hB w1 (T + 2 * N) A NA
  generalize mCopy m1 (T + 2 * N) A NA = m2 at *
  obtain ⟨w3, s3, v3⟩ := mCopy_spec hB w2 (T + 3 * N) M N
  generalize mCopy m2 (T + 3 * N) M N = m3 at *
  have hMm2 : mval (2 ^ W) m2 M N = mval (2 ^ W) m M N := by
    rw [mval_same s2 (by omega), mval_same s1 (by omega), mval_same s0 (by omega)]
  have hAm : mval (2 ^ W) m1 A NA = mval (2 ^ W) m A NA := by rw [mval_same s1 (by omega), mval_same s0 (by omega)]
  rw [hAm] at v2
  rw [hMm2] at v3
  have hM3 : mval (2 ^ W) m3 M N = mval (2 ^ W) m M N := by rw [mval_same s3 (by omega), hMm2]
  have hMlt : mval (2 ^ W) m M N < (2 ^ W) ^ evenWC m M N := by rw [← l3]; exact mval_lt hm _ _
  -- g on `fgLen` words
  have hg : mval (2 ^ W) m3 (T + 3 * N) (evenWC m M N) = mval (2 ^ W) m M N := by
    have e := mval_add (2 ^ W) m3 (T + 3 * N) (evenWC m M N) (N - evenWC m M N)
    rw [show evenWC m M N + (N - evenWC m M N) = N by omega, v3] at e
    have : mval (2 ^ W) m3 (T + 3 * N + evenWC m M N) (N - evenWC m M N) = 0 := by
      rcases Nat.eq_zero_or_pos (mval (2 ^ W) m3 (T + 3 * N + evenWC m M N) (N - evenWC m M N)) with h | h
      · exact h
      · have := Nat.mul_le_mul_left ((2 ^ W) ^ evenWC m M N) h
        omega
    rw [this] at e; omega
  -- f on `max NA N` words of memory 2, then on `fgLen` words
  have hf : mval (2 ^ W) m3 (T + 2 * N) (evenWC m M N) = mval (2 ^ W) m A NA := by
    rw [mval_same s3 (by omega)]
    have hAlt : mval (2 ^ W) m A NA < (2 ^ W) ^ evenWC m M N := by omega
    rcases Nat.le_total (evenWC m M N) NA with hle | hle
    · have e := mval_add (2 ^ W) m2 (T + 2 * N) (evenWC m M N) (NA - evenWC m M N)
      rw [show evenWC m M N + (NA - evenWC m M N) = NA by omega, v2] at e
      have : mval (2 ^ W) m2 (T + 2 * N + evenWC m M N) (NA - evenWC m M N) = 0 := by
        rcases Nat.eq_zero_or_pos (mval (2 ^ W) m2 (T + 2 * N + evenWC m M N) (NA - evenWC m M N)) with h | h
        · exact h
        · have := Nat.mul_le_mul_left ((2 ^ W) ^ evenWC m M N) h
          omega
      rw [this] at e; omega
    · rw [← v2]
      refine mval_pad_le hle (fun x h1 h2 => ?_)
      rw [s2 _ (by omega), s1 _ (by omega), z0 _ (by omega) (by omega)]
  have hzT : ∀ x, T + 1 ≤ x → x < T + 2 * N → m3 x = 0 := fun x h1 h2 => by
    rw [s3 x (by omega), s2 x (by omega), s1 x (by omega), z0 x (by omega) (by omega)]
  have hT1 : m3 T = 1 := by rw [s3 T (by omega), s2 T (by omega), e1]
  have hb : mval (2 ^ W) m3 T 2 = 1 := by
    rw [mval_succ, mval_one, hT1, hzT (T + 1) (by omega) (by omega)]; simp
  have hc : mval (2 ^ W) m3 (T + N) 2 = 0 := mval_of_zero (fun x h1 h2 => hzT x (by omega) (by omega))
  have good : Good W T N (mval (2 ^ W) m A NA) (mval (2 ^ W) m M N) ⟨m3, T, T + N, T + 2 * N, T + 3 * N, 2, evenWC m M N, 0, false⟩ := by
    refine ⟨w3, Or.inl ⟨rfl, rfl⟩, Or.inl ⟨rfl, rfl⟩, (show 2 % 2 = 0 from rfl), Nat.le_refl _, by show 2 ≤ N; omega, l1, ?_, l2, ?_, ?_, Nat.zero_le _, ?_⟩
    · show 2 ≤ evenWC m M N; omega
    · intro x h1 h2
      replace h1 : 2 ≤ x := h1
      exact hzT (T + x) (by omega) (by omega)
    · intro x h1 h2
      replace h1 : 2 ≤ x := h1
      exact hzT (T + N + x) (by omega) (by omega)
    · simp only
      rw [hb, hc, hf, hg]
      exact AInv.init hodd hA
  obtain ⟨m', k, r1, r2⟩ := aiLoop_spec hW hN2 (mval_lt hm M N) hA hodd hRT hRM hTM (2 * N * W + 2) _ good hM3 (Or.inr (by simp))
  refine ⟨m', k, r1, r2.allw, ?_, r2.kle, r2.zero, r2.inv⟩
  intro x hx hy
  rw [r2.frame x hx hy]
  show m3 x = m x
  rw [s3 x (by omega), s2 x (by omega), s1 x (by omega), s0 x (by omega)]

end Verif.Integer
