import Verif.Integer.ModProofs
import Mathlib.Tactic.LinearCombination

/-!
# Proofs about `ModularArithmetic::Inverse` and `Half`, and about `MontgomeryRepresentation`
-/
namespace Verif.Integer

variable {ws : Nat}

namespace ModArith

variable {ma : ModArith}

theorem inverse_arith {P Q t r A M rest d c c' : Nat} (h1 : r + A = t + P * c) (h2 : M = t + P * rest) (hA : A < M) (hr : r < P)
    (hc : c ≤ 1) (hc0 : c ≠ 0) (h3 : d + 1 = rest + Q * c') (hd : d < Q) (hc' : c' ≤ 1) : r + P * d = M - A := by
  have hc1 : c = 1 := by omega
  subst hc1
  have hrest : rest ≠ 0 := by rintro rfl; simp at *; omega
  have : c' = 0 := by
    rcases Nat.lt_or_ge c' 1 with h | h
    · omega
    · have : c' = 1 := by omega
      subst this; omega
  subst this
  simp only [Nat.mul_one, Nat.mul_zero, Nat.add_zero] at *
  rw [← h3, Nat.mul_add, Nat.mul_one] at h2
  omega

theorem inverseWords_spec (hw : 0 < ws) (g : ma.Good ws) {l : List Nat} (hl : Words (base ws) l) (h2 : l.length % 2 = 0)
    (hle : l.length ≤ ma.rsize) (hlt : wval (base ws) l < wval (base ws) ma.modulus.reg) :
    (inverseWords ws ma l).length = ma.rsize ∧ Words (base ws) (inverseWords ws ma l) ∧
      wval (base ws) (inverseWords ws ma l) = wval (base ws) ma.modulus.reg - wval (base ws) l := by
  have hB := base_gt hw
  have hB0 : 0 < base ws := by omega
  have hrle := g.rle
  unfold inverseWords
  simp only
  have hm0 : wval (base ws) (ma.modulus.reg ++ List.replicate (ma.rsize - ma.size) 0) = wval (base ws) ma.modulus.reg := by
    rw [wval_append]; simp
  have hm0w : Words (base ws) (ma.modulus.reg ++ List.replicate (ma.rsize - ma.size) 0) := g.okm.words.append (Words.replicate hB0 _)
  have hm0l : (ma.modulus.reg ++ List.replicate (ma.rsize - ma.size) 0).length = ma.rsize := by
    simp only [List.length_append, List.length_replicate]; unfold size; omega
  have hz : ∀ n, ma.size ≤ n → wval (base ws) ((ma.modulus.reg ++ List.replicate (ma.rsize - ma.size) 0).drop n) = 0 := by
    intro n hn
    rw [List.drop_append, List.drop_of_length_le (by exact hn), List.nil_append, List.drop_replicate, wval_zeros]
  generalize hm0e : ma.modulus.reg ++ List.replicate (ma.rsize - ma.size) 0 = m0 at *
  obtain ⟨l1, w1, c1, v1⟩ := baselineSub_spec hB h2 (m0.take l.length) l (hm0w.take _) hl (by simp; omega) (Nat.le_refl _)
  rw [List.take_take, Nat.min_self, List.take_length] at v1
  have hsp := wval_take_drop (base ws) m0 l.length (by omega)
  rw [hm0] at hsp
  generalize baselineSub (base ws) l.length (m0.take l.length) l = r at *
  obtain ⟨r, c⟩ := r
  simp only at *
  by_cases hc : c = 0
  · rw [if_neg (by simpa using hc)]
    refine ⟨by simp; omega, w1.append (hm0w.drop _), ?_⟩
    subst hc
    rw [wval_append, l1]
    rw [Nat.mul_zero] at v1
    omega
  · rw [if_pos (by simpa using hc)]
    have hla : l.length < ma.size := by
      by_contra hcon
      rw [hz _ (by omega), Nat.mul_zero] at hsp
      have := wval_lt w1
      have hc1 : c = 1 := by omega
      subst hc1
      rw [l1] at this
      omega
    have htl : ((m0.drop l.length).take (ma.size - l.length)).length = ma.size - l.length := by
      simp only [List.length_take, List.length_drop]; unfold size at *; omega
    obtain ⟨l3, w3, c3, v3⟩ := decrement_spec hB 1 hB ((m0.drop l.length).take (ma.size - l.length)) ((hm0w.drop _).take _)
      (by intro h; rw [h] at htl; simp at htl; omega)
    have hsp2 := wval_take_drop (base ws) (m0.drop l.length) (ma.size - l.length) (by simp; unfold size at *; omega)
    rw [List.drop_drop, show l.length + (ma.size - l.length) = ma.size by omega, hz _ (Nat.le_refl _), Nat.mul_zero, Nat.add_zero] at hsp2
    rw [← hsp2] at v3
    have hd := wval_lt w3
    rw [l3] at hd
    generalize decrement (base ws) 1 ((m0.drop l.length).take (ma.size - l.length)) = d at *
    obtain ⟨d, c'⟩ := d
    simp only at *
    refine ⟨by simp only [List.length_append, List.length_drop]; unfold size at *; omega, w1.append (w3.append ((hm0w.drop _).drop _)), ?_⟩
    rw [wval_append, wval_append, l1, List.drop_drop, show l.length + (ma.size - l.length) = ma.size by omega, hz _ (Nat.le_refl _),
      Nat.mul_zero, Nat.add_zero]
    have hr := wval_lt w1
    rw [l1] at hr
    exact inverse_arith v1 hsp hlt hr c1 hc v3 hd c3

theorem inverse_spec (hw : 0 < ws) (g : ma.Good ws) {a : Obj} (ha : Ok ws a) (a0 : 0 ≤ value ws a)
    (a1 : value ws a < value ws ma.modulus) (hlen : a.reg.length ≤ ma.rsize) :
    ∃ r, ma.inverse ws false a = .ok r ∧ Ok ws r ∧ value ws r = (-value ws a) % value ws ma.modulus := by
  unfold inverse
  rw [isZero_spec hw ha]
  by_cases hz : value ws a = 0
  · rw [if_pos (by simpa using hz)]
    exact ⟨a, rfl, ha, by rw [hz]; simp⟩
  · rw [if_neg (by simpa using hz), if_neg (by simp), if_neg (by omega)]
    have va := val_nn ha a0
    have vm := g.val
    obtain ⟨l, w, v⟩ := inverseWords_spec hw g ha.words (size_even ha.size).1 hlen (by omega)
    refine ⟨_, rfl, ⟨w, by simp only; rw [l]; exact g.rpow, by simp⟩, ?_⟩
    rw [value_pos rfl]
    simp only
    rw [v, ← Int.add_emod_right, Int.emod_eq_of_lt (by omega) (by omega)]
    omega

/-- `Inverse` applied to the reference an earlier operation returned always gives zero. -/
theorem inverse_self (hw : 0 < ws) (g : ma.Good ws) {a : Obj} (ha : Ok ws a) (hz : value ws a ≠ 0) :
    ∃ r, ma.inverse ws true a = .ok r ∧ value ws r = 0 := by
  have hB := base_gt hw
  have hB0 : 0 < base ws := by omega
  have hrle := g.rle
  unfold inverse
  rw [isZero_spec hw ha, if_neg (by simpa using hz), if_pos rfl]
  refine ⟨_, rfl, ?_⟩
  rw [value_pos rfl]
  unfold inverseWords
  simp only
  have hm0w : Words (base ws) (ma.modulus.reg ++ List.replicate (ma.rsize - ma.size) 0) := g.okm.words.append (Words.replicate hB0 _)
  have hm0l : (ma.modulus.reg ++ List.replicate (ma.rsize - ma.size) 0).length = ma.rsize := by
    simp only [List.length_append, List.length_replicate]; unfold size; omega
  generalize ma.modulus.reg ++ List.replicate (ma.rsize - ma.size) 0 = m0 at *
  obtain ⟨l1, w1, c1, v1⟩ := baselineSub_spec hB (N := m0.length) (by rw [hm0l]; exact (size_even g.rpow).1) (m0.take m0.length) m0 (by rw [List.take_length]; exact hm0w) hm0w
    (by simp) (Nat.le_refl _)
  simp only [List.take_length] at l1 w1 c1 v1
  simp only [List.take_length, List.drop_length]
  have hr := wval_lt w1
  rw [l1] at hr
  generalize baselineSub (base ws) m0.length m0 m0 = r at *
  obtain ⟨r, c⟩ := r
  simp only at *
  have hc : c = 0 := by
    rcases Nat.lt_or_ge c 1 with h | h
    · omega
    · have : c = 1 := by omega
      subst this; omega
  subst hc
  simp
  omega

theorem half_spec (hw : 0 < ws) (g : ma.Good ws) {junk : WMem} (hj : AllW (base ws) junk) {a : Obj} (ha : Ok ws a)
    (a0 : 0 ≤ value ws a) (a1 : value ws a < value ws ma.modulus) (hodd : value ws ma.modulus % 2 = 1) :
    Ok ws (ma.half ws junk a) ∧ 0 ≤ value ws (ma.half ws junk a) ∧ value ws (ma.half ws junk a) < value ws ma.modulus ∧
      2 * value ws (ma.half ws junk a) % value ws ma.modulus = value ws a := by
  have hB := base_gt hw
  have hB0 : 0 < base ws := by omega
  have va := val_nn ha a0
  have vm := g.val
  obtain ⟨ge, g2⟩ := g.even
  unfold half
  split
  · rename_i hl
    simp only
    have w : AllW (base ws) (storeW (storeW junk ma.size a.reg) (2 * ma.size) ma.modulus.reg) :=
      storeW_allW hB0 (storeW_allW hB0 hj _ ha.words) _ g.okm.words
    have vM : mval (base ws) (storeW (storeW junk ma.size a.reg) (2 * ma.size) ma.modulus.reg) (2 * ma.size) ma.size = wval (base ws) ma.modulus.reg :=
      mval_storeW _ _ _ _ _ rfl
    have vA : mval (base ws) (storeW (storeW junk ma.size a.reg) (2 * ma.size) ma.modulus.reg) ma.size ma.size = wval (base ws) a.reg := by
      rw [mval_same (storeW_same _ _ _ ma.size rfl) (by omega), mval_storeW _ _ _ _ _ hl]
    generalize storeW (storeW junk ma.size a.reg) (2 * ma.size) ma.modulus.reg = m at *
    obtain ⟨w1, s1, lt1, v1⟩ := divideByPower2Mod_spec (W := 8 * ws) (by omega) (m := m) w (R := 0) (A := ma.size) (k := 1) (M := 2 * ma.size) (N := ma.size)
      (by omega) ge (by omega) (by change mval (base ws) m _ _ % 2 = 1; rw [vM]; omega)
      (by change mval (base ws) m _ _ < mval (base ws) m _ _; rw [vM, vA]; omega)
    change mval (base ws) _ _ _ < mval (base ws) m _ _ at lt1
    change mval (base ws) _ _ _ * _ % mval (base ws) m _ _ = mval (base ws) m _ _ % mval (base ws) m _ _ at v1
    rw [vM] at lt1 v1
    rw [vA, Nat.mod_eq_of_lt (show wval (base ws) a.reg < wval (base ws) ma.modulus.reg by omega), pow_one] at v1
    obtain ⟨r1, r2, _⟩ := result_spec hw g (loadW_words w1 0 ma.size) (by simp)
    change value ws _ = (mval (base ws) _ _ _ : Int) at r2
    generalize mval (base ws) (divideByPower2Mod (8 * ws) m 0 ma.size 1 (2 * ma.size) ma.size) 0 ma.size = h at *
    refine ⟨r1, by omega, by omega, ?_⟩
    rw [r2, vm, va, ← v1, mul_comm]
    push_cast; rfl
  · rw [isOdd_spec hw ha]
    by_cases he : value ws a % 2 = 1
    · rw [if_neg (by simp [he])]
      obtain ⟨po, pv⟩ := plus_spec hw ha g.okm
      obtain ⟨so, sv⟩ := shrAssign_spec hw po 1
      obtain ⟨so2, sv2⟩ := assign_spec hw ma.result1 so
      rw [pv, pow_one, Int.tdiv_eq_ediv_of_nonneg (by omega)] at sv
      rw [sv2, sv]
      refine ⟨so2, by omega, by omega, ?_⟩
      rw [show 2 * ((value ws a + value ws ma.modulus) / 2) = value ws a + value ws ma.modulus by omega, Int.add_emod_right,
        Int.emod_eq_of_lt a0 a1]
    · rw [if_pos (by simpa using he)]
      obtain ⟨po, pv⟩ := copyCtor_spec hw ha
      obtain ⟨so, sv⟩ := shrAssign_spec hw po 1
      obtain ⟨so2, sv2⟩ := assign_spec hw ma.result1 so
      rw [pv, pow_one, Int.tdiv_eq_ediv_of_nonneg (by omega)] at sv
      rw [sv2, sv]
      refine ⟨so2, by omega, by omega, ?_⟩
      rw [show 2 * (value ws a / 2) = value ws a by omega, Int.emod_eq_of_lt a0 a1]

end ModArith

/-! ## `MontgomeryRepresentation` -/

/-- The state of a `MontgomeryRepresentation` object. -/
structure Mont.Good (ws : Nat) (mr : Mont) : Prop extends mr.toModArith.Good ws where
  odd : value ws mr.modulus % 2 = 1
  ulen : mr.u.length = mr.size
  uwords : Words (base ws) mr.u
  uinv : wval (base ws) mr.u * wval (base ws) mr.modulus.reg % base ws ^ mr.size = 1

theorem mont_mk'_good (hw : 0 < ws) {junk : WMem} (hj : AllW (base ws) junk) {m : Obj} (hm : Ok ws m) (hp : 0 < value ws m)
    (hodd : value ws m % 2 = 1) :
    ∃ mr, Mont.mk' ws junk m = .ok mr ∧ mr.Good ws ∧ mr.toModArith = ModArith.mk' m ∧ value ws mr.modulus = value ws m := by
  have hB := base_gt hw
  have hB0 : 0 < base ws := by omega
  obtain ⟨g, gv⟩ := mk'_good hw hm hp
  unfold Mont.mk'
  simp only
  rw [isOdd_spec hw g.okm, if_neg (by rw [gv]; simp [hodd])]
  refine ⟨_, rfl, ?_, rfl, gv⟩
  generalize ModArith.mk' m = ma at *
  obtain ⟨ge, g2⟩ := g.even
  have w : AllW (base ws) (storeW junk (6 * ma.size) ma.modulus.reg) := storeW_allW hB0 hj _ g.okm.words
  have vM : mval (base ws) (storeW junk (6 * ma.size) ma.modulus.reg) (6 * ma.size) ma.size = wval (base ws) ma.modulus.reg :=
    mval_storeW _ _ _ _ _ rfl
  have vm := g.val
  generalize storeW junk (6 * ma.size) ma.modulus.reg = m0 at *
  have hm0 : m0 (6 * ma.size) % 2 = 1 := by
    have h1 := mval_succ_left (base ws) m0 (6 * ma.size) (ma.size - 1)
    rw [show ma.size - 1 + 1 = ma.size by omega, vM] at h1
    have h2 := base_even hw
    obtain ⟨b, hb⟩ : ∃ b, base ws = 2 * b := ⟨base ws / 2, by omega⟩
    have h3 : wval (base ws) ma.modulus.reg % 2 = 1 := by omega
    have h4 : base ws * mval (base ws) m0 (6 * ma.size + 1) (ma.size - 1) = 2 * (b * mval (base ws) m0 (6 * ma.size + 1) (ma.size - 1)) := by
      rw [hb, Nat.mul_assoc]
    omega
  obtain ⟨w1, s1, v1⟩ := recursiveInverse_spec (W := 8 * ws) (by omega) (m := m0) w (R := 0) (T := ma.size) (A := 6 * ma.size) (N := ma.size)
    (K := 5 * ma.size) g.pow hm0 (by omega) (by omega) (by omega) (by omega) (by omega)
  refine { toGood := g, odd := by show value ws ma.modulus % 2 = 1; omega, ulen := by simp [ModArith.size], uwords := loadW_words w1 _ _, uinv := ?_ }
  change mval (base ws) _ _ _ * mval (base ws) m0 _ _ % _ = 1 at v1
  rw [vM] at v1
  exact v1

namespace Mont

variable {mr : Mont}

theorem mem_spec (hw : 0 < ws) (g : mr.Good ws) {junk : WMem} (hj : AllW (base ws) junk) :
    AllW (base ws) (mr.mem junk) ∧ mval (base ws) (mr.mem junk) (6 * mr.size) mr.size = wval (base ws) mr.modulus.reg ∧
      mval (base ws) (mr.mem junk) (7 * mr.size) mr.size = wval (base ws) mr.u := by
  have hB0 : 0 < base ws := by have := base_gt hw; omega
  unfold mem
  refine ⟨storeW_allW hB0 (storeW_allW hB0 hj _ g.okm.words) _ g.uwords, ?_, mval_storeW _ _ _ _ _ g.ulen⟩
  rw [mval_same (storeW_same _ _ _ mr.size g.ulen) (by omega), mval_storeW _ _ _ _ mr.size rfl]

theorem reduceT_spec (hw : 0 < ws) (g : mr.Good ws) {m : WMem} (hm : AllW (base ws) m)
    (hM : mval (base ws) m (6 * mr.size) mr.size = wval (base ws) mr.modulus.reg)
    (hU : mval (base ws) m (7 * mr.size) mr.size = wval (base ws) mr.u)
    (hX : mval (base ws) m 0 (2 * mr.size) < base ws ^ mr.size * wval (base ws) mr.modulus.reg) :
    AllW (base ws) (mr.reduceT ws m) ∧ mval (base ws) (mr.reduceT ws m) (6 * mr.size) mr.size = wval (base ws) mr.modulus.reg ∧
      mval (base ws) (mr.reduceT ws m) (5 * mr.size) mr.size < wval (base ws) mr.modulus.reg ∧
      mval (base ws) (mr.reduceT ws m) (5 * mr.size) mr.size * base ws ^ mr.size % wval (base ws) mr.modulus.reg
        = mval (base ws) m 0 (2 * mr.size) % wval (base ws) mr.modulus.reg := by
  unfold reduceT
  obtain ⟨a1, a2, a3, a4⟩ := montgomeryReduce_spec (base_ge hw) hm (R := 5 * mr.size) (T := 2 * mr.size) (X := 0) (M := 6 * mr.size)
    (U := 7 * mr.size) (N := mr.size) g.pow (by omega) (by omega) (by omega) (by omega) (by omega) (by omega) (by omega)
    (by rw [hU, hM]; exact g.uinv) (by rw [hM]; exact hX)
  rw [hM] at a3 a4
  exact ⟨a1, by rw [mval_fr a2 (by omega) (by omega), hM], a3, a4⟩

/-- The value of the Montgomery radix `R = 2^(WORD_BITS * N)`. -/
def radix (ws : Nat) (mr : Mont) : Int := 2 ^ (8 * ws * mr.size)

theorem radix_eq (ws : Nat) (mr : Mont) : radix ws mr = ((base ws ^ mr.size : Nat) : Int) := by
  unfold radix; rw [base_pow]; push_cast; rfl

theorem finish (hw : 0 < ws) (g : mr.Good ws) {m : WMem} (hm : AllW (base ws) m) {X : Nat}
    (h1 : mval (base ws) m (5 * mr.size) mr.size < wval (base ws) mr.modulus.reg)
    (h2 : mval (base ws) m (5 * mr.size) mr.size * base ws ^ mr.size % wval (base ws) mr.modulus.reg = X % wval (base ws) mr.modulus.reg) :
    Ok ws (mr.result (loadW m (5 * mr.size) mr.size)) ∧ 0 ≤ value ws (mr.result (loadW m (5 * mr.size) mr.size)) ∧
      value ws (mr.result (loadW m (5 * mr.size) mr.size)) < value ws mr.modulus ∧
      value ws (mr.result (loadW m (5 * mr.size) mr.size)) * radix ws mr % value ws mr.modulus = (X : Int) % value ws mr.modulus ∧
      (mr.result (loadW m (5 * mr.size) mr.size)).reg.length = mr.rsize := by
  obtain ⟨r1, r2, r3⟩ := ModArith.result_spec hw g.toGood (loadW_words hm (5 * mr.size) mr.size) (by simp)
  change value ws _ = (mval (base ws) _ _ _ : Int) at r2
  have vm := g.val
  rw [r2, vm, radix_eq]
  exact ⟨r1, by omega, by omega, by exact_mod_cast h2, r3⟩

theorem multiply_spec (hw : 0 < ws) (g : mr.Good ws) {junk : WMem} (hj : AllW (base ws) junk) {same : Bool} {a b : Obj}
    (ha : Ok ws a) (hb : Ok ws b) (hs : same = true → a = b) (a0 : 0 ≤ value ws a) (a1 : value ws a < value ws mr.modulus)
    (b0 : 0 ≤ value ws b) (b1 : value ws b < value ws mr.modulus) (la : a.reg.length ≤ mr.size) (lb : b.reg.length ≤ mr.size) :
    ∃ r, mr.multiply ws junk same a b = .ok r ∧ Ok ws r ∧ 0 ≤ value ws r ∧ value ws r < value ws mr.modulus ∧
      value ws r * radix ws mr % value ws mr.modulus = value ws a * value ws b % value ws mr.modulus ∧ r.reg.length = mr.rsize := by
  have hB := base_gt hw
  have hB0 : 0 < base ws := by omega
  have va := ModArith.val_nn ha a0
  have vb := ModArith.val_nn hb b0
  have vm := g.val
  unfold multiply
  simp only
  rw [if_neg (by omega)]
  refine ⟨_, rfl, ?_⟩
  obtain ⟨w0, vM, vU⟩ := mem_spec hw g hj
  have hBp : ∃ Bp, (if same then 8 * mr.size else 8 * mr.size + a.reg.length) = Bp ∧ 8 * mr.size ≤ Bp ∧
      (same = true → Bp = 8 * mr.size) ∧ (same = false → Bp = 8 * mr.size + a.reg.length) := by
    refine ⟨_, rfl, ?_, ?_, ?_⟩
    · split <;> omega
    · intro h; rw [if_pos h]
    · intro h; rw [h]; rfl
  obtain ⟨Bp, hBpe, hBp1, hBp2, hBp3⟩ := hBp
  rw [hBpe]
  generalize mr.mem junk = m0 at *
  have w2 : AllW (base ws) (storeW (storeW m0 (8 * mr.size) a.reg) Bp b.reg) :=
    storeW_allW hB0 (storeW_allW hB0 w0 _ ha.words) _ hb.words
  have vB : mval (base ws) (storeW (storeW m0 (8 * mr.size) a.reg) Bp b.reg) Bp b.reg.length = wval (base ws) b.reg :=
    mval_storeW _ _ _ _ _ rfl
  have vA : mval (base ws) (storeW (storeW m0 (8 * mr.size) a.reg) Bp b.reg) (8 * mr.size) a.reg.length = wval (base ws) a.reg := by
    cases same with
    | true => have := hs rfl; subst this; rw [hBp2 rfl] at vB ⊢; exact vB
    | false =>
      rw [mval_same (storeW_same _ _ _ b.reg.length rfl) (by have := hBp3 rfl; omega), mval_storeW _ _ _ _ _ rfl]
  have vM2 : mval (base ws) (storeW (storeW m0 (8 * mr.size) a.reg) Bp b.reg) (6 * mr.size) mr.size = wval (base ws) mr.modulus.reg := by
    rw [mval_same (storeW_same _ _ _ b.reg.length rfl) (by omega), mval_same (storeW_same _ _ _ a.reg.length rfl) (by omega), vM]
  have vU2 : mval (base ws) (storeW (storeW m0 (8 * mr.size) a.reg) Bp b.reg) (7 * mr.size) mr.size = wval (base ws) mr.u := by
    rw [mval_same (storeW_same _ _ _ b.reg.length rfl) (by omega), mval_same (storeW_same _ _ _ a.reg.length rfl) (by omega), vU]
  generalize storeW (storeW m0 (8 * mr.size) a.reg) Bp b.reg = m at *
  obtain ⟨w3, s3, v3⟩ := asymmetricMultiply_spec (base_ge hw) (base_even hw) w2 (R := 0) (T := 2 * mr.size) (A := 8 * mr.size)
    (NA := a.reg.length) (Bp := Bp) (NB := b.reg.length) (by
      rcases Nat.le_total a.reg.length b.reg.length with h | h
      · exact Or.inl ⟨h, ha.size, pow2_dvd ha.size hb.size h⟩
      · exact Or.inr ⟨h, hb.size, pow2_dvd hb.size ha.size h⟩) (by omega) (by omega) (by omega) (by omega) (by omega)
  have vM3 := mval_fr (B := base ws) (a := 6 * mr.size) (c := mr.size) s3 (by omega) (by omega)
  have vU3 := mval_fr (B := base ws) (a := 7 * mr.size) (c := mr.size) s3 (by omega) (by omega)
  rw [vM2] at vM3
  rw [vU2] at vU3
  rw [vA, vB] at v3
  generalize asymmetricMultiply (base ws) m 0 (2 * mr.size) (8 * mr.size) a.reg.length Bp b.reg.length = m1 at *
  obtain ⟨w4, s4, v4⟩ := mZero_spec hB0 w3 (a.reg.length + b.reg.length) (2 * mr.size - a.reg.length - b.reg.length)
  have vM4 := mval_same (B := base ws) (a := 6 * mr.size) (n := mr.size) s4 (by omega)
  have vU4 := mval_same (B := base ws) (a := 7 * mr.size) (n := mr.size) s4 (by omega)
  have vX : mval (base ws) (mZero m1 (a.reg.length + b.reg.length) (2 * mr.size - a.reg.length - b.reg.length)) 0 (2 * mr.size)
      = wval (base ws) a.reg * wval (base ws) b.reg := by
    have h1 := mval_add (base ws) (mZero m1 (a.reg.length + b.reg.length) (2 * mr.size - a.reg.length - b.reg.length)) 0
      (a.reg.length + b.reg.length) (2 * mr.size - a.reg.length - b.reg.length)
    rw [show a.reg.length + b.reg.length + (2 * mr.size - a.reg.length - b.reg.length) = 2 * mr.size by omega, Nat.zero_add, v4,
      Nat.mul_zero, Nat.add_zero, mval_same s4 (a := 0) (n := (a.reg.length + b.reg.length)) (by omega), v3] at h1
    exact h1
  rw [vM3] at vM4
  rw [vU3] at vU4
  generalize mZero m1 (a.reg.length + b.reg.length) (2 * mr.size - a.reg.length - b.reg.length) = m2 at *
  have hbl : wval (base ws) mr.modulus.reg < base ws ^ mr.size := wval_lt g.okm.words
  obtain ⟨f1, f2, f3, f4⟩ := reduceT_spec hw g w4 vM4 vU4 (by
    rw [vX]
    exact Nat.mul_lt_mul'' (Nat.lt_trans (show _ < wval (base ws) mr.modulus.reg by omega) hbl) (by omega))
  rw [vX] at f4
  have := finish hw g f1 f3 f4
  rw [va, vb]
  push_cast at this
  exact this

theorem square_spec (hw : 0 < ws) (g : mr.Good ws) {junk : WMem} (hj : AllW (base ws) junk) {a : Obj}
    (ha : Ok ws a) (a0 : 0 ≤ value ws a) (a1 : value ws a < value ws mr.modulus) (la : a.reg.length ≤ mr.size) :
    ∃ r, mr.square ws junk a = .ok r ∧ Ok ws r ∧ 0 ≤ value ws r ∧ value ws r < value ws mr.modulus ∧
      value ws r * radix ws mr % value ws mr.modulus = value ws a * value ws a % value ws mr.modulus ∧ r.reg.length = mr.rsize := by
  have hB := base_gt hw
  have hB0 : 0 < base ws := by omega
  have va := ModArith.val_nn ha a0
  have vm := g.val
  unfold square
  simp only
  rw [if_neg (by omega)]
  refine ⟨_, rfl, ?_⟩
  obtain ⟨w0, vM, vU⟩ := mem_spec hw g hj
  generalize mr.mem junk = m0 at *
  have w2 : AllW (base ws) (storeW m0 (8 * mr.size) a.reg) := storeW_allW hB0 w0 _ ha.words
  have vA : mval (base ws) (storeW m0 (8 * mr.size) a.reg) (8 * mr.size) a.reg.length = wval (base ws) a.reg :=
    mval_storeW _ _ _ _ _ rfl
  have vM2 : mval (base ws) (storeW m0 (8 * mr.size) a.reg) (6 * mr.size) mr.size = wval (base ws) mr.modulus.reg := by
    rw [mval_same (storeW_same _ _ _ a.reg.length rfl) (by omega), vM]
  have vU2 : mval (base ws) (storeW m0 (8 * mr.size) a.reg) (7 * mr.size) mr.size = wval (base ws) mr.u := by
    rw [mval_same (storeW_same _ _ _ a.reg.length rfl) (by omega), vU]
  generalize storeW m0 (8 * mr.size) a.reg = m at *
  obtain ⟨w3, s3, v3⟩ := squareM_spec (base_ge hw) (base_even hw) w2 (R := 0) (T := 2 * mr.size) (A := 8 * mr.size)
    (N := a.reg.length) ha.size (by omega) (by omega) (by omega)
  have vM3 := mval_fr (B := base ws) (a := 6 * mr.size) (c := mr.size) s3 (by omega) (by omega)
  have vU3 := mval_fr (B := base ws) (a := 7 * mr.size) (c := mr.size) s3 (by omega) (by omega)
  rw [vM2] at vM3
  rw [vU2] at vU3
  rw [vA] at v3
  generalize squareM (base ws) m 0 (2 * mr.size) (8 * mr.size) a.reg.length = m1 at *
  obtain ⟨w4, s4, v4⟩ := mZero_spec hB0 w3 (2 * a.reg.length) (2 * mr.size - 2 * a.reg.length)
  have vM4 := mval_same (B := base ws) (a := 6 * mr.size) (n := mr.size) s4 (by omega)
  have vU4 := mval_same (B := base ws) (a := 7 * mr.size) (n := mr.size) s4 (by omega)
  have vX : mval (base ws) (mZero m1 (2 * a.reg.length) (2 * mr.size - 2 * a.reg.length)) 0 (2 * mr.size)
      = wval (base ws) a.reg * wval (base ws) a.reg := by
    have h1 := mval_add (base ws) (mZero m1 (2 * a.reg.length) (2 * mr.size - 2 * a.reg.length)) 0
      (2 * a.reg.length) (2 * mr.size - 2 * a.reg.length)
    rw [show 2 * a.reg.length + (2 * mr.size - 2 * a.reg.length) = 2 * mr.size by omega, Nat.zero_add, v4,
      Nat.mul_zero, Nat.add_zero, mval_same s4 (a := 0) (n := (2 * a.reg.length)) (by omega), v3] at h1
    exact h1
  rw [vM3] at vM4
  rw [vU3] at vU4
  generalize mZero m1 (2 * a.reg.length) (2 * mr.size - 2 * a.reg.length) = m2 at *
  have hbl : wval (base ws) mr.modulus.reg < base ws ^ mr.size := wval_lt g.okm.words
  obtain ⟨f1, f2, f3, f4⟩ := reduceT_spec hw g w4 vM4 vU4 (by
    rw [vX]
    exact Nat.mul_lt_mul'' (Nat.lt_trans (show _ < wval (base ws) mr.modulus.reg by omega) hbl) (by omega))
  rw [vX] at f4
  have := finish hw g f1 f3 f4
  rw [va]
  push_cast at this
  exact this

theorem reduceObj_spec (hw : 0 < ws) (g : mr.Good ws) {junk : WMem} (hj : AllW (base ws) junk) {a : Obj}
    (ha : Ok ws a) (a0 : 0 ≤ value ws a) (a1 : value ws a < value ws mr.modulus) (la : a.reg.length ≤ 2 * mr.size) :
    AllW (base ws) (mr.reduceObj ws junk a) ∧ mval (base ws) (mr.reduceObj ws junk a) (6 * mr.size) mr.size = wval (base ws) mr.modulus.reg ∧
      mval (base ws) (mr.reduceObj ws junk a) (5 * mr.size) mr.size < wval (base ws) mr.modulus.reg ∧
      mval (base ws) (mr.reduceObj ws junk a) (5 * mr.size) mr.size * base ws ^ mr.size % wval (base ws) mr.modulus.reg
        = wval (base ws) a.reg % wval (base ws) mr.modulus.reg := by
  have hB := base_gt hw
  have hB0 : 0 < base ws := by omega
  have va := ModArith.val_nn ha a0
  have vm := g.val
  unfold reduceObj
  simp only
  obtain ⟨w0, vM, vU⟩ := mem_spec hw g hj
  generalize mr.mem junk = m0 at *
  have w2 : AllW (base ws) (storeW m0 0 a.reg) := storeW_allW hB0 w0 _ ha.words
  have vA : mval (base ws) (storeW m0 0 a.reg) 0 a.reg.length = wval (base ws) a.reg := mval_storeW _ _ _ _ _ rfl
  have vM2 : mval (base ws) (storeW m0 0 a.reg) (6 * mr.size) mr.size = wval (base ws) mr.modulus.reg := by
    rw [mval_same (storeW_same _ _ _ a.reg.length rfl) (by omega), vM]
  have vU2 : mval (base ws) (storeW m0 0 a.reg) (7 * mr.size) mr.size = wval (base ws) mr.u := by
    rw [mval_same (storeW_same _ _ _ a.reg.length rfl) (by omega), vU]
  generalize storeW m0 0 a.reg = m1 at *
  obtain ⟨w4, s4, v4⟩ := mZero_spec hB0 w2 a.reg.length (2 * mr.size - a.reg.length)
  have vM4 := mval_same (B := base ws) (a := 6 * mr.size) (n := mr.size) s4 (by omega)
  have vU4 := mval_same (B := base ws) (a := 7 * mr.size) (n := mr.size) s4 (by omega)
  have vX : mval (base ws) (mZero m1 a.reg.length (2 * mr.size - a.reg.length)) 0 (2 * mr.size) = wval (base ws) a.reg := by
    have h1 := mval_add (base ws) (mZero m1 a.reg.length (2 * mr.size - a.reg.length)) 0 a.reg.length (2 * mr.size - a.reg.length)
    rw [show a.reg.length + (2 * mr.size - a.reg.length) = 2 * mr.size by omega, Nat.zero_add, v4,
      Nat.mul_zero, Nat.add_zero, mval_same s4 (a := 0) (n := a.reg.length) (by omega), vA] at h1
    exact h1
  rw [vM2] at vM4
  rw [vU2] at vU4
  generalize mZero m1 a.reg.length (2 * mr.size - a.reg.length) = m2 at *
  have := reduceT_spec hw g w4 vM4 vU4 (by
    rw [vX]
    exact Nat.lt_of_lt_of_le (by omega) (Nat.le_mul_of_pos_left _ (Nat.pow_pos hB0)))
  rw [vX] at this
  exact this

theorem convertOut_spec (hw : 0 < ws) (g : mr.Good ws) {junk : WMem} (hj : AllW (base ws) junk) {a : Obj}
    (ha : Ok ws a) (a0 : 0 ≤ value ws a) (a1 : value ws a < value ws mr.modulus) (la : a.reg.length ≤ 2 * mr.size) :
    ∃ r, mr.convertOut ws junk a = .ok r ∧ Ok ws r ∧ 0 ≤ value ws r ∧ value ws r < value ws mr.modulus ∧
      value ws r * radix ws mr % value ws mr.modulus = value ws a % value ws mr.modulus ∧ r.reg.length = mr.rsize := by
  unfold convertOut
  rw [if_neg (by omega)]
  obtain ⟨f1, f2, f3, f4⟩ := reduceObj_spec hw g hj ha a0 a1 la
  have := finish hw g f1 f3 f4
  rw [← ModArith.val_nn ha a0] at this
  exact ⟨_, rfl, this⟩

theorem convertIn_spec (hw : 0 < ws) (g : mr.Good ws) {junk : WMem} (hj : AllW (base ws) junk) {a : Obj} (ha : Ok ws a) :
    ∃ r, mr.convertIn ws junk a = .ok r ∧ Ok ws r ∧ value ws r = value ws a * radix ws mr % value ws mr.modulus ∧ r.reg.length ≤ mr.size := by
  obtain ⟨co, cv⟩ := copyCtor_spec hw ha
  obtain ⟨so, sv⟩ := shlAssign_spec hw co (8 * ws * mr.size)
  obtain ⟨r, he, ro, rv, rl⟩ := modulo_spec hw hj so g.okm g.pos
  rw [← g.norm] at rl
  exact ⟨r, he, ro, by rw [rv, sv, cv]; rfl, rl⟩

theorem one_spec (hw : 0 < ws) (g : mr.Good ws) {junk : WMem} (hj : AllW (base ws) junk) :
    ∃ r, mr.one ws junk = .ok r ∧ Ok ws r ∧ value ws r = radix ws mr % value ws mr.modulus ∧ r.reg.length ≤ mr.size := by
  obtain ⟨so, sv⟩ := power2_spec hw (8 * ws * mr.size)
  obtain ⟨r, he, ro, rv, rl⟩ := modulo_spec hw hj so g.okm g.pos
  obtain ⟨ao, av⟩ := assign_spec hw mr.result1 ro
  refine ⟨_, by unfold one; rw [he]; rfl, ao, by rw [av, rv, sv]; rfl, ?_⟩
  rw [assign_length hw _ ro]
  have h0 : 0 ≤ value ws r := by rw [rv]; exact Int.emod_nonneg _ (by have := g.pos; omega)
  exact g.fits hw ro h0 (by rw [rv]; exact Int.emod_lt_of_pos _ g.pos)

end Mont

end Verif.Integer
