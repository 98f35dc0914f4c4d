import Verif.Integer.DivCls
import Verif.Integer.MulProps

/-!
# C25: division returns the Euclidean quotient and remainder
-/
namespace Verif.Integer

/-- `Integer::Divide` (behind `operator/`, `operator%`, `DividedBy`, `Modulo`): the Euclidean quotient and remainder for all signs
and sizes, whatever the uninitialised workspace contains. -/
theorem divide_euclidean {ws : Nat} (hw : 0 < ws) (junk : WMem) (hj : AllW (base ws) junk) {a b : Obj} (ha : Ok ws a) (hb : Ok ws b)
    (hbz : value ws b ≠ 0) :
    ∃ r q, divide ws junk a b = .ok (r, q) ∧ Ok ws r ∧ Ok ws q ∧
      value ws a = value ws b * value ws q + value ws r ∧ 0 ≤ value ws r ∧ value ws r < |value ws b| :=
  divide_spec hw hj ha hb hbz

/-- Division by zero throws. -/
theorem divide_by_zero {ws : Nat} (hw : 0 < ws) (junk : WMem) {a b : Obj} (hbz : value ws b = 0) :
    divide ws junk a b = .error .divideByZero := divide_zero hw hbz

/-- A dividend of five words and a divisor of three, both signs negative. -/
def exDividend : Obj := ⟨[5, 0, 7, 0, 2 ^ 63, 0, 0, 0], true⟩
def exDivisor : Obj := ⟨[9, 2 ^ 64 - 1, 2 ^ 64 - 1, 0], true⟩

theorem exDividend_ok : Ok 8 exDividend := ⟨words_of_forall (by decide +kernel), ⟨2, rfl⟩, fun _ => by decide +kernel⟩
theorem exDivisor_ok : Ok 8 exDivisor := ⟨words_of_forall (by decide +kernel), ⟨1, rfl⟩, fun _ => by decide +kernel⟩
example : value 8 exDivisor ≠ 0 := by decide +kernel
example : (divide 8 (fun _ => 7) exDividend exDivisor).map (fun p => (value 8 p.1, value 8 p.2))
    = .ok (value 8 exDividend % value 8 exDivisor, value 8 exDividend / value 8 exDivisor) := by decide +kernel
example : divide 8 (fun _ => 7) exDividend zero = .error .divideByZero := by decide +kernel

/-- The word-array routine `Divide(R, Q, T, A, NA, B, NB)` by itself: exact quotient and remainder for every even `NA ≥ NB ≥ 2`,
provided the divisor has at most one leading zero word; only the quotient, remainder and workspace change. -/
theorem divide_words_exact {W : Nat} (hW : 8 ≤ W) (m : WMem) (hm : AllW (2 ^ W) m) (R Q T A NA Bp NB : Nat)
    (hNB : 2 ≤ NB) (hNB2 : NB % 2 = 0) (hNA : NB ≤ NA) (hNA2 : NA % 2 = 0)
    (hA : A + NA ≤ T ∨ T + (NA + 3 * (NB + 2)) ≤ A) (hBp : Bp + NB ≤ T ∨ T + (NA + 3 * (NB + 2)) ≤ Bp)
    (hQ : Q + (NA - NB + 2) ≤ T ∨ T + (NA + 3 * (NB + 2)) ≤ Q) (hR : R + NB ≤ T ∨ T + (NA + 3 * (NB + 2)) ≤ R)
    (hRQ : R + NB ≤ Q ∨ Q + (NA - NB + 2) ≤ R) (hb : m (Bp + (NB - 1)) ≠ 0 ∨ m (Bp + (NB - 2)) ≠ 0) :
    AllW (2 ^ W) (divideM W m R Q T A NA Bp NB) ∧
      (∀ x, (x < T ∨ T + (NA + 3 * (NB + 2)) ≤ x) → (x < Q ∨ Q + (NA - NB + 2) ≤ x) → (x < R ∨ R + NB ≤ x) →
        divideM W m R Q T A NA Bp NB x = m x) ∧
      mval (2 ^ W) (divideM W m R Q T A NA Bp NB) Q (NA - NB + 2) = mval (2 ^ W) m A NA / mval (2 ^ W) m Bp NB ∧
      mval (2 ^ W) (divideM W m R Q T A NA Bp NB) R NB = mval (2 ^ W) m A NA % mval (2 ^ W) m Bp NB := by
  refine divideM_spec hW hm hNB hNB2 hNA hNA2 hA hBp hQ hR hRQ ?_
  have hB0 : 0 < 2 ^ W := Nat.two_pow_pos W
  have e : mval (2 ^ W) m Bp NB = mval (2 ^ W) m Bp (NB - 2) + (2 ^ W) ^ (NB - 2) * (m (Bp + (NB - 2)) + 2 ^ W * m (Bp + (NB - 1))) := by
    conv => lhs; rw [show NB = (NB - 2) + 2 by omega, mval_add, mval_two]
    rw [show Bp + (NB - 2) + 1 = Bp + (NB - 1) by omega]
  rw [e]
  have h1 : 1 ≤ m (Bp + (NB - 2)) + 2 ^ W * m (Bp + (NB - 1)) := by
    rcases hb with h | h
    · have := Nat.mul_pos hB0 (Nat.pos_of_ne_zero h); omega
    · omega
  have := Nat.mul_le_mul_left ((2 ^ W) ^ (NB - 2)) h1
  omega

/-- Four words divided by two, the divisor with a leading zero word and a dividend that needs the correction loops. -/
def exDivMem : WMem := storeW (fun _ => 9) 100 [255, 255, 255, 255, 3, 0]

example : AllW (2 ^ 8) exDivMem :=
  storeW_allW (B := 2 ^ 8) (by decide) (fun _ => (by decide : 9 < 2 ^ 8)) 100 (words_of_forall (by decide))
example : exDivMem (104 + (2 - 1)) ≠ 0 ∨ exDivMem (104 + (2 - 2)) ≠ 0 := by decide
example : mval (2 ^ 8) (divideM 8 exDivMem 0 10 20 100 4 104 2) 10 4 = 1431655765 := by decide +kernel

/-- `Integer::Modulo(word)` is the Euclidean remainder for every sign and every divisor, including the shortcuts for 3, 5 and powers
of two. -/
theorem moduloWord_euclidean {ws : Nat} (hw : 0 < ws) {a : Obj} (ha : Ok ws a) (hl : a.reg.length ≤ base ws) {d : Nat}
    (hd : d ≠ 0) (hdB : d < base ws) : moduloWord ws a d = .ok ((value ws a) % (d : Int)).toNat :=
  moduloWord_spec hw ha hl hd hdB

example : exDividend.reg.length ≤ base 8 := by decide +kernel
example : moduloWord 8 exDividend 3 = .ok 1 ∧ moduloWord 8 exDividend 5 = .ok 0 ∧ moduloWord 8 exDividend 4 = .ok 3 ∧
  moduloWord 8 exDividend 10 = .ok 5 ∧ moduloWord 8 exDividend 0 = .error .divideByZero := by decide +kernel

/-- `Integer::Divide(word &, Integer &, const Integer &, word)`: Euclidean for every non-negative dividend, and for every sign when
the divisor is not a power of two. -/
theorem divideWord_euclidean_partial {ws : Nat} (hw : 0 < ws) {a : Obj} (ha : Ok ws a) {d : Nat} (hd : d ≠ 0) (hdB : d < base ws)
    (hc : 0 ≤ value ws a ∨ ¬ ∃ k, d = 2 ^ k) :
    ∃ r q, divideWord ws a d = .ok (r, q) ∧ Ok ws q ∧ value ws a = d * value ws q + r ∧ r < d := by
  refine divideWord_spec hw ha hd hdB (hc.imp (fun h => ?_) id)
  cases hn : a.neg with
  | false => rfl
  | true =>
    rw [value_neg hn] at h
    have := ha.sign hn
    omega

/-- What is missing above, and it is missing in the code: for a power of two divisor the sign of the dividend is ignored, so
`-3 / 2` gives quotient `-1` and remainder `1`: `2 * -1 + 1 ≠ -3`.  `Integer::Modulo(word)` and `Integer::Divide` with the
divisor as an `Integer` give the right result for the same input. -/
theorem divideWord_pow2_negative_wrong :
    divideWord 8 ⟨[3, 0], true⟩ 2 = .ok (1, ⟨[1, 0], true⟩) ∧ value 8 ⟨[3, 0], true⟩ = -3 ∧ value 8 ⟨[1, 0], true⟩ = -1 ∧
      (divide 8 (fun _ => 0) ⟨[3, 0], true⟩ ⟨[2, 0], false⟩).map (fun p => (value 8 p.1, value 8 p.2)) = .ok (1, -2) := by
  decide +kernel

/-- `Integer::DivideByPowerOf2` is Euclidean for every sign. -/
theorem divideByPowerOf2_euclidean {ws : Nat} (hw : 0 < ws) {a : Obj} (ha : Ok ws a) (n : Nat) :
    Ok ws (divideByPowerOf2 ws a n).1 ∧ Ok ws (divideByPowerOf2 ws a n).2 ∧
      value ws a = 2 ^ n * value ws (divideByPowerOf2 ws a n).2 + value ws (divideByPowerOf2 ws a n).1 ∧
      0 ≤ value ws (divideByPowerOf2 ws a n).1 ∧ value ws (divideByPowerOf2 ws a n).1 < 2 ^ n :=
  divideByPowerOf2_spec hw ha n

example : (let d := divideByPowerOf2 8 exDividend 130; (value 8 d.1, value 8 d.2)) = (value 8 exDividend % 2 ^ 130, value 8 exDividend / 2 ^ 130) := by
  decide +kernel

end Verif.Integer
