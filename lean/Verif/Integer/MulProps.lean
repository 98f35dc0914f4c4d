import Verif.Integer.MulCls
import Verif.Integer.Props

/-!
# C24: multi-precision multiplication is exact

`mval B m a n` is the number in the `n` words at address `a`; `AllW B m` says every word is below the base `B`;
`Fr m m' R n T k` says `m'` differs from `m` only inside `[R, R+n)` and `[T, T+k)`.
-/
namespace Verif.Integer

/-- `Integer::Times` (and `operator*`, `operator*=`): the exact product, for all signs and sizes, whatever the uninitialised
workspace contains, and also when both operands are one object (then the squaring code runs). -/
theorem times_exact {ws : Nat} (hw : 0 < ws) (junk : WMem) (hj : AllW (base ws) junk) {a b : Obj} (ha : Ok ws a) (hb : Ok ws b) :
    (Ok ws (times ws junk false a b) ∧ value ws (times ws junk false a b) = value ws a * value ws b) ∧
    (Ok ws (squared ws junk a) ∧ value ws (squared ws junk a) = value ws a * value ws a) :=
  ⟨times_spec hw hj ha hb (by simp), times_spec hw hj ha ha (fun _ => rfl)⟩

example : AllW (base 8) (fun _ => 7) := fun _ => (by decide : 7 < base 8)
example : times 8 (fun _ => 7) false exMax exNeg = ⟨[2 ^ 64 - 1, 2 ^ 64 - 1, 0, 0], true⟩ := by decide +kernel
example : squared 8 (fun _ => 7) exMax = ⟨[1, 0, 2 ^ 64 - 2, 2 ^ 64 - 1], false⟩ := by decide +kernel

/-- `RecursiveMultiply` (Karatsuba above 16 words, unrolled Comba code below): the exact `2N`-word product for every power of two
`N ≥ 2`; only the destination and the `2N`-word workspace change.  The operands may overlap each other. -/
theorem multiply_words_exact {B : Nat} (hB : 256 ≤ B) (m : WMem) (hm : AllW B m) (R T A Bp N : Nat) (hN : ∃ k, N = 2 ^ (k + 1))
    (hRT : R + 2 * N ≤ T ∨ T + 2 * N ≤ R) (hRA : R + 2 * N ≤ A ∨ A + N ≤ R) (hRB : R + 2 * N ≤ Bp ∨ Bp + N ≤ R)
    (hTA : T + 2 * N ≤ A ∨ A + N ≤ T) (hTB : T + 2 * N ≤ Bp ∨ Bp + N ≤ T) :
    AllW B (multiplyM B m R T A Bp N) ∧ Fr m (multiplyM B m R T A Bp N) R (2 * N) T (2 * N) ∧
      mval B (multiplyM B m R T A Bp N) R (2 * N) = mval B m A N * mval B m Bp N :=
  multiplyM_spec hB hm hN hRT hRA hRB hTA hTB

/-- `RecursiveSquare`. -/
theorem square_words_exact {B : Nat} (hB : 256 ≤ B) (hev : B % 2 = 0) (m : WMem) (hm : AllW B m) (R T A N : Nat)
    (hN : ∃ k, N = 2 ^ (k + 1)) (hRT : R + 2 * N ≤ T ∨ T + 2 * N ≤ R) (hRA : R + 2 * N ≤ A ∨ A + N ≤ R)
    (hTA : T + 2 * N ≤ A ∨ A + N ≤ T) :
    AllW B (squareM B m R T A N) ∧ Fr m (squareM B m R T A N) R (2 * N) T (2 * N) ∧
      mval B (squareM B m R T A N) R (2 * N) = mval B m A N ^ 2 := by
  rw [pow_two]; exact squareM_spec hB hev hm hN hRT hRA hTA

/-- `MultiplyBottom`: the low half of the product. -/
theorem multiplyBottom_words_exact {B : Nat} (hB : 256 ≤ B) (m : WMem) (hm : AllW B m) (R T A Bp N : Nat)
    (hN : ∃ k, N = 2 ^ (k + 1)) (hRT : R + N ≤ T ∨ T + N ≤ R) (hRA : R + N ≤ A ∨ A + N ≤ R) (hRB : R + N ≤ Bp ∨ Bp + N ≤ R)
    (hTA : T + N ≤ A ∨ A + N ≤ T) (hTB : T + N ≤ Bp ∨ Bp + N ≤ T) :
    AllW B (multiplyBottomM B m R T A Bp N) ∧ Fr m (multiplyBottomM B m R T A Bp N) R N T N ∧
      mval B (multiplyBottomM B m R T A Bp N) R N = mval B m A N * mval B m Bp N % B ^ N :=
  multiplyBottomM_spec hB hm hN hRT hRA hRB hTA hTB

/-- `MultiplyTop`: the high half of the product, when `L` holds the low half. -/
theorem multiplyTop_words_exact {B : Nat} (hB : 256 ≤ B) (m : WMem) (hm : AllW B m) (R T L A Bp N : Nat)
    (hN : ∃ k, N = 2 ^ (k + 1)) (hRT : R + N ≤ T ∨ T + 2 * N ≤ R) (hRL : R + N ≤ L ∨ L + N ≤ R)
    (hTL : T + 2 * N ≤ L ∨ L + N ≤ T) (hRA : R + N ≤ A ∨ A + N ≤ R) (hRB : R + N ≤ Bp ∨ Bp + N ≤ R)
    (hTA : T + 2 * N ≤ A ∨ A + N ≤ T) (hTB : T + 2 * N ≤ Bp ∨ Bp + N ≤ T)
    (hL : mval B m L N = mval B m A N * mval B m Bp N % B ^ N) :
    AllW B (multiplyTopM B m R T L A Bp N) ∧ Fr m (multiplyTopM B m R T L A Bp N) R N T (2 * N) ∧
      mval B (multiplyTopM B m R T L A Bp N) R N = mval B m A N * mval B m Bp N / B ^ N :=
  multiplyTopM_spec hB hm hN hRT hRL hTL hRA hRB hTA hTB hL

/-- `AsymmetricMultiply`: operands of different sizes, the shorter a power of two dividing the longer. -/
theorem asymmetricMultiply_words_exact {B : Nat} (hB : 256 ≤ B) (hev : B % 2 = 0) (m : WMem) (hm : AllW B m) (R T A NA Bp NB : Nat)
    (hN : (NA ≤ NB ∧ (∃ k, NA = 2 ^ (k + 1)) ∧ NB % NA = 0) ∨ (NB ≤ NA ∧ (∃ k, NB = 2 ^ (k + 1)) ∧ NA % NB = 0))
    (hRT : R + NA + NB ≤ T ∨ T + NA + NB ≤ R) (hRA : R + NA + NB ≤ A ∨ A + NA ≤ R) (hRB : R + NA + NB ≤ Bp ∨ Bp + NB ≤ R)
    (hTA : T + NA + NB ≤ A ∨ A + NA ≤ T) (hTB : T + NA + NB ≤ Bp ∨ Bp + NB ≤ T) :
    AllW B (asymmetricMultiply B m R T A NA Bp NB) ∧
      Fr m (asymmetricMultiply B m R T A NA Bp NB) R (NA + NB) T (NA + NB) ∧
      mval B (asymmetricMultiply B m R T A NA Bp NB) R (NA + NB) = mval B m A NA * mval B m Bp NB :=
  asymmetricMultiply_spec hB hev hm hN hRT hRA hRB hTA hTB

/-- A layout that meets the hypotheses: 32-word operands at 128 and 160, product at 0, workspace at 64; the Karatsuba branch runs. -/
example : (∃ k, 32 = 2 ^ (k + 1)) ∧ (0 + 2 * 32 ≤ 64) ∧ (0 + 2 * 32 ≤ 128) ∧ (0 + 2 * 32 ≤ 160) ∧ (64 + 2 * 32 ≤ 128) ∧
    (64 + 2 * 32 ≤ 160) := ⟨⟨4, rfl⟩, by decide⟩

/-- `(B^32 - 1)^2` through the Karatsuba branch on 32-bit words: all carries at once. -/
example : mval (2 ^ 32) (multiplyM (2 ^ 32) (fun x => if 128 ≤ x then 2 ^ 32 - 1 else 0) 0 64 128 160 32) 0 64
    = (2 ^ 1024 - 1) ^ 2 := by
  have hm : AllW (2 ^ 32) (fun x => if 128 ≤ x then 2 ^ 32 - 1 else 0) := by intro x; dsimp only; split <;> omega
  rw [(multiply_words_exact (by decide) _ hm 0 64 128 160 32 ⟨4, rfl⟩ (by omega) (by omega) (by omega) (by omega) (by omega)).2.2]
  decide +kernel

example : mval 256 (asymmetricMultiply 256 (fun x => if x = 21 then 255 else if 20 ≤ x then 254 else 9) 0 10 20 2 30 6) 0 8
    = (254 + 256 * 255) * (254 * (256 ^ 6 - 1) / 255) := by decide +kernel

end Verif.Integer
