import Verif.Integer.MulProofs

/-!
# Correctness of the recursive multiplication, squaring and bottom half
-/
namespace Verif.Integer

/-- Two memories agree outside `[R, R+n)` and `[T, T+k)`. -/
def Fr (m m' : WMem) (R n T k : Nat) : Prop := ∀ x, (x < R ∨ R + n ≤ x) → (x < T ∨ T + k ≤ x) → m' x = m x

theorem Same.fr {m m' : WMem} {R n : Nat} (h : Same m m' R n) (T k : Nat) : Fr m m' R n T k := fun x h1 _ => h x h1

theorem mval_fr {B : Nat} {m m' : WMem} {R n T k a c : Nat} (h : Fr m m' R n T k) (h1 : a + c ≤ R ∨ R + n ≤ a)
    (h2 : a + c ≤ T ∨ T + k ≤ a) : mval B m' a c = mval B m a c :=
  mval_congr fun i hi hi2 => h _ (by omega) (by omega)

section
variable {B : Nat} (hB : 256 ≤ B)
include hB

/-- integer.cpp:2270: `RecursiveMultiply` computes the full product, touching only `R[2N]` and `T[2N]`. -/
theorem recMul_spec : ∀ (f N : Nat) (m : WMem) (R T A Bp : Nat), AllW B m → N ≤ f → Pow2 N →
    (R + 2 * N ≤ T ∨ T + 2 * N ≤ R) → (R + 2 * N ≤ A ∨ A + N ≤ R) → (R + 2 * N ≤ Bp ∨ Bp + N ≤ R) →
    (T + 2 * N ≤ A ∨ A + N ≤ T) → (T + 2 * N ≤ Bp ∨ Bp + N ≤ T) →
    AllW B (recMul B f m R T A Bp N) ∧ Fr m (recMul B f m R T A Bp N) R (2 * N) T (2 * N) ∧
      mval B (recMul B f m R T A Bp N) R (2 * N) = mval B m A N * mval B m Bp N := by
  intro f
  induction f with
  | zero => intro N m R T A Bp _ h hN; have := hN.two_le; omega
  | succ f ih =>
    intro N m R T A Bp hm hf hN hRT hRA hRB hTA hTB
    rw [recMul]
    by_cases hle : N ≤ 16
    · rw [if_pos hle]
      obtain ⟨h1, h2, h3⟩ := sMul_spec hB hm hN hle hRA hRB
      exact ⟨h1, h2.fr _ _, h3⟩
    rw [if_neg hle]
    obtain ⟨hN2, hNN⟩ := hN.half (by omega)
    have hev := hN2.even
    have h2le := hN2.two_le
    generalize N / 2 = N2 at *
    subst hNN
    simp only
    obtain ⟨w1, s1, d1⟩ := absDiff_spec hB hm (R := R) (A := A) hev (by omega)
    generalize absDiff B m R A N2 = a1 at *
    obtain ⟨w2, s2, d2⟩ := absDiff_spec hB w1 (R := R + N2) (A := Bp) hev (by omega)
    generalize absDiff B a1.1 (R + N2) Bp N2 = a2 at *
    rw [mval_same (a := Bp) s1 (by omega), mval_same (a := Bp + N2) s1 (by omega)] at d2
    obtain ⟨w3, s3, v3⟩ := ih N2 a2.1 (R + (N2 + N2)) (T + (N2 + N2)) (A + N2) (Bp + N2) w2 (by omega) hN2
      (by omega) (by omega) (by omega) (by omega) (by omega)
    generalize recMul B f a2.1 (R + (N2 + N2)) (T + (N2 + N2)) (A + N2) (Bp + N2) N2 = m3 at *
    rw [mval_same (a := A + N2) s2 (by omega), mval_same (a := A + N2) s1 (by omega),
      mval_same (a := Bp + N2) s2 (by omega), mval_same (a := Bp + N2) s1 (by omega)] at v3
    obtain ⟨w4, s4, v4⟩ := ih N2 m3 T (T + (N2 + N2)) R (R + N2) w3 (by omega) hN2
      (by omega) (by omega) (by omega) (by omega) (by omega)
    generalize recMul B f m3 T (T + (N2 + N2)) R (R + N2) N2 = m4 at *
    rw [mval_fr (a := R) s3 (by omega) (by omega), mval_same (a := R) s2 (by omega),
      mval_fr (a := R + N2) s3 (by omega) (by omega)] at v4
    obtain ⟨w5, s5, v5⟩ := ih N2 m4 R (T + (N2 + N2)) A Bp w4 (by omega) hN2
      (by omega) (by omega) (by omega) (by omega) (by omega)
    generalize recMul B f m4 R (T + (N2 + N2)) A Bp N2 = m5 at *
    rw [mval_fr (a := A) s4 (by omega) (by omega), mval_fr (a := A) s3 (by omega) (by omega),
      mval_same (a := A) s2 (by omega), mval_same (a := A) s1 (by omega),
      mval_fr (a := Bp) s4 (by omega) (by omega), mval_fr (a := Bp) s3 (by omega) (by omega),
      mval_same (a := Bp) s2 (by omega), mval_same (a := Bp) s1 (by omega)] at v5
    have e1 : mval B m5 (R + (N2 + N2)) (N2 + N2) = mval B m (A + N2) N2 * mval B m (Bp + N2) N2 := by
      rw [mval_fr s5 (by omega) (by omega), mval_fr s4 (by omega) (by omega), ← v3, Nat.two_mul]
    have e2 : mval B m5 T (N2 + N2) = mval B a1.1 R N2 * mval B a2.1 (R + N2) N2 := by
      rw [mval_fr s5 (by omega) (by omega), ← v4, Nat.two_mul]
    rw [Nat.two_mul] at v5
    have hX : 0 < B ^ N2 := by positivity
    have P1 := mval_add B m A N2 N2
    have P2 := mval_add B m Bp N2 N2
    have L1 := mval_lt hm A (N2 + N2)
    have L2 := mval_lt hm Bp (N2 + N2)
    obtain ⟨g1, g2, g3⟩ := karCombine_spec hB w5 (R := R) (T := T) (N := N2 + N2) hev (by omega) rfl (by omega)
      (a1.2 == a2.2) (mval B m A (N2 + N2) * mval B m Bp (N2 + N2)) (by
        rw [v5, e1, e2, P1, P2]
        push_cast
        rcases d1 with ⟨i1, j1⟩ | ⟨i1, j1⟩ <;> rcases d2 with ⟨i2, j2⟩ | ⟨i2, j2⟩ <;> rw [i1, i2, j1, j2]
        · simp; ring
        · rw [if_neg (by simp; omega)]; ring
        · rw [if_neg (by simp; omega)]; ring
        · simp; ring) (by
        rw [Nat.two_mul, pow_add]
        exact Nat.mul_lt_mul'' L1 L2) (by
        rw [e1, P1, P2]
        generalize mval B m A N2 = x
        generalize mval B m Bp N2 = y
        generalize mval B m (A + N2) N2 = x'
        generalize mval B m (Bp + N2) N2 = y'
        generalize B ^ N2 = X
        calc X * X * (x' * y') = (X * x') * (X * y') := by ring
          _ ≤ _ := Nat.mul_le_mul (Nat.le_add_left _ _) (Nat.le_add_left _ _))
    refine ⟨g1, ?_, g3⟩
    intro x hx1 hx2
    rw [g2 x (by omega), s5 x (by omega) (by omega), s4 x (by omega) (by omega), s3 x (by omega) (by omega),
      s2 x (by omega), s1 x (by omega)]

theorem multiplyM_spec {m : WMem} (hm : AllW B m) {R T A Bp N : Nat} (hN : Pow2 N)
    (hRT : R + 2 * N ≤ T ∨ T + 2 * N ≤ R) (hRA : R + 2 * N ≤ A ∨ A + N ≤ R) (hRB : R + 2 * N ≤ Bp ∨ Bp + N ≤ R)
    (hTA : T + 2 * N ≤ A ∨ A + N ≤ T) (hTB : T + 2 * N ≤ Bp ∨ Bp + N ≤ T) :
    AllW B (multiplyM B m R T A Bp N) ∧ Fr m (multiplyM B m R T A Bp N) R (2 * N) T (2 * N) ∧
      mval B (multiplyM B m R T A Bp N) R (2 * N) = mval B m A N * mval B m Bp N :=
  recMul_spec hB N N m R T A Bp hm (Nat.le_refl _) hN hRT hRA hRB hTA hTB

theorem squCombine_spec {m : WMem} (hm : AllW B m) {R T N N2 : Nat} (hN2 : N2 % 2 = 0)
    (hpos : 0 < N2) (hN : N = N2 + N2) (hRT : R + 2 * N ≤ T ∨ T + N ≤ R)
    (hPlt : mval B m R (2 * N) + 2 * B ^ N2 * mval B m T N < B ^ (2 * N)) :
    AllW B (squCombine B m R T N N2) ∧ Same m (squCombine B m R T N N2) R (2 * N) ∧
      mval B (squCombine B m R T N N2) R (2 * N) = mval B m R (2 * N) + 2 * B ^ N2 * mval B m T N := by
  subst hN
  have hB1 : 1 < B := by omega
  unfold squCombine
  simp only
  obtain ⟨w1, s1, b1, v1⟩ := mAdd_spec hB1 hm (R + N2) (R + N2) T (N2 + N2) (by omega)
  generalize mAdd B m (R + N2) (R + N2) T (N2 + N2) = r1 at *
  obtain ⟨w2, s2, b2, v2⟩ := mAdd_spec hB1 w1 (R + N2) (R + N2) T (N2 + N2) (by omega)
  generalize mAdd B r1.1 (R + N2) (R + N2) T (N2 + N2) = r2 at *
  rw [mval_same (a := T) s1 (by omega)] at v2
  obtain ⟨w3, s3, b3, v3⟩ := mInc_spec hB1 w2 (R + (N2 + N2) + N2) N2 (r1.2 + r2.2) (by omega) hpos
  generalize mInc B r2.1 (R + (N2 + N2) + N2) N2 (r1.2 + r2.2) = r3 at *
  rw [mval_same (a := R + (N2 + N2) + N2) s2 (by omega), mval_same (a := R + (N2 + N2) + N2) s1 (by omega)] at v3
  refine ⟨w3, ?_, ?_⟩
  · intro x hx
    rw [s3 x (by omega), s2 x (by omega), s1 x (by omega)]
  have g : ∀ m : WMem, mval B m R (2 * (N2 + N2)) = mval B m R N2 + B ^ N2 * mval B m (R + N2) (N2 + N2)
      + B ^ N2 * B ^ N2 * B ^ N2 * mval B m (R + (N2 + N2) + N2) N2 := by
    intro m
    rw [show 2 * (N2 + N2) = N2 + (N2 + N2) + N2 by omega, mval_add, mval_add,
      show R + (N2 + (N2 + N2)) = R + (N2 + N2) + N2 by omega, pow_add, pow_add]
    ring
  rw [g r3.1, g m]
  rw [g m, show 2 * (N2 + N2) = N2 + N2 + N2 + N2 by omega, pow_add, pow_add, pow_add] at hPlt
  rw [pow_add] at v1 v2
  rw [mval_same (a := R) s3 (by omega), mval_same (a := R) s2 (by omega), mval_same (a := R) s1 (by omega),
    mval_same (a := R + N2) s3 (by omega)]
  have hX : 0 < B ^ N2 := by positivity
  have hl := mval_lt w3 (R + (N2 + N2) + N2) N2
  generalize B ^ N2 = X at *
  generalize mval B m R N2 = x0 at *
  generalize mval B m (R + N2) (N2 + N2) = x1 at *
  generalize mval B m T (N2 + N2) = t at *
  generalize mval B m (R + (N2 + N2) + N2) N2 = x3 at *
  generalize mval B r1.1 (R + N2) (N2 + N2) = y at *
  generalize mval B r2.1 (R + N2) (N2 + N2) = z at *
  generalize mval B r3.1 (R + (N2 + N2) + N2) N2 = w at *
  have hsum : x0 + X * x1 + X * X * X * x3 + 2 * X * t = x0 + X * z + X * X * X * (w + X * r3.2) := by
    have e : (x0 : Int) + X * x1 + X * X * X * x3 + 2 * X * t = x0 + X * z + X * X * X * (w + X * r3.2) := by
      have v1' : (y : Int) + X * X * r1.2 = x1 + t := by exact_mod_cast v1
      have v2' : (z : Int) + X * X * r2.2 = y + t := by exact_mod_cast v2
      have v3' : (w : Int) + X * r3.2 = x3 + (r1.2 + r2.2) := by exact_mod_cast v3
      linear_combination (-(X : Int)) * v1' - X * v2' - X * X * X * v3'
    exact_mod_cast e
  have hz : r3.2 = 0 := by
    by_contra hne
    have h1 : r3.2 = 1 := by omega
    rw [h1] at hsum
    have : X * X * X * X ≤ X * X * X * (w + X * 1) := Nat.mul_le_mul_left _ (by omega)
    omega
  rw [hz] at hsum
  rw [hsum]; simp

/-- integer.cpp:2312: `RecursiveSquare` computes the full square. -/
theorem recSqu_spec (hev2 : B % 2 = 0) : ∀ (f N : Nat) (m : WMem) (R T A : Nat), AllW B m → N ≤ f → Pow2 N →
    (R + 2 * N ≤ T ∨ T + 2 * N ≤ R) → (R + 2 * N ≤ A ∨ A + N ≤ R) → (T + 2 * N ≤ A ∨ A + N ≤ T) →
    AllW B (recSqu B f m R T A N) ∧ Fr m (recSqu B f m R T A N) R (2 * N) T (2 * N) ∧
      mval B (recSqu B f m R T A N) R (2 * N) = mval B m A N * mval B m A N := by
  intro f
  induction f with
  | zero => intro N m R T A _ h hN; have := hN.two_le; omega
  | succ f ih =>
    intro N m R T A hm hf hN hRT hRA hTA
    rw [recSqu]
    by_cases hle : N ≤ 16
    · rw [if_pos hle]
      obtain ⟨h1, h2, h3⟩ := sSqu_spec hB hm hev2 hN hle hRA
      exact ⟨h1, h2.fr _ _, h3⟩
    rw [if_neg hle]
    obtain ⟨hN2, hNN⟩ := hN.half (by omega)
    have hev := hN2.even
    have h2le := hN2.two_le
    generalize N / 2 = N2 at *
    subst hNN
    simp only
    obtain ⟨w1, s1, v1⟩ := ih N2 m R (T + (N2 + N2)) A hm (by omega) hN2 (by omega) (by omega) (by omega)
    generalize recSqu B f m R (T + (N2 + N2)) A N2 = m1 at *
    obtain ⟨w2, s2, v2⟩ := ih N2 m1 (R + (N2 + N2)) (T + (N2 + N2)) (A + N2) w1 (by omega) hN2 (by omega) (by omega) (by omega)
    generalize recSqu B f m1 (R + (N2 + N2)) (T + (N2 + N2)) (A + N2) N2 = m2 at *
    rw [mval_fr (a := A + N2) s1 (by omega) (by omega)] at v2
    obtain ⟨w3, s3, v3⟩ := multiplyM_spec hB w2 (R := T) (T := T + (N2 + N2)) (A := A) (Bp := A + N2) hN2 (by omega)
      (by omega) (by omega) (by omega) (by omega)
    generalize multiplyM B m2 T (T + (N2 + N2)) A (A + N2) N2 = m3 at *
    rw [mval_fr (a := A) s2 (by omega) (by omega), mval_fr (a := A) s1 (by omega) (by omega),
      mval_fr (a := A + N2) s2 (by omega) (by omega), mval_fr (a := A + N2) s1 (by omega) (by omega), Nat.two_mul] at v3
    have eR : mval B m3 R (2 * (N2 + N2)) = mval B m A N2 * mval B m A N2
        + B ^ N2 * B ^ N2 * (mval B m (A + N2) N2 * mval B m (A + N2) N2) := by
      rw [mval_fr s3 (by omega) (by omega), Nat.two_mul, mval_add, mval_fr (a := R) s2 (by omega) (by omega), ← v1, ← v2,
        Nat.two_mul, pow_add]
    have P1 := mval_add B m A N2 N2
    have hV : mval B m3 R (2 * (N2 + N2)) + 2 * B ^ N2 * mval B m3 T (N2 + N2)
        = mval B m A (N2 + N2) * mval B m A (N2 + N2) := by
      rw [eR, v3, P1]; ring
    have L := mval_lt hm A (N2 + N2)
    obtain ⟨g1, g2, g3⟩ := squCombine_spec hB w3 (R := R) (T := T) (N := N2 + N2) hev (by omega) rfl (by omega)
      (by rw [hV, Nat.two_mul, pow_add]; exact Nat.mul_lt_mul'' L L)
    refine ⟨g1, ?_, by rw [g3, hV]⟩
    intro x hx1 hx2
    rw [g2 x (by omega), s3 x (by omega) (by omega), s2 x (by omega) (by omega), s1 x (by omega) (by omega)]

theorem squareM_spec (hev2 : B % 2 = 0) {m : WMem} (hm : AllW B m) {R T A N : Nat} (hN : Pow2 N)
    (hRT : R + 2 * N ≤ T ∨ T + 2 * N ≤ R) (hRA : R + 2 * N ≤ A ∨ A + N ≤ R)
    (hTA : T + 2 * N ≤ A ∨ A + N ≤ T) :
    AllW B (squareM B m R T A N) ∧ Fr m (squareM B m R T A N) R (2 * N) T (2 * N) ∧
      mval B (squareM B m R T A N) R (2 * N) = mval B m A N * mval B m A N :=
  recSqu_spec hB hev2 N N m R T A hm (Nat.le_refl _) hN hRT hRA hTA

/-- integer.cpp:2337: `RecursiveMultiplyBottom` computes the product modulo `B^N`; scratch `T[N]`. -/
theorem recBot_spec : ∀ (f N : Nat) (m : WMem) (R T A Bp : Nat), AllW B m → N ≤ f → Pow2 N →
    (R + N ≤ T ∨ T + N ≤ R) → (R + N ≤ A ∨ A + N ≤ R) → (R + N ≤ Bp ∨ Bp + N ≤ R) →
    (T + N ≤ A ∨ A + N ≤ T) → (T + N ≤ Bp ∨ Bp + N ≤ T) →
    AllW B (recBot B f m R T A Bp N) ∧ Fr m (recBot B f m R T A Bp N) R N T N ∧
      mval B (recBot B f m R T A Bp N) R N = mval B m A N * mval B m Bp N % B ^ N := by
  intro f
  induction f with
  | zero => intro N m R T A Bp _ h hN; have := hN.two_le; omega
  | succ f ih =>
    intro N m R T A Bp hm hf hN hRT hRA hRB hTA hTB
    rw [recBot]
    by_cases hle : N ≤ 16
    · rw [if_pos hle]
      obtain ⟨h1, h2, h3⟩ := sBot_spec hB hm hN hle hRA hRB
      exact ⟨h1, h2.fr _ _, h3⟩
    rw [if_neg hle]
    obtain ⟨hN2, hNN⟩ := hN.half (by omega)
    have hev := hN2.even
    have h2le := hN2.two_le
    have hB1 : 1 < B := by omega
    generalize N / 2 = N2 at *
    subst hNN
    simp only
    obtain ⟨w1, s1, v1⟩ := multiplyM_spec hB hm (R := R) (T := T) (A := A) (Bp := Bp) hN2 (by omega) (by omega) (by omega)
      (by omega) (by omega)
    generalize multiplyM B m R T A Bp N2 = m1 at *
    obtain ⟨w2, s2, v2⟩ := ih N2 m1 T (T + N2) (A + N2) Bp w1 (by omega) hN2 (by omega) (by omega) (by omega) (by omega) (by omega)
    generalize recBot B f m1 T (T + N2) (A + N2) Bp N2 = m2 at *
    rw [mval_fr (a := A + N2) s1 (by omega) (by omega), mval_fr (a := Bp) s1 (by omega) (by omega)] at v2
    obtain ⟨w3, s3, b3, v3⟩ := mAdd_spec hB1 w2 (R + N2) (R + N2) T N2 hev
    generalize mAdd B m2 (R + N2) (R + N2) T N2 = r3 at *
    obtain ⟨w4, s4, v4⟩ := ih N2 r3.1 T (T + N2) A (Bp + N2) w3 (by omega) hN2 (by omega) (by omega) (by omega) (by omega) (by omega)
    generalize recBot B f r3.1 T (T + N2) A (Bp + N2) N2 = m4 at *
    rw [mval_same (a := A) s3 (by omega), mval_fr (a := A) s2 (by omega) (by omega), mval_fr (a := A) s1 (by omega) (by omega),
      mval_same (a := Bp + N2) s3 (by omega), mval_fr (a := Bp + N2) s2 (by omega) (by omega),
      mval_fr (a := Bp + N2) s1 (by omega) (by omega)] at v4
    obtain ⟨w5, s5, b5, v5⟩ := mAdd_spec hB1 w4 (R + N2) (R + N2) T N2 hev
    generalize mAdd B m4 (R + N2) (R + N2) T N2 = r5 at *
    rw [mval_fr (a := R + N2) s4 (by omega) (by omega), v4] at v5
    rw [mval_fr (a := R + N2) s2 (by omega) (by omega), v2] at v3
    refine ⟨w5, ?_, ?_⟩
    · intro x hx1 hx2
      rw [s5 x (by omega), s4 x (by omega) (by omega), s3 x (by omega), s2 x (by omega) (by omega),
        s1 x (by omega) (by omega)]
    have hlt := mval_lt w5 R (N2 + N2)
    rw [← Nat.mod_eq_of_lt hlt]
    have hR0 : mval B r5.1 R N2 = mval B m1 R N2 := by
      rw [mval_same s5 (by omega), mval_fr s4 (by omega) (by omega), mval_same s3 (by omega), mval_fr s2 (by omega) (by omega)]
    rw [mval_add B r5.1, hR0]
    rw [Nat.two_mul, mval_add] at v1
    rw [mval_add B m A, mval_add B m Bp, pow_add]
    generalize B ^ N2 = X at *
    generalize mval B m A N2 = a0 at *
    generalize mval B m (A + N2) N2 = a1 at *
    generalize mval B m Bp N2 = b0 at *
    generalize mval B m (Bp + N2) N2 = b1 at *
    generalize mval B m1 R N2 = p0 at *
    generalize mval B m1 (R + N2) N2 = p1 at *
    generalize mval B r3.1 (R + N2) N2 = y at *
    generalize mval B r5.1 (R + N2) N2 = z at *
    -- z + X*(carries and quotients) = p1 + a1*b0 + a0*b1
    have h1 := Nat.div_add_mod (a1 * b0) X
    have h2 := Nat.div_add_mod (a0 * b1) X
    generalize a1 * b0 / X = k1 at *
    generalize a1 * b0 % X = l1 at *
    generalize a0 * b1 / X = k2 at *
    generalize a0 * b1 % X = l2 at *
    have e : (a0 + X * a1) * (b0 + X * b1) = p0 + X * z + X * X * (r3.2 + r5.2 + k1 + k2 + a1 * b1) := by
      have e' : ((a0 : Int) + X * a1) * (b0 + X * b1) = p0 + X * z + X * X * (r3.2 + r5.2 + k1 + k2 + a1 * b1) := by
        have v1' : (p0 : Int) + X * p1 = a0 * b0 := by exact_mod_cast v1
        have v3' : (y : Int) + X * r3.2 = p1 + l1 := by exact_mod_cast v3
        have v5' : (z : Int) + X * r5.2 = y + l2 := by exact_mod_cast v5
        have h1' : (X : Int) * k1 + l1 = a1 * b0 := by exact_mod_cast h1
        have h2' : (X : Int) * k2 + l2 = a0 * b1 := by exact_mod_cast h2
        linear_combination -v1' - X * v3' - X * v5' - X * h1' - X * h2'
      exact_mod_cast e'
    rw [e, Nat.add_mul_mod_self_left]

theorem multiplyBottomM_spec {m : WMem} (hm : AllW B m) {R T A Bp N : Nat} (hN : Pow2 N)
    (hRT : R + N ≤ T ∨ T + N ≤ R) (hRA : R + N ≤ A ∨ A + N ≤ R) (hRB : R + N ≤ Bp ∨ Bp + N ≤ R)
    (hTA : T + N ≤ A ∨ A + N ≤ T) (hTB : T + N ≤ Bp ∨ Bp + N ≤ T) :
    AllW B (multiplyBottomM B m R T A Bp N) ∧ Fr m (multiplyBottomM B m R T A Bp N) R N T N ∧
      mval B (multiplyBottomM B m R T A Bp N) R N = mval B m A N * mval B m Bp N % B ^ N :=
  recBot_spec hB N N m R T A Bp hm (Nat.le_refl _) hN hRT hRA hRB hTA hTB

end

end Verif.Integer
