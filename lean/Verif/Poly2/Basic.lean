import Mathlib.Algebra.Ring.Defs
import Mathlib.Tactic.Ring
import Mathlib.Tactic.LinearCombination

/-!
# Polynomials over GF(2)

Independent vocabulary for the checksum, binary field and GHASH specifications: a polynomial over the two-element field is a
number whose bit `i` is the coefficient of `x^i`; addition is exclusive or, multiplication is carry-less multiplication.
-/
namespace Verif.Poly2

/-- Carry-less multiplication over the low `f` bits of `a`: the sum of `b * x^i` over the set bits `i` of `a`. -/
def clmulF : Nat → Nat → Nat → Nat
  | 0, _, _ => 0
  | f + 1, a, b => (if a.testBit 0 then b else 0) ^^^ (2 * clmulF f (a / 2) b)

/-- Carry-less multiplication. -/
def clmul (a b : Nat) : Nat := clmulF (a.log2 + 1) a b

theorem xor_lc (a b c : Nat) : a ^^^ (b ^^^ c) = b ^^^ (a ^^^ c) := by rw [← Nat.xor_assoc, Nat.xor_comm a b, Nat.xor_assoc]

theorem xor_cancel (a b : Nat) : a ^^^ (a ^^^ b) = b := by rw [← Nat.xor_assoc, Nat.xor_self, Nat.zero_xor]

theorem two_mul_xor (a b : Nat) : 2 * (a ^^^ b) = (2 * a) ^^^ (2 * b) := by
  have h : ∀ x : Nat, 2 * x = x <<< 1 := fun x => by rw [Nat.shiftLeft_eq]; omega
  rw [h, h, h, Nat.shiftLeft_xor_distrib]

theorem xor_div_two (a b : Nat) : (a ^^^ b) / 2 = (a / 2) ^^^ (b / 2) := by
  have h : ∀ x : Nat, x / 2 = x >>> 1 := fun x => by rw [Nat.shiftRight_eq_div_pow]
  rw [h, h, h, Nat.shiftRight_xor_distrib]

theorem clmulF_zero (f b : Nat) : clmulF f 0 b = 0 := by
  induction f with
  | zero => rfl
  | succ f ih => simp [clmulF, ih]

theorem clmulF_fuel (f g a b : Nat) (hf : a < 2 ^ f) (hg : a < 2 ^ g) : clmulF f a b = clmulF g a b := by
  induction f generalizing a g with
  | zero =>
    have : a = 0 := by simpa using hf
    subst this; rw [clmulF_zero, clmulF_zero]
  | succ f ih =>
    cases g with
    | zero =>
      have : a = 0 := by simpa using hg
      subst this; rw [clmulF_zero, clmulF_zero]
    | succ g =>
      rw [Nat.pow_succ] at hf hg
      simp only [clmulF]
      rw [ih g (a / 2) (by omega) (by omega)]

theorem clmul_eq (f a b : Nat) (h : a < 2 ^ f) : clmul a b = clmulF f a b :=
  clmulF_fuel _ _ _ _ Nat.lt_log2_self h

/-- One step: `a = a₀ + x a'`. -/
theorem clmul_step (a b : Nat) : clmul a b = (if a.testBit 0 then b else 0) ^^^ (2 * clmul (a / 2) b) := by
  have h : a < 2 ^ (a + 1) := Nat.lt_of_lt_of_le (Nat.lt_two_pow_self) (Nat.pow_le_pow_right (by omega) (by omega))
  have h2 : a / 2 < 2 ^ a := by rw [Nat.pow_succ] at h; omega
  rw [clmul_eq (a + 1) a b h, clmul_eq a (a / 2) b h2]; rfl

@[simp] theorem clmul_zero_left (b : Nat) : clmul 0 b = 0 := clmulF_zero _ b

theorem bit_ind {P : Nat → Prop} (h0 : P 0) (hs : ∀ a, a ≠ 0 → P (a / 2) → P a) : ∀ a, P a := by
  intro a
  induction a using Nat.strongRecOn with
  | _ a ih =>
    by_cases h : a = 0
    · exact h ▸ h0
    · exact hs a h (ih _ (by omega))

@[simp] theorem clmul_zero_right (a : Nat) : clmul a 0 = 0 := by
  induction a using bit_ind with
  | h0 => simp
  | hs a _ ih => rw [clmul_step, ih]; simp

@[simp] theorem clmul_one_left (b : Nat) : clmul 1 b = b := by rw [clmul_step]; simp

theorem clmul_two_left (a b : Nat) : clmul (2 * a) b = 2 * clmul a b := by
  rw [clmul_step]
  have : (2 * a).testBit 0 = false := by simp
  rw [this, Nat.mul_div_cancel_left _ (by omega)]; simp

theorem clmul_xor_left (a a' b : Nat) : clmul (a ^^^ a') b = clmul a b ^^^ clmul a' b := by
  induction a using bit_ind generalizing a' with
  | h0 => simp
  | hs a _ ih =>
    rw [clmul_step (a ^^^ a'), clmul_step a, clmul_step a', xor_div_two, ih, two_mul_xor, Nat.testBit_xor]
    cases a.testBit 0 <;> cases a'.testBit 0 <;> simp [Nat.xor_comm, xor_lc, Nat.xor_assoc]
    all_goals simp [xor_cancel, xor_lc _ b]

theorem clmul_xor_right (a b c : Nat) : clmul a (b ^^^ c) = clmul a b ^^^ clmul a c := by
  induction a using bit_ind with
  | h0 => simp
  | hs a _ ih =>
    rw [clmul_step a, clmul_step a b, clmul_step a c, ih, two_mul_xor]
    cases a.testBit 0 <;> simp [Nat.xor_comm, xor_lc, Nat.xor_assoc]

theorem clmul_two_right (a b : Nat) : clmul a (2 * b) = 2 * clmul a b := by
  induction a using bit_ind with
  | h0 => simp
  | hs a _ ih =>
    rw [clmul_step a, clmul_step a b, ih, two_mul_xor]
    cases a.testBit 0 <;> simp

theorem clmul_one_right (a : Nat) : clmul a 1 = a := by
  induction a using bit_ind with
  | h0 => simp
  | hs a _ ih =>
    rw [clmul_step a, ih]
    have : (if a.testBit 0 = true then 1 else 0) ^^^ 2 * (a / 2) = a := by
      apply Nat.eq_of_testBit_eq
      intro i
      rw [Nat.testBit_xor]
      cases i with
      | zero => by_cases h : a.testBit 0 = true <;> simp [h]
      | succ i =>
        have e : (2 * (a / 2)).testBit (i + 1) = a.testBit (i + 1) := by
          rw [Nat.testBit_succ, Nat.mul_div_cancel_left _ (by omega), ← Nat.testBit_succ]
        rw [e]
        by_cases h : a.testBit 0 = true
        · simp [h, Nat.testBit_succ]
        · simp [h]
    exact this

theorem split_bit (a : Nat) : a = (if a.testBit 0 then 1 else 0) ^^^ (2 * (a / 2)) := by
  have := clmul_step a 1
  rw [clmul_one_right, clmul_one_right] at this
  exact this

theorem clmul_comm (a b : Nat) : clmul a b = clmul b a := by
  induction a using bit_ind with
  | h0 => simp
  | hs a _ ih =>
    have e : clmul b a = clmul b ((if a.testBit 0 then 1 else 0) ^^^ (2 * (a / 2))) := by rw [← split_bit]
    rw [e, clmul_xor_right, clmul_two_right, ← ih, clmul_step a]
    cases a.testBit 0 <;> simp [clmul_one_right]

theorem clmul_assoc (a b c : Nat) : clmul (clmul a b) c = clmul a (clmul b c) := by
  induction a using bit_ind with
  | h0 => simp
  | hs a _ ih =>
    rw [clmul_step a b, clmul_step a (clmul b c), clmul_xor_left, clmul_two_left, ih]
    cases a.testBit 0 <;> simp

/-! ## The ring -/

/-- A polynomial over GF(2); bit `i` of `bits` is the coefficient of `x^i`. -/
@[ext] structure P2 where
  bits : Nat
deriving DecidableEq

namespace P2
instance : Add P2 := ⟨fun a b => ⟨a.bits ^^^ b.bits⟩⟩
instance : Mul P2 := ⟨fun a b => ⟨clmul a.bits b.bits⟩⟩
instance : Zero P2 := ⟨⟨0⟩⟩
instance : One P2 := ⟨⟨1⟩⟩
instance : Neg P2 := ⟨fun a => a⟩
@[simp] theorem add_bits (a b : P2) : (a + b).bits = a.bits ^^^ b.bits := rfl
@[simp] theorem mul_bits (a b : P2) : (a * b).bits = clmul a.bits b.bits := rfl
@[simp] theorem zero_bits : (0 : P2).bits = 0 := rfl
@[simp] theorem one_bits : (1 : P2).bits = 1 := rfl
@[simp] theorem neg_bits (a : P2) : (-a).bits = a.bits := rfl

instance : CommRing P2 where
  add_assoc a b c := by ext; simp [Nat.xor_assoc]
  zero_add a := by ext; simp
  add_zero a := by ext; simp
  add_comm a b := by ext; simp [Nat.xor_comm]
  nsmul := nsmulRec
  zsmul := zsmulRec
  neg_add_cancel a := by ext; simp
  mul_assoc a b c := by ext; simp [clmul_assoc]
  one_mul a := by ext; simp
  mul_one a := by ext; simp [clmul_one_right]
  left_distrib a b c := by ext; simp [clmul_xor_right]
  right_distrib a b c := by ext; simp [clmul_xor_left]
  zero_mul a := by ext; simp
  mul_zero a := by ext; simp
  mul_comm a b := by ext; simp [clmul_comm]

theorem add_self (a : P2) : a + a = 0 := by ext; simp
theorem two_eq_zero : (2 : P2) = 0 := by rw [← one_add_one_eq_two]; exact add_self 1
theorem neg_eq (a : P2) : -a = a := rfl
theorem sub_eq (a b : P2) : a - b = a + b := by rw [sub_eq_add_neg, neg_eq]

/-- The variable `x`. -/
def X : P2 := ⟨2⟩

theorem X_mul (a : P2) : X * a = ⟨2 * a.bits⟩ := by
  ext; show clmul 2 a.bits = _
  have := clmul_two_left 1 a.bits
  rw [clmul_one_left] at this; exact this

theorem X_pow_mul (n : Nat) (a : P2) : X ^ n * a = ⟨2 ^ n * a.bits⟩ := by
  induction n with
  | zero => simp
  | succ n ih => rw [pow_succ', mul_assoc, ih, X_mul]; ext; show 2 * (2 ^ n * a.bits) = _; rw [Nat.pow_succ]; ring

theorem X_pow (n : Nat) : X ^ n = ⟨2 ^ n⟩ := by
  have := X_pow_mul n 1
  rw [mul_one] at this; rw [this]; simp

/-- Every polynomial is its constant coefficient plus `x` times the rest. -/
theorem split (a : P2) : a = (if a.bits.testBit 0 then 1 else 0) + X * ⟨a.bits / 2⟩ := by
  rw [X_mul]; ext
  show a.bits = _
  rw [add_bits]
  conv_lhs => rw [split_bit a.bits]
  cases a.bits.testBit 0 <;> rfl

/-! ## Degrees -/

theorem mul_lt (a b : P2) (i j : Nat) (ha : a.bits < 2 ^ (i + 1)) (hb : b.bits < 2 ^ (j + 1)) : (a * b).bits < 2 ^ (i + j + 1) := by
  obtain ⟨a⟩ := a; obtain ⟨b⟩ := b
  show clmul a b < _
  simp only at ha hb
  induction i generalizing a with
  | zero =>
    have : a = 0 ∨ a = 1 := by omega
    rcases this with rfl | rfl
    · simp; 
    · simpa using hb
  | succ i ih =>
    rw [clmul_step]
    have h1 := ih (a / 2) (by rw [Nat.pow_succ] at ha; omega)
    apply Nat.xor_lt_two_pow
    · split
      · exact Nat.lt_of_lt_of_le hb (Nat.pow_le_pow_right (by omega) (by omega))
      · exact Nat.two_pow_pos _
    · have : i + 1 + j + 1 = (i + j + 1) + 1 := by omega
      rw [this, Nat.pow_succ]; omega

/-- The product has the sum of the degrees. -/
theorem testBit_mul_top (a b : P2) (i j : Nat) (ha : a.bits < 2 ^ (i + 1)) (hb : b.bits < 2 ^ (j + 1)) :
    (a * b).bits.testBit (i + j) = (a.bits.testBit i && b.bits.testBit j) := by
  obtain ⟨a⟩ := a; obtain ⟨b⟩ := b
  show (clmul a b).testBit _ = _
  simp only at ha hb ⊢
  induction i generalizing a with
  | zero =>
    have : a = 0 ∨ a = 1 := by omega
    rcases this with rfl | rfl <;> simp
  | succ i ih =>
    rw [clmul_step, Nat.testBit_xor]
    have e : i + 1 + j = (i + j) + 1 := by omega
    have h1 := ih (a / 2) (by rw [Nat.pow_succ] at ha; omega)
    have h2 : (2 * clmul (a / 2) b).testBit (i + j + 1) = (clmul (a / 2) b).testBit (i + j) := by
      rw [Nat.testBit_succ, Nat.mul_div_cancel_left _ (by omega)]
    have h3 : (if a.testBit 0 = true then b else 0).testBit (i + j + 1) = false := by
      split
      · exact Nat.testBit_lt_two_pow (Nat.lt_of_lt_of_le hb (Nat.pow_le_pow_right (by omega) (by omega)))
      · simp
    rw [e, h2, h3, h1, Nat.testBit_succ]; simp

/-- A multiple of a polynomial of degree `d` below `2^d` is zero. -/
theorem mul_small (q p : P2) (d : Nat) (h1 : 2 ^ d ≤ p.bits) (h2 : p.bits < 2 ^ (d + 1)) (h : (q * p).bits < 2 ^ d) : q = 0 := by
  by_contra hq
  have hq' : q.bits ≠ 0 := fun h => hq (by ext; exact h)
  have e := testBit_mul_top q p q.bits.log2 d Nat.lt_log2_self h2
  rw [Nat.testBit_lt_two_pow (Nat.lt_of_lt_of_le h (Nat.pow_le_pow_right (by omega) (by omega)))] at e
  have t1 : q.bits.testBit q.bits.log2 = true := Nat.testBit_log2 hq'
  have t2 : p.bits.testBit d = true := by
    rw [Nat.testBit_eq_decide_div_mod_eq]
    have : p.bits / 2 ^ d = 1 := by
      rw [Nat.div_eq_iff (Nat.two_pow_pos _)]; rw [Nat.pow_succ] at h2; omega
    rw [this]; rfl
  rw [t1, t2] at e
  exact absurd e (by simp)

end P2
open P2

/-- `r` is the remainder of `a` on division by `p`, a polynomial of degree `d`. -/
def IsRem (p : P2) (d : Nat) (a r : P2) : Prop := r.bits < 2 ^ d ∧ ∃ q, a = q * p + r

/-- The remainder is unique. -/
theorem IsRem.unique {p a r s : P2} {d : Nat} (hp : 2 ^ d ≤ p.bits ∧ p.bits < 2 ^ (d + 1)) (h1 : IsRem p d a r) (h2 : IsRem p d a s) : r = s := by
  obtain ⟨l1, q1, e1⟩ := h1
  obtain ⟨l2, q2, e2⟩ := h2
  have e : (q1 - q2) * p = s - r := by
    have : q1 * p + r = q2 * p + s := by rw [← e1, e2]
    linear_combination this
  have hlt : ((q1 - q2) * p).bits < 2 ^ d := by
    rw [e, sub_eq, add_bits]; exact Nat.xor_lt_two_pow l2 l1
  have := mul_small _ p d hp.1 hp.2 hlt
  rw [this, zero_mul] at e
  exact (sub_eq_zero.mp e.symm).symm

theorem IsRem.add {p a b r s : P2} {d : Nat} (h1 : IsRem p d a r) (h2 : IsRem p d b s) : IsRem p d (a + b) (r + s) := by
  obtain ⟨l1, q1, rfl⟩ := h1
  obtain ⟨l2, q2, rfl⟩ := h2
  exact ⟨Nat.xor_lt_two_pow l1 l2, q1 + q2, by ring⟩

/-- The remainder exists. -/
theorem IsRem.exists (p : P2) (d : Nat) (hp : 2 ^ d ≤ p.bits ∧ p.bits < 2 ^ (d + 1)) (a : P2) : ∃ r, IsRem p d a r := by
  obtain ⟨a⟩ := a
  induction a using bit_ind with
  | h0 => exact ⟨0, Nat.two_pow_pos _, 0, by rw [zero_mul, add_zero]; rfl⟩
  | hs a _ ih =>
    obtain ⟨r, l, q, e⟩ := ih
    have es := split ⟨a⟩
    simp only at es
    by_cases hd : d = 0
    · subst hd
      have : p = 1 := by ext; rw [one_bits]; simp at hp; omega
      subst this
      exact ⟨0, by simp, ⟨a⟩, by ring⟩
    have hc : (if a.testBit 0 = true then (1 : P2) else 0).bits < 2 ^ d := by
      have : 1 < 2 ^ d := Nat.one_lt_two_pow hd
      split
      · exact this
      · exact Nat.two_pow_pos _
    by_cases ht : (2 * r.bits).testBit d = true
    · refine ⟨(if a.testBit 0 = true then (1 : P2) else 0) + (X * r + p), Nat.xor_lt_two_pow hc ?_, X * q + 1, ?_⟩
      · rw [X_mul, add_bits]
        show 2 * r.bits ^^^ p.bits < _
        have l2 : 2 * r.bits < 2 ^ (d + 1) := by rw [Nat.pow_succ]; omega
        have tp : p.bits.testBit d = true := by
          have := testBit_mul_top 1 p 0 d (by simp) hp.2
          rw [Nat.testBit_eq_decide_div_mod_eq]
          have : p.bits / 2 ^ d = 1 := by
            rw [Nat.div_eq_iff (Nat.two_pow_pos _)]; have := hp.2; rw [Nat.pow_succ] at this; omega
          rw [this]; rfl
        apply Nat.lt_pow_two_of_testBit
        intro j hj
        by_cases hjd : j = d
        · rw [hjd, Nat.testBit_xor, ht, tp]; rfl
        · exact Nat.testBit_lt_two_pow (Nat.lt_of_lt_of_le (Nat.xor_lt_two_pow l2 hp.2) (Nat.pow_le_pow_right (by omega) (by omega)))
      · rw [es, e]
        have := add_self p
        linear_combination (-1 : P2) * this
    · refine ⟨(if a.testBit 0 = true then (1 : P2) else 0) + X * r, Nat.xor_lt_two_pow hc ?_, X * q, by rw [es, e]; ring⟩
      rw [X_mul]
      show 2 * r.bits < _
      by_contra hge
      have l2 : 2 * r.bits < 2 ^ (d + 1) := by rw [Nat.pow_succ]; omega
      apply ht
      rw [Nat.testBit_eq_decide_div_mod_eq]
      have : 2 * r.bits / 2 ^ d = 1 := by
        rw [Nat.div_eq_iff (Nat.two_pow_pos _)]; rw [Nat.pow_succ] at l2; omega
      rw [this]; rfl

end Verif.Poly2
