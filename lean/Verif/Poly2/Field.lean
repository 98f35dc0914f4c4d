import Verif.Poly2.Basic
import Mathlib.FieldTheory.Finite.Basic

/-!
# Residues modulo a polynomial over GF(2)

The ring of polynomials of degree below `d` with multiplication modulo a polynomial of degree `d`, when it is a field, and a
certificate for that.
-/
namespace Verif.Poly2
open P2

/-- A modulus: a polynomial of positive degree `d`. -/
structure Modulus where
  p : P2
  d : Nat
  pos : 0 < d
  lower : 2 ^ d ≤ p.bits
  upper : p.bits < 2 ^ (d + 1)

/-- Remainder by Horner's rule, most significant coefficient first; the fuel is the number of coefficients. -/
def pmodF (p d : Nat) : Nat → Nat → Nat
  | 0, _ => 0
  | f + 1, a =>
    let r := 2 * pmodF p d f (a / 2)
    let r := if r.testBit d then r ^^^ p else r
    r ^^^ (a % 2)

/-- Remainder. -/
def pmod (M : Modulus) (a : P2) : P2 := ⟨pmodF M.p.bits M.d (a.bits.log2 + 1) a.bits⟩

theorem testBit_top {a d : Nat} (h1 : 2 ^ d ≤ a) (h2 : a < 2 ^ (d + 1)) : a.testBit d = true := by
  rw [Nat.testBit_eq_decide_div_mod_eq]
  have : a / 2 ^ d = 1 := by rw [Nat.div_eq_iff (Nat.two_pow_pos _)]; rw [Nat.pow_succ] at h2; omega
  rw [this]; rfl

/-- Doubling and reducing once. -/
theorem double_rem (M : Modulus) (r : Nat) (h : r < 2 ^ M.d) :
    (if (2 * r).testBit M.d then (2 * r) ^^^ M.p.bits else 2 * r) < 2 ^ M.d ∧
      ∃ q : P2, X * ⟨r⟩ = q * M.p + ⟨if (2 * r).testBit M.d then (2 * r) ^^^ M.p.bits else 2 * r⟩ := by
  have l2 : 2 * r < 2 ^ (M.d + 1) := by rw [Nat.pow_succ]; omega
  rw [X_mul]
  split
  · rename_i ht
    constructor
    · apply Nat.lt_pow_two_of_testBit
      intro j hj
      by_cases hjd : j = M.d
      · rw [hjd, Nat.testBit_xor, ht, testBit_top M.lower M.upper]; rfl
      · exact Nat.testBit_lt_two_pow (Nat.lt_of_lt_of_le (Nat.xor_lt_two_pow l2 M.upper) (Nat.pow_le_pow_right (by omega) (by omega)))
    · refine ⟨1, ?_⟩
      ext
      show 2 * r = (1 * M.p).bits ^^^ (2 * r ^^^ M.p.bits)
      rw [one_mul, Nat.xor_comm (2 * r), xor_cancel]
  · rename_i ht
    constructor
    · by_contra hge
      exact ht (testBit_top (by omega) l2)
    · exact ⟨0, by rw [zero_mul, zero_add]⟩

theorem pmodF_spec (M : Modulus) (f a : Nat) (h : a < 2 ^ f) : IsRem M.p M.d ⟨a⟩ ⟨pmodF M.p.bits M.d f a⟩ := by
  induction f generalizing a with
  | zero =>
    have : a = 0 := by simpa using h
    subst this
    exact ⟨Nat.two_pow_pos _, 0, by rw [zero_mul, zero_add]; rfl⟩
  | succ f ih =>
    rw [Nat.pow_succ] at h
    obtain ⟨l, q, e⟩ := ih (a / 2) (by omega)
    obtain ⟨l2, q2, e2⟩ := double_rem M _ l
    have hone : a % 2 < 2 ^ M.d := by have := Nat.one_lt_two_pow (Nat.pos_iff_ne_zero.mp M.pos); omega
    have es := split ⟨a⟩
    have e1 : (if a.testBit 0 then (1 : P2) else 0) = ⟨a % 2⟩ := by
      rw [Nat.testBit_zero]
      by_cases ha : a % 2 = 1
      · simp [ha]; rfl
      · have : a % 2 = 0 := by omega
        simp [this]; rfl
    simp only [e1] at es
    refine ⟨Nat.xor_lt_two_pow l2 hone, X * q + q2, ?_⟩
    simp only [pmodF]
    have e3 : ∀ x y : Nat, (⟨x ^^^ y⟩ : P2) = ⟨x⟩ + ⟨y⟩ := fun _ _ => rfl
    rw [e3, es, e]
    linear_combination e2

theorem pmod_spec (M : Modulus) (a : P2) : IsRem M.p M.d a (pmod M a) := pmodF_spec M _ _ Nat.lt_log2_self

theorem pmod_eq (M : Modulus) {a r : P2} (h : IsRem M.p M.d a r) : pmod M a = r := IsRem.unique ⟨M.lower, M.upper⟩ (pmod_spec M a) h

theorem pmod_lt (M : Modulus) (a : P2) : (pmod M a).bits < 2 ^ M.d := (pmod_spec M a).1

theorem pmod_self (M : Modulus) {a : P2} (h : a.bits < 2 ^ M.d) : pmod M a = a := pmod_eq M ⟨h, 0, by ring⟩

theorem pmod_add (M : Modulus) (a b : P2) : pmod M (a + b) = pmod M a + pmod M b := pmod_eq M (IsRem.add (pmod_spec M a) (pmod_spec M b))

theorem pmod_add_mul (M : Modulus) (a q : P2) : pmod M (a + q * M.p) = pmod M a := by
  obtain ⟨l, k, e⟩ := pmod_spec M a
  exact pmod_eq M ⟨l, k + q, by linear_combination e⟩

theorem pmod_mul_left (M : Modulus) (a b : P2) : pmod M (pmod M a * b) = pmod M (a * b) := by
  obtain ⟨_, k, e⟩ := pmod_spec M a
  have h : a * b = pmod M a * b + (k * b) * M.p := by linear_combination b * e
  rw [h, pmod_add_mul]

theorem pmod_mul_right (M : Modulus) (a b : P2) : pmod M (a * pmod M b) = pmod M (a * b) := by
  rw [mul_comm, pmod_mul_left, mul_comm]

theorem pmod_zero (M : Modulus) : pmod M 0 = 0 := pmod_self M (Nat.two_pow_pos _)

theorem two_pow_xor {w m : Nat} (h : m < 2 ^ w) : 2 ^ w ^^^ m = 2 ^ w + m := by
  have e : 2 ^ w + m = 2 ^ w ||| m := by have := Nat.two_pow_add_eq_or_of_lt h 1; simpa using this
  rw [e]
  apply Nat.eq_of_testBit_eq
  intro i
  rw [Nat.testBit_xor, Nat.testBit_or, Nat.testBit_two_pow]
  by_cases hi : w = i
  · subst hi; rw [Nat.testBit_lt_two_pow h]; simp
  · simp [hi]

/-! ## The ring of residues -/

/-- A residue. -/
@[ext] structure Res (M : Modulus) where
  val : P2
  lt : val.bits < 2 ^ M.d
deriving DecidableEq

namespace Res
variable {M : Modulus}

/-- The residue of a polynomial. -/
def of (M : Modulus) (a : P2) : Res M := ⟨pmod M a, pmod_lt M a⟩

instance : Add (Res M) := ⟨fun a b => ⟨a.val + b.val, Nat.xor_lt_two_pow a.lt b.lt⟩⟩
instance : Mul (Res M) := ⟨fun a b => of M (a.val * b.val)⟩
instance : Zero (Res M) := ⟨⟨0, Nat.two_pow_pos _⟩⟩
instance : One (Res M) := ⟨⟨1, Nat.one_lt_two_pow (Nat.pos_iff_ne_zero.mp M.pos)⟩⟩
instance : Neg (Res M) := ⟨fun a => a⟩
@[simp] theorem add_val (a b : Res M) : (a + b).val = a.val + b.val := rfl
@[simp] theorem mul_val (a b : Res M) : (a * b).val = pmod M (a.val * b.val) := rfl
@[simp] theorem zero_val : (0 : Res M).val = 0 := rfl
@[simp] theorem one_val : (1 : Res M).val = 1 := rfl
@[simp] theorem neg_val (a : Res M) : (-a).val = a.val := rfl

instance : CommRing (Res M) where
  add_assoc a b c := by ext1; simp [add_assoc]
  zero_add a := by ext1; simp
  add_zero a := by ext1; simp
  add_comm a b := by ext1; simp [add_comm]
  nsmul := nsmulRec
  zsmul := zsmulRec
  neg_add_cancel a := by ext1; simp [P2.add_self]
  mul_assoc a b c := by ext1; simp only [mul_val, pmod_mul_left, pmod_mul_right, mul_assoc]
  one_mul a := by ext1; simp [pmod_self M a.lt]
  mul_one a := by ext1; simp [pmod_self M a.lt]
  left_distrib a b c := by ext1; simp [mul_add, pmod_add]
  right_distrib a b c := by ext1; simp [add_mul, pmod_add]
  zero_mul a := by ext1; simp only [mul_val, zero_val, zero_mul]; exact pmod_self M (Nat.two_pow_pos _)
  mul_zero a := by ext1; simp only [mul_val, zero_val, mul_zero]; exact pmod_self M (Nat.two_pow_pos _)
  mul_comm a b := by ext1; simp [mul_comm]

theorem add_self (a : Res M) : a + a = 0 := by ext1; simp [P2.add_self]
theorem sub_eq (a b : Res M) : a - b = a + b := by rw [sub_eq_add_neg]; rfl

theorem of_val (a : Res M) : of M a.val = a := by ext1; exact pmod_self M a.lt
theorem of_add (a b : P2) : of M (a + b) = of M a + of M b := by ext1; exact pmod_add M a b
theorem of_mul (a b : P2) : of M (a * b) = of M a * of M b := by
  ext1; show pmod M (a * b) = pmod M (pmod M a * pmod M b); rw [pmod_mul_left, pmod_mul_right]
theorem of_one : of M 1 = 1 := by
  ext1; exact pmod_self M (Nat.one_lt_two_pow (Nat.pos_iff_ne_zero.mp M.pos))
theorem of_zero : of M 0 = 0 := by ext1; exact pmod_self M (Nat.two_pow_pos _)

instance : Nontrivial (Res M) := ⟨0, 1, fun h => by have := congrArg (fun r => r.val.bits) h; simp at this⟩

/-- Residues are the numbers below `2^d`. -/
def equivFin : Res M ≃ Fin (2 ^ M.d) where
  toFun a := ⟨a.val.bits, a.lt⟩
  invFun i := ⟨⟨i.val⟩, i.isLt⟩
  left_inv _ := rfl
  right_inv _ := rfl

instance : Fintype (Res M) := Fintype.ofEquiv _ equivFin.symm

theorem card : Fintype.card (Res M) = 2 ^ M.d := by rw [Fintype.ofEquiv_card]; exact Fintype.card_fin _

end Res

/-! ## Fields -/

/-- The modulus divides no product of two non-zero polynomials of smaller degree: it is irreducible. -/
def IsPrime (M : Modulus) : Prop := ∀ a b : P2, a.bits < 2 ^ M.d → b.bits < 2 ^ M.d → (∃ q, a * b = q * M.p) → a = 0 ∨ b = 0

theorem Res.noZeroDivisors {M : Modulus} (h : IsPrime M) : NoZeroDivisors (Res M) where
  eq_zero_or_eq_zero_of_mul_eq_zero {a b} hab := by
    have h0 : pmod M (a.val * b.val) = 0 := congrArg Res.val hab
    obtain ⟨_, q, e⟩ := pmod_spec M (a.val * b.val)
    rw [h0, add_zero] at e
    rcases h a.val b.val a.lt b.lt ⟨q, e⟩ with h | h
    · left; ext1; exact h
    · right; ext1; exact h

/-- The field of residues of a prime modulus. -/
noncomputable def Res.field {M : Modulus} (h : IsPrime M) : Field (Res M) :=
  haveI := Res.noZeroDivisors h
  haveI : IsDomain (Res M) := NoZeroDivisors.to_isDomain _
  (Finite.isField_of_domain (Res M)).toField

/-- Fermat: `a^(2^d - 1) = 1`. -/
theorem Res.pow_card_sub_one {M : Modulus} (h : IsPrime M) (a : Res M) (ha : a ≠ 0) : a ^ (2 ^ M.d - 1) = 1 := by
  letI := Res.field h
  have := FiniteField.pow_card_sub_one_eq_one a ha
  rw [Res.card] at this
  exact this

/-! ## A certificate for primality -/

/-- A sum over the set bits of `y`: a linear map given by its matrix. -/
def linear (t : List Nat) (y : Nat) : Nat := (t.zipIdx.map fun ti => if y.testBit ti.2 then ti.1 else 0).foldl (· ^^^ ·) 0

theorem foldl_xor (l : List Nat) (a : Nat) : l.foldl (· ^^^ ·) a = a ^^^ l.foldl (· ^^^ ·) 0 := by
  induction l generalizing a with
  | nil => simp
  | cons x l ih => rw [List.foldl_cons, List.foldl_cons, ih, ih (0 ^^^ x), Nat.zero_xor, Nat.xor_assoc]

theorem linear_xor (t : List Nat) (y z : Nat) : linear t (y ^^^ z) = linear t y ^^^ linear t z := by
  unfold linear
  generalize t.zipIdx = l
  induction l with
  | nil => simp
  | cons x l ih =>
    simp only [List.map_cons, List.foldl_cons]
    rw [foldl_xor, ih, foldl_xor _ (0 ^^^ if y.testBit x.2 = true then x.1 else 0), foldl_xor _ (0 ^^^ if z.testBit x.2 = true then x.1 else 0), Nat.testBit_xor]
    cases y.testBit x.2 <;> cases z.testBit x.2 <;> simp [Nat.xor_assoc, xor_lc, xor_cancel]

/-- An additive function that vanishes on the powers of `x` below `x^n` vanishes below `2^n`. -/
theorem additive_zero (F : Nat → Nat) (hF : ∀ a b, F (a ^^^ b) = F a ^^^ F b) (n : Nat) (h : ∀ i, i < n → F (2 ^ i) = 0) (a : Nat) (ha : a < 2 ^ n) : F a = 0 := by
  have h0 : F 0 = 0 := by have := hF 0 0; simpa using this
  induction n generalizing a with
  | zero => have : a = 0 := by simpa using ha
            rw [this, h0]
  | succ n ih =>
    by_cases ht : a.testBit n = true
    · have e : a = (a ^^^ 2 ^ n) ^^^ 2 ^ n := by rw [Nat.xor_assoc, Nat.xor_self, Nat.xor_zero]
      have l : a ^^^ 2 ^ n < 2 ^ n := by
        apply Nat.lt_pow_two_of_testBit
        intro j hj
        rw [Nat.testBit_xor]
        by_cases hjn : j = n
        · rw [hjn, ht]; simp
        · rw [Nat.testBit_lt_two_pow (Nat.lt_of_lt_of_le ha (Nat.pow_le_pow_right (by omega) (by omega))), Nat.testBit_two_pow]
          simp; omega
      rw [e, hF, ih (fun i hi => h i (by omega)) _ l, h n (by omega), Nat.xor_self]
    · have l : a < 2 ^ n := by
        by_contra hge
        exact ht (testBit_top (by omega) ha)
      exact ih (fun i hi => h i (by omega)) a l

/-- `x`, squared `k` times modulo `p`. -/
def sqIter (M : Modulus) : Nat → P2 → P2
  | 0, a => a
  | k + 1, a => sqIter M k (pmod M (a * a))

/-- A certificate that `M` is prime. `frob`: `x^(2^d) = x`; `kernel`: the matrix `t` recovers every coefficient but the constant one
of `a` from `a² + a`, so only 0 and 1 are idempotent. -/
structure Certificate (M : Modulus) (t : List Nat) : Prop where
  frob : sqIter M M.d (pmod M X) = pmod M X
  kernel : ∀ i, i < M.d → linear t ((pmod M (⟨2 ^ i⟩ * ⟨2 ^ i⟩)).bits ^^^ 2 ^ i) = if i = 0 then 0 else 2 ^ i

theorem sq_add {M : Modulus} (a b : Res M) : (a + b) * (a + b) = a * a + b * b := by
  have := Res.add_self (a * b)
  linear_combination this

theorem of_sqIter (M : Modulus) (k : Nat) (a : P2) : Res.of M (sqIter M k a) = Res.of M a ^ (2 ^ k) := by
  induction k generalizing a with
  | zero => simp [sqIter]
  | succ k ih =>
    rw [sqIter, ih]
    have : Res.of M (pmod M (a * a)) = Res.of M a * Res.of M a := by
      rw [← Res.of_mul]; ext1; exact pmod_self M (pmod_lt M _)
    rw [this, ← pow_two, ← pow_mul, pow_succ', ]

theorem frob_add {M : Modulus} (k : Nat) (a b : Res M) : (a + b) ^ (2 ^ k) = a ^ (2 ^ k) + b ^ (2 ^ k) := by
  induction k with
  | zero => simp
  | succ k ih => rw [pow_succ 2 k, pow_mul, pow_mul, pow_mul, ih, pow_two, pow_two, pow_two, sq_add]

theorem Certificate.fermat {M : Modulus} {t : List Nat} (c : Certificate M t) (a : Res M) : a ^ (2 ^ M.d) = a := by
  have hx : Res.of M X ^ (2 ^ M.d) = Res.of M X := by
    have := of_sqIter M M.d (pmod M X)
    rw [c.frob] at this
    have e : Res.of M (pmod M X) = Res.of M X := by ext1; exact pmod_self M (pmod_lt M _)
    rw [e] at this
    exact this.symm
  have key : ∀ n : Nat, Res.of M ⟨n⟩ ^ (2 ^ M.d) = Res.of M ⟨n⟩ := by
    intro n
    induction n using bit_ind with
    | h0 =>
      have : Res.of M ⟨0⟩ = 0 := Res.of_zero
      rw [this, zero_pow (by have := Nat.two_pow_pos M.d; omega)]
    | hs n _ ih =>
      rw [split ⟨n⟩, Res.of_add, Res.of_mul, frob_add, mul_pow, hx, ih]
      congr 1
      split
      · rw [Res.of_one, one_pow]
      · rw [Res.of_zero, zero_pow (by have := Nat.two_pow_pos M.d; omega)]
  have := key a.val.bits
  rwa [show (⟨a.val.bits⟩ : P2) = a.val from rfl, Res.of_val] at this

/-- Clearing the constant coefficient. -/
def noConst (a : Nat) : Nat := a ^^^ (a % 2)

theorem mod_two_xor (a b : Nat) : (a ^^^ b) % 2 = (a % 2) ^^^ (b % 2) := by
  have := Nat.xor_mod_two_pow (a := a) (b := b) (n := 1)
  simpa using this

theorem Certificate.idempotent {M : Modulus} {t : List Nat} (c : Certificate M t) (e : Res M) (he : e * e = e) : e = 0 ∨ e = 1 := by
  have hlin := additive_zero (fun a => linear t ((pmod M (⟨a⟩ * ⟨a⟩)).bits ^^^ a) ^^^ noConst a)
    (by
      intro a b
      have e1 : (⟨a ^^^ b⟩ : P2) * ⟨a ^^^ b⟩ = ⟨a⟩ * ⟨a⟩ + ⟨b⟩ * ⟨b⟩ := by
        have : (⟨a ^^^ b⟩ : P2) = ⟨a⟩ + ⟨b⟩ := rfl
        rw [this]
        have := P2.add_self ((⟨a⟩ : P2) * ⟨b⟩)
        linear_combination this
      rw [e1, pmod_add, P2.add_bits]
      have e2 : (pmod M (⟨a⟩ * ⟨a⟩)).bits ^^^ (pmod M (⟨b⟩ * ⟨b⟩)).bits ^^^ (a ^^^ b) =
          ((pmod M (⟨a⟩ * ⟨a⟩)).bits ^^^ a) ^^^ ((pmod M (⟨b⟩ * ⟨b⟩)).bits ^^^ b) := by
        simp only [Nat.xor_assoc, xor_lc _ a]
      have e3 : noConst (a ^^^ b) = noConst a ^^^ noConst b := by
        unfold noConst; rw [mod_two_xor]; simp only [Nat.xor_assoc, xor_lc _ b]
      rw [e2, linear_xor, e3]
      simp only [Nat.xor_assoc]
      rw [xor_lc (linear t ((pmod M (⟨b⟩ * ⟨b⟩)).bits ^^^ b)) (noConst a)])
    M.d
    (by
      intro i hi
      rw [c.kernel i hi]
      by_cases h0 : i = 0
      · subst h0; decide
      · rw [if_neg h0]
        have : 2 ^ i % 2 = 0 := by obtain ⟨j, rfl⟩ := Nat.exists_eq_succ_of_ne_zero h0; rw [Nat.pow_succ]; omega
        unfold noConst; rw [this, Nat.xor_zero, Nat.xor_self])
    e.val.bits e.lt
  have hsq : (pmod M ((⟨e.val.bits⟩ : P2) * ⟨e.val.bits⟩)).bits = e.val.bits := by
    have := congrArg (fun r => r.val.bits) he
    exact this
  simp only [hsq, Nat.xor_self] at hlin
  have hz : linear t 0 = 0 := by have := linear_xor t 0 0; simpa using this
  rw [hz, Nat.zero_xor] at hlin
  have hle : e.val.bits = e.val.bits % 2 := by
    unfold noConst at hlin
    have : e.val.bits ^^^ e.val.bits % 2 ^^^ e.val.bits % 2 = 0 ^^^ e.val.bits % 2 := by rw [hlin]
    rwa [Nat.xor_assoc, Nat.xor_self, Nat.xor_zero, Nat.zero_xor] at this
  have : e.val.bits = 0 ∨ e.val.bits = 1 := by omega
  rcases this with h | h
  · left; ext1; ext1; exact h
  · right; ext1; ext1; exact h

/-- Every non-zero residue is a unit. -/
theorem Certificate.unit {M : Modulus} {t : List Nat} (c : Certificate M t) (a : Res M) (ha : a ≠ 0) : a * a ^ (2 ^ M.d - 2) = 1 := by
  have h2 : 2 ≤ 2 ^ M.d := by have := Nat.one_lt_two_pow (Nat.pos_iff_ne_zero.mp M.pos); omega
  have hf := c.fermat a
  have e1 : a * a ^ (2 ^ M.d - 2) = a ^ (2 ^ M.d - 1) := by rw [← pow_succ']; congr 1; omega
  have e2 : a * a ^ (2 ^ M.d - 1) = a := by rw [← pow_succ', Nat.sub_add_cancel (by omega)]; exact hf
  rw [e1]
  have hid : a ^ (2 ^ M.d - 1) * a ^ (2 ^ M.d - 1) = a ^ (2 ^ M.d - 1) := by
    calc a ^ (2 ^ M.d - 1) * a ^ (2 ^ M.d - 1) = (a * a ^ (2 ^ M.d - 1)) * a ^ (2 ^ M.d - 2) := by rw [← e1]; ring
      _ = a ^ (2 ^ M.d - 1) := by rw [e2, e1]
  rcases c.idempotent _ hid with h | h
  · rw [h, mul_zero] at e2; exact absurd e2.symm ha
  · exact h

theorem Certificate.isPrime {M : Modulus} {t : List Nat} (c : Certificate M t) : IsPrime M := by
  intro a b ha hb ⟨q, e⟩
  by_contra hcon
  push Not at hcon
  have h0 : (⟨a, ha⟩ : Res M) * ⟨b, hb⟩ = 0 := by
    ext1; exact pmod_eq M ⟨Nat.two_pow_pos _, q, by rw [Res.zero_val, add_zero]; exact e⟩
  have hu := c.unit ⟨a, ha⟩ (fun h => hcon.1 (congrArg Res.val h))
  have : (⟨b, hb⟩ : Res M) = 0 := by
    calc (⟨b, hb⟩ : Res M) = (⟨a, ha⟩ * (⟨a, ha⟩ : Res M) ^ (2 ^ M.d - 2)) * ⟨b, hb⟩ := by rw [hu, one_mul]
      _ = (⟨a, ha⟩ * ⟨b, hb⟩) * (⟨a, ha⟩ : Res M) ^ (2 ^ M.d - 2) := by ring
      _ = 0 := by rw [h0, zero_mul]
  exact hcon.2 (congrArg Res.val this)

end Verif.Poly2
