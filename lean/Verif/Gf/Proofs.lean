import Verif.Gf.Model
import Verif.Gf.Spec
import Mathlib.Tactic.Linarith

namespace Verif.Gf
open Verif.Poly2 Verif.Poly2.P2

theorem poly_inj {w : Nat} {a b : BitVec w} (h : poly a = poly b) : a = b := BitVec.eq_of_toNat_eq (congrArg P2.bits h)

theorem poly_xor {w : Nat} (a b : BitVec w) : poly (a ^^^ b) = poly a + poly b := by ext; exact BitVec.toNat_xor a b

theorem poly_lt {w : Nat} (a : BitVec w) : (poly a).bits < 2 ^ w := a.isLt

/-- Multiplication by `x`. -/
def xtime {w : Nat} (m a : BitVec w) : BitVec w := if a.getLsbD (w - 1) then (a <<< 1) ^^^ m else a <<< 1

theorem xtime_spec {w : Nat} (hw : 0 < w) (m a : BitVec w) : poly (xtime m a) = pmod (modOf w hw m) (X * poly a) := by
  symm
  apply pmod_eq
  refine ⟨poly_lt _, ?_⟩
  obtain ⟨l, q, e⟩ := double_rem (modOf w hw m) a.toNat a.isLt
  refine ⟨q, ?_⟩
  have ha : poly a = ⟨a.toNat⟩ := rfl
  rw [ha, e]
  congr 1
  ext
  show _ = (xtime m a).toNat
  have hd : (modOf w hw m).d = w := rfl
  have hp : (modOf w hw m).p.bits = 2 ^ w ^^^ m.toNat := by show (X ^ w + poly m).bits = _; rw [X_pow]; rfl
  have hb : (2 * a.toNat).testBit w = a.getLsbD (w - 1) := by
    obtain ⟨v, rfl⟩ : ∃ v, w = v + 1 := ⟨w - 1, by omega⟩
    rw [Nat.testBit_succ, Nat.mul_div_cancel_left _ (by decide)]; rfl
  rw [hd, hp, hb] at l ⊢
  unfold xtime
  split
  · rename_i h
    rw [if_pos h] at l
    simp only at l ⊢
    rw [← Nat.mod_eq_of_lt l, BitVec.toNat_xor, BitVec.toNat_shiftLeft, Nat.xor_mod_two_pow, Nat.xor_mod_two_pow, Nat.mod_self, Nat.zero_xor,
      Nat.mod_eq_of_lt m.isLt, Nat.shiftLeft_eq, pow_one, mul_comm]
  · rename_i h
    rw [if_neg h] at l
    simp only at l ⊢
    rw [BitVec.toNat_shiftLeft, Nat.shiftLeft_eq, pow_one, mul_comm, Nat.mod_eq_of_lt (by omega)]

/-! ## GF(2^8) -/

abbrev M8 (m : Byte) : Modulus := modOf 8 (by decide) m

theorem and_100 {w : Nat} (hw : 9 ≤ w) (x : BitVec w) : (x &&& 0x100#w ≠ 0) ↔ x.getLsbD 8 = true := by
  have e : (0x100#w) = BitVec.twoPow w 8 := by
    apply BitVec.eq_of_toNat_eq
    rw [BitVec.toNat_twoPow, BitVec.toNat_ofNat]
  rw [e, BitVec.and_twoPow]
  cases h : x.getLsbD 8
  · simp
  · simp only [if_true, iff_true]
    intro h0
    have := congrArg BitVec.toNat h0
    rw [BitVec.toNat_twoPow, Nat.mod_eq_of_lt (Nat.pow_lt_pow_right (by decide) (by omega))] at this
    simp at this

theorem low_shift {w : Nat} (hw : 9 ≤ w) (x : BitVec w) : (x <<< 1).setWidth 8 = (x.setWidth 8) <<< 1 := by
  apply BitVec.eq_of_getLsbD_eq
  intro i hi
  simp [BitVec.getLsbD_setWidth, BitVec.getLsbD_shiftLeft]
  have h1 : i < w := by omega
  have h2 : i - 1 < 8 := by omega
  simp [hi, h1, h2]

theorem shift_bit8 {w : Nat} (hw : 9 ≤ w) (x : BitVec w) : (x <<< 1).getLsbD 8 = (x.setWidth 8).getLsbD 7 := by
  simp [BitVec.getLsbD_setWidth, BitVec.getLsbD_shiftLeft]; omega

theorem low_xor {w : Nat} (x y : BitVec w) : (x ^^^ y).setWidth 8 = x.setWidth 8 ^^^ y.setWidth 8 := BitVec.setWidth_xor

theorem low_up {w : Nat} (hw : 9 ≤ w) (x : Byte) : (x.setWidth w).setWidth 8 = x := by
  rw [BitVec.setWidth_setWidth_of_le _ (by omega)]; exact BitVec.setWidth_eq x

theorem round256_spec {w : Nat} (hw : 9 ≤ w) (m a : Byte) (st : BitVec w × BitVec w) :
    ((round256 (m.setWidth w) (a.setWidth w) st).1.setWidth 8 =
      xtime m (st.1.setWidth 8) ^^^ (if (st.2.setWidth 8).getLsbD 7 then a else 0)) ∧
    (round256 (m.setWidth w) (a.setWidth w) st).2 = st.2 <<< 1 := by
  refine ⟨?_, rfl⟩
  unfold round256 xtime
  simp only [and_100 hw, shift_bit8 hw]
  split <;> split <;> simp [low_xor, low_up hw, low_shift hw]

theorem rounds256_spec {w : Nat} (hw : 9 ≤ w) (m a b : Byte) (n k : Nat) (hk : n + k = 8) (st : BitVec w × BitVec w)
    (h1 : poly (st.1.setWidth 8) = pmod (M8 m) (poly a * ⟨b.toNat / 2 ^ n⟩)) (h2 : st.2 = (b.setWidth w) <<< k) :
    poly ((rounds256 (m.setWidth w) (a.setWidth w) n st).1.setWidth 8) = pmod (M8 m) (poly a * poly b) := by
  induction n generalizing k st with
  | zero => rw [rounds256, h1, pow_zero, Nat.div_one]; rfl
  | succ n ih =>
    rw [rounds256]
    obtain ⟨e1, e2⟩ := round256_spec hw m a st
    apply ih (k + 1) (by omega)
    · have hb : (st.2.setWidth 8).getLsbD 7 = b.toNat.testBit n := by
        rw [h2]
        simp [BitVec.getLsbD_setWidth, BitVec.getLsbD_shiftLeft]
        have : k ≤ 7 := by omega
        have h7 : 7 - k = n := by omega
        have : n < w := by omega
        rw [h7]
        show _ = b.getLsbD n
        have : 7 < w := by omega
        simp [*]
      rw [e1, poly_xor, xtime_spec (by decide), h1, hb, pmod_mul_right]
      have hs : (⟨b.toNat / 2 ^ n⟩ : P2) = (if b.toNat.testBit n then 1 else 0) + X * ⟨b.toNat / 2 ^ (n + 1)⟩ := by
        rw [split ⟨b.toNat / 2 ^ n⟩]
        simp only
        rw [Nat.testBit_div_two_pow, Nat.zero_add, Nat.div_div_eq_div_mul, ← Nat.pow_succ]
      rw [hs, mul_add, pmod_add, add_comm]
      congr 1
      · split
        · rw [mul_one, pmod_self _ (poly_lt a)]
        · rw [mul_zero, pmod_zero]; rfl
      · ring_nf
    · rw [e2, h2, BitVec.shiftLeft_add]

theorem mul256_spec {w : Nat} (hw : 9 ≤ w) (m a b : Byte) : poly (mul256 w m a b) = pmod (M8 m) (poly a * poly b) := by
  unfold mul256
  apply rounds256_spec hw m a b 8 0 rfl
  · have : b.toNat / 2 ^ 8 = 0 := Nat.div_eq_of_lt b.isLt
    rw [this]
    have : poly a * (⟨0⟩ : P2) = 0 := mul_zero _
    rw [this, pmod_zero]
    ext; simp [poly]
  · simp

/-- A byte as a residue. -/
def r8 (m a : Byte) : Res (M8 m) := ⟨poly a, poly_lt a⟩

theorem r8_inj {m a b : Byte} (h : r8 m a = r8 m b) : a = b := poly_inj (congrArg Res.val h)

theorem r8_mul {w : Nat} (hw : 9 ≤ w) (m a b : Byte) : r8 m (mul256 w m a b) = r8 m a * r8 m b := by
  ext1; exact mul256_spec hw m a b

theorem invLoop256_spec {w : Nat} (hw : 9 ≤ w) (m a : Byte) (n k : Nat) (r : Byte) (h : r8 m r = r8 m a ^ (2 ^ k - 1)) :
    r8 m (invLoop256 w m a n r) = r8 m a ^ (2 ^ (k + n) - 1) := by
  induction n generalizing k r with
  | zero => exact h
  | succ n ih =>
    rw [invLoop256, ih (k + 1)]
    · congr 3; omega
    · rw [r8_mul hw, square256, r8_mul hw, h, ← pow_add, ← pow_succ]
      congr 1
      have := Nat.two_pow_pos k
      rw [Nat.pow_succ]; omega

theorem inv256_spec {w : Nat} (hw : 9 ≤ w) (m a : Byte) : r8 m (inv256 w m a) = r8 m a ^ 254 := by
  rw [inv256, square256, r8_mul hw, invLoop256_spec hw m a 6 1 a (by simp), ← pow_add]; rfl

/-! ## GF(2^32): multiplication -/

abbrev M32 (m : W32) : Modulus := modOf 32 (by decide) m

theorem and_top (x : W32) : (x &&& 0x80000000#32 ≠ 0) ↔ x.getLsbD 31 = true := by
  have e : (0x80000000#32) = BitVec.twoPow 32 31 := by decide
  rw [e, BitVec.and_twoPow]
  cases h : x.getLsbD 31 <;> simp

theorem index_eq (y r : W32) (c : Bool) (hy : y &&& 2#32 = if c then 2#32 else 0#32) (t : W32 × W32 × W32 × W32) :
    tabAt t ((y &&& 2#32) + (r >>> 31)) =
      if c then (if r.getLsbD 31 then t.2.2.2 else t.2.2.1) else (if r.getLsbD 31 then t.2.1 else t.1) := by
  have hr : r >>> 31 = if r.getLsbD 31 then 1#32 else 0#32 := by
    apply BitVec.eq_of_getLsbD_eq
    intro i hi
    rw [BitVec.getLsbD_ushiftRight]
    by_cases h0 : i = 0
    · subst h0; cases h : r.getLsbD 31 <;> simp [h]
    · rw [BitVec.getLsbD_of_ge _ _ (by omega)]
      cases h : r.getLsbD 31 <;> simp [h0]
  rw [hy, hr]
  cases c <;> cases h : r.getLsbD 31 <;> simp [tabAt]

theorem and_two (y : W32) : y &&& 2#32 = if y.getLsbD 1 then 2#32 else 0#32 := by
  have e : (2#32) = BitVec.twoPow 32 1 := by decide
  rw [e, BitVec.and_twoPow]

theorem and_one (y : W32) : (y &&& 1#32 ≠ 0) ↔ y.getLsbD 0 = true := by
  have e : (1#32) = BitVec.twoPow 32 0 := by decide
  rw [e, BitVec.and_twoPow]
  cases h : y.getLsbD 0 <;> simp <;> decide

theorem xor_lcb {w : Nat} (a b c : BitVec w) : a ^^^ (b ^^^ c) = b ^^^ (a ^^^ c) := by rw [← BitVec.xor_assoc, BitVec.xor_comm a b, BitVec.xor_assoc]
theorem xor_cb {w : Nat} (a b : BitVec w) : a ^^^ (a ^^^ b) = b := by rw [← BitVec.xor_assoc, BitVec.xor_self, BitVec.zero_xor]

/-- One Horner step. -/
def horner (m a r : W32) (c : Bool) : W32 := xtime m r ^^^ (if c then xtime m a else 0)

theorem tab_step (m a r y : W32) : (r <<< 1) ^^^ tabAt (table32 m a) ((y &&& 2#32) + (r >>> 31)) = horner m a r (y.getLsbD 1) := by
  rw [index_eq y r (y.getLsbD 1) (and_two y)]
  unfold horner xtime table32
  simp only [and_top]
  cases y.getLsbD 1 <;> cases h2 : r.getLsbD 31 <;> cases h3 : a.getLsbD 31 <;>
    simp [BitVec.xor_comm m, BitVec.xor_assoc, xor_lcb _ m, xor_cb]

theorem tab_first (m a y : W32) : tabAt (table32 m a) (y &&& 2#32) = horner m a 0 (y.getLsbD 1) := by
  have h := index_eq y 0 (y.getLsbD 1) (and_two y) (table32 m a)
  have e0 : (0 : W32) >>> 31 = 0#32 := by decide
  rw [e0, BitVec.add_zero] at h
  rw [h]
  unfold horner xtime table32
  simp only [and_top]
  cases y.getLsbD 1 <;> cases h3 : a.getLsbD 31 <;> simp [BitVec.xor_comm]

/-- The Horner loop over the bits `n, …, 1` of `b`. -/
def hornerLoop (m a b : W32) : Nat → W32 → W32
  | 0, r => r
  | i + 1, r => hornerLoop m a b i (horner m a r (b.getLsbD (i + 1)))

theorem mulLoop_eq (m a b : W32) (n : Nat) (r : W32) : mulLoop (table32 m a) b n r = hornerLoop m a b n r := by
  induction n generalizing r with
  | zero => rfl
  | succ n ih =>
    rw [mulLoop, hornerLoop, tab_step, ih, BitVec.getLsbD_ushiftRight]

theorem rotr_bit (b : W32) (i j : Nat) (hi : i < 32) (hj : j < 32) : (b.rotateRight i).getLsbD j = b.getLsbD ((i + j) % 32) := by
  rw [BitVec.getLsbD_rotateRight, Nat.mod_eq_of_lt hi, Bool.cond_decide]
  by_cases h : j < 32 - i
  · rw [if_pos h, Nat.mod_eq_of_lt (by omega)]
  · rw [if_neg h, decide_eq_true hj, Bool.true_and]
    congr 1; omega

theorem rotl_bit (b : W32) (j : Nat) (hj : j < 32) : (b.rotateLeft 1).getLsbD j = b.getLsbD ((j + 31) % 32) := by
  rw [BitVec.getLsbD_rotateLeft, Nat.mod_eq_of_lt (by decide), Bool.cond_decide]
  by_cases h : j < 1
  · rw [if_pos h]; congr 1; omega
  · rw [if_neg h, decide_eq_true hj, Bool.true_and]
    congr 1; omega

theorem rotr_step (b : W32) (i : Nat) (hi : i + 1 < 32) : (b.rotateRight (i + 1)).rotateLeft 1 = b.rotateRight i := by
  apply BitVec.eq_of_getLsbD_eq
  intro j hj
  rw [rotl_bit _ _ hj, rotr_bit _ _ _ hi (by omega), rotr_bit _ _ _ (by omega) hj]
  congr 1; omega

theorem mulLoopRot_eq (m a b : W32) (n : Nat) (hn : n ≤ 30) (r : W32) :
    mulLoopRot (table32 m a) n (b.rotateRight n) r = (b, hornerLoop m a b n r) := by
  induction n generalizing r with
  | zero =>
    have : b.rotateRight 0 = b := by
      apply BitVec.eq_of_getLsbD_eq
      intro j hj
      rw [rotr_bit _ _ _ (by decide) hj, Nat.zero_add, Nat.mod_eq_of_lt hj]
    rw [this]; rfl
  | succ n ih =>
    rw [mulLoopRot, hornerLoop, rotr_step b n (by omega)]
    rw [tab_step, ih (by omega), rotr_bit b n 1 (by omega) (by omega), Nat.mod_eq_of_lt (by omega)]

theorem mul32_horner (fr : Bool) (m a b : W32) :
    mul32 fr m a b = (hornerLoop m a b 30 (horner m a 0 (b.getLsbD 31))) ^^^ (if b.getLsbD 0 then a else 0) := by
  unfold mul32
  cases fr
  · simp only [Bool.false_eq_true, if_false]
    rw [tab_first, mulLoop_eq]
    have : (b >>> 30).getLsbD 1 = b.getLsbD 31 := by simp [BitVec.getLsbD_ushiftRight]
    rw [this]
    simp only [and_one]
    split <;> simp
  · simp only [if_true]
    rw [tab_first, mulLoopRot_eq _ _ _ _ (Nat.le_refl _), rotr_bit b 30 1 (by decide) (by decide)]
    simp only [and_one]
    split <;> simp

theorem div_split (b n : Nat) : (⟨b / 2 ^ n⟩ : P2) = (if b.testBit n then 1 else 0) + X * ⟨b / 2 ^ (n + 1)⟩ := by
  rw [split ⟨b / 2 ^ n⟩]
  simp only
  rw [Nat.testBit_div_two_pow, Nat.zero_add, Nat.div_div_eq_div_mul, ← Nat.pow_succ]

theorem horner_spec (m a r b : W32) (n : Nat) (h : poly r = pmod (M32 m) (X * poly a * ⟨b.toNat / 2 ^ (n + 1)⟩)) :
    poly (horner m a r (b.getLsbD n)) = pmod (M32 m) (X * poly a * ⟨b.toNat / 2 ^ n⟩) := by
  rw [horner, poly_xor, xtime_spec (by decide), h, pmod_mul_right, div_split _ n, mul_add, pmod_add, add_comm]
  congr 1
  · show _ = pmod _ (_ * if b.getLsbD n = true then 1 else 0)
    split
    · rw [mul_one, xtime_spec (by decide)]
    · rw [mul_zero, pmod_zero]; rfl
  · congr 1; ring

theorem hornerLoop_spec (m a b : W32) (n : Nat) (r : W32) (h : poly r = pmod (M32 m) (X * poly a * ⟨b.toNat / 2 ^ (n + 1)⟩)) :
    poly (hornerLoop m a b n r) = pmod (M32 m) (X * poly a * ⟨b.toNat / 2 ^ 1⟩) := by
  induction n generalizing r with
  | zero => exact h
  | succ n ih => rw [hornerLoop]; exact ih _ (horner_spec m a r b (n + 1) h)

theorem mul32_spec (fr : Bool) (m a b : W32) : poly (mul32 fr m a b) = pmod (M32 m) (poly a * poly b) := by
  have h0 : poly (0 : W32) = pmod (M32 m) (X * poly a * ⟨b.toNat / 2 ^ (31 + 1)⟩) := by
    have : b.toNat / 2 ^ (31 + 1) = 0 := Nat.div_eq_of_lt b.isLt
    rw [this]
    have : X * poly a * (⟨0⟩ : P2) = 0 := mul_zero _
    rw [this, pmod_zero]; rfl
  have h1 := hornerLoop_spec m a b 30 _ (horner_spec m a 0 b 31 h0)
  rw [mul32_horner, poly_xor, h1]
  have hb := div_split b.toNat 0
  rw [pow_zero, Nat.div_one] at hb
  show _ = pmod _ (poly a * ⟨b.toNat⟩)
  rw [hb, mul_add, pmod_add, add_comm]
  congr 1
  · show _ = pmod _ (_ * if b.getLsbD 0 = true then 1 else 0)
    split
    · rw [mul_one, pmod_self _ (poly_lt a)]
    · rw [mul_zero, pmod_zero]; rfl
  · congr 1; ring

/-! ## GF(2^32): inversion -/

theorem log2_eq {n k : Nat} (h1 : 2 ^ k ≤ n) (h2 : n < 2 ^ (k + 1)) : n.log2 = k := by
  have hn : n ≠ 0 := by have := Nat.two_pow_pos k; omega
  have a := (Nat.le_log2 hn).mpr h1
  have b := (Nat.log2_lt hn).mpr h2
  omega

/-- Shifting left without losing bits. -/
theorem poly_shl (x : W32) (h : x.toNat * 2 < 2 ^ 32) : poly (x <<< 1) = X * poly x := by
  rw [X_mul]; ext
  show (x <<< 1).toNat = 2 * x.toNat
  rw [BitVec.toNat_shiftLeft, Nat.shiftLeft_eq, pow_one, Nat.mod_eq_of_lt h, mul_comm]

/-- The polynomials of the Euclidean loop; all but the relation to the modulus. -/
structure EuInv (P a : P2) (g0 g1 v0 v1 : P2) : Prop where
  cross : v0 * g1 + v1 * g0 = P
  r0 : ∃ q, v0 * a = q * P + g0
  r1 : ∃ q, v1 * a = q * P + g1
  b1 : v1.bits < 2 ^ (33 - g0.bits.log2)
  b0 : v0.bits < 2 ^ (33 - g1.bits.log2)
  l0 : g0.bits < 2 ^ 32
  l1 : g1.bits < 2 ^ 32
  two : 2 ≤ g1.bits
  nz : g0.bits ≠ 0

theorem EuInv.swap {P a g0 g1 v0 v1 : P2} (h : EuInv P a g0 g1 v0 v1) (h1 : 2 ≤ g0.bits) : EuInv P a g1 g0 v1 v0 :=
  ⟨by rw [← h.cross]; ring, h.r1, h.r0, h.b0, h.b1, h.l1, h.l0, h1, by have := h.two; omega⟩

theorem log2_ge_one {n : Nat} (h : 2 ≤ n) : 1 ≤ n.log2 := (Nat.le_log2 (by omega)).mpr (by simpa using h)

theorem log2_le_31 {n : Nat} (h0 : n ≠ 0) (h : n < 2 ^ 32) : n.log2 ≤ 31 := by
  have := (Nat.log2_lt h0).mpr h; omega

theorem xor_top {a b k : Nat} (ha : a < 2 ^ k) (h1 : 2 ^ k ≤ b) (h2 : b < 2 ^ (k + 1)) : 2 ^ k ≤ b ^^^ a := by
  apply Nat.ge_two_pow_of_testBit
  rw [Nat.testBit_xor, testBit_top h1 h2, Nat.testBit_lt_two_pow ha]; rfl

theorem xor_same_top {a b k : Nat} (ha : 2 ^ k ≤ a) (ha2 : a < 2 ^ (k + 1)) (h1 : 2 ^ k ≤ b) (h2 : b < 2 ^ (k + 1)) : a ^^^ b < 2 ^ k := by
  apply Nat.lt_pow_two_of_testBit
  intro j hj
  rw [Nat.testBit_xor]
  by_cases hjk : j = k
  · rw [hjk, testBit_top ha ha2, testBit_top h1 h2]; rfl
  · have e : 2 ^ (k + 1) ≤ 2 ^ j := Nat.pow_le_pow_right (by decide) (by omega)
    rw [Nat.testBit_lt_two_pow (by omega), Nat.testBit_lt_two_pow (by omega)]; rfl

/-- The inner alignment loop multiplies `g2` and `v2` by the power of `x` that brings `g2` to the degree of `g0`. -/
theorem alignTo_spec (g0 : W32) (j : Nat) : ∀ (f : Nat) (g2 v2 : W32), j < f → g2.toNat ≠ 0 → g2.toNat.log2 + j = g0.toNat.log2 →
    g0.toNat ≠ 0 → v2.toNat < 2 ^ (32 - j) → j ≤ 31 →
    ∃ g v, alignTo g0 f g2 v2 = .ok (g, v) ∧ poly g = X ^ j * poly g2 ∧ poly v = X ^ j * poly v2 := by
  induction j with
  | zero =>
    intro f g2 v2 hf hz hl h0 _ _
    obtain ⟨f, rfl⟩ : ∃ k, f = k + 1 := ⟨f - 1, by omega⟩
    have lt : g0.toNat ^^^ g2.toNat < 2 ^ g0.toNat.log2 := by
      apply xor_same_top (Nat.log2_self_le h0) Nat.lt_log2_self
      · rw [← hl, Nat.add_zero]; exact Nat.log2_self_le hz
      · rw [← hl, Nat.add_zero]; exact Nat.lt_log2_self
    have ge : 2 ^ g0.toNat.log2 ≤ g2.toNat := by rw [← hl, Nat.add_zero]; exact Nat.log2_self_le hz
    refine ⟨g2, v2, ?_, by rw [pow_zero, one_mul], by rw [pow_zero, one_mul]⟩
    rw [alignTo, if_neg]
    rw [BitVec.le_def, BitVec.toNat_xor]; omega
  | succ j ih =>
    intro f g2 v2 hf hz hl h0 hv hj
    obtain ⟨f, rfl⟩ : ∃ k, f = k + 1 := ⟨f - 1, by omega⟩
    have l31 := log2_le_31 h0 g0.isLt
    have lt2 : g2.toNat < 2 ^ (g2.toNat.log2 + 1) := Nat.lt_log2_self
    have lt3 : g2.toNat < 2 ^ g0.toNat.log2 := Nat.lt_of_lt_of_le lt2 (Nat.pow_le_pow_right (by decide) (by omega))
    have ge : 2 ^ g0.toNat.log2 ≤ g0.toNat ^^^ g2.toNat := xor_top lt3 (Nat.log2_self_le h0) Nat.lt_log2_self
    have sm : g2.toNat * 2 < 2 ^ 32 := by
      have : 2 ^ (g2.toNat.log2 + 1) * 2 ≤ 2 ^ 32 := by rw [← Nat.pow_succ]; exact Nat.pow_le_pow_right (by decide) (by omega)
      omega
    have sv : v2.toNat * 2 < 2 ^ (32 - j) := by
      have : 2 ^ (32 - j) = 2 ^ (32 - (j + 1)) * 2 := by rw [← Nat.pow_succ]; congr 1; omega
      omega
    have sv2 : v2.toNat * 2 < 2 ^ 32 := Nat.lt_of_lt_of_le sv (Nat.pow_le_pow_right (by decide) (by omega))
    have tg : (g2 <<< 1).toNat = g2.toNat * 2 := by rw [BitVec.toNat_shiftLeft, Nat.shiftLeft_eq, pow_one, Nat.mod_eq_of_lt sm]
    have tv : (v2 <<< 1).toNat = v2.toNat * 2 := by rw [BitVec.toNat_shiftLeft, Nat.shiftLeft_eq, pow_one, Nat.mod_eq_of_lt sv2]
    have lg : (g2.toNat * 2).log2 = g2.toNat.log2 + 1 := by
      apply log2_eq
      · rw [Nat.pow_succ]; have := Nat.log2_self_le hz; omega
      · rw [Nat.pow_succ]; omega
    obtain ⟨g, v, e, eg, ev⟩ := ih f (g2 <<< 1) (v2 <<< 1) (by omega) (by omega) (by rw [tg, lg]; omega) h0 (by omega) (by omega)
    refine ⟨g, v, ?_, ?_, ?_⟩
    · rw [alignTo, if_pos, e]
      rw [BitVec.le_def, BitVec.toNat_xor]; omega
    · rw [eg, poly_shl _ sm, pow_succ]; ring
    · rw [ev, poly_shl _ sv2, pow_succ]; ring

theorem alignTop_spec (a : W32) (j : Nat) : ∀ (f : Nat) (g2 v2 : W32), j < f → g2.toNat ≠ 0 → g2.toNat.log2 + j = 31 →
    v2.toNat < 2 ^ (32 - j) →
    ∃ g v, alignTop f g2 v2 = .ok (g, v) ∧ poly g = X ^ j * poly g2 ∧ poly v = X ^ j * poly v2 := by
  induction j with
  | zero =>
    intro f g2 v2 hf hz hl _
    obtain ⟨f, rfl⟩ : ∃ k, f = k + 1 := ⟨f - 1, by omega⟩
    refine ⟨g2, v2, ?_, by rw [pow_zero, one_mul], by rw [pow_zero, one_mul]⟩
    rw [alignTop, if_neg]
    rw [← ne_eq]
    apply (and_top g2).mpr
    have h := Nat.log2_self_le hz
    have : g2.toNat.log2 = 31 := by omega
    rw [this] at h
    exact testBit_top h g2.isLt
  | succ j ih =>
    intro f g2 v2 hf hz hl hv
    obtain ⟨f, rfl⟩ : ∃ k, f = k + 1 := ⟨f - 1, by omega⟩
    have lt2 : g2.toNat < 2 ^ (g2.toNat.log2 + 1) := Nat.lt_log2_self
    have lt3 : g2.toNat < 2 ^ 31 := Nat.lt_of_lt_of_le lt2 (Nat.pow_le_pow_right (by decide) (by omega))
    have sm : g2.toNat * 2 < 2 ^ 32 := by omega
    have sv : v2.toNat * 2 < 2 ^ (32 - j) := by
      have : 2 ^ (32 - j) = 2 ^ (32 - (j + 1)) * 2 := by rw [← Nat.pow_succ]; congr 1; omega
      omega
    have sv2 : v2.toNat * 2 < 2 ^ 32 := Nat.lt_of_lt_of_le sv (Nat.pow_le_pow_right (by decide) (by omega))
    have tg : (g2 <<< 1).toNat = g2.toNat * 2 := by rw [BitVec.toNat_shiftLeft, Nat.shiftLeft_eq, pow_one, Nat.mod_eq_of_lt sm]
    have tv : (v2 <<< 1).toNat = v2.toNat * 2 := by rw [BitVec.toNat_shiftLeft, Nat.shiftLeft_eq, pow_one, Nat.mod_eq_of_lt sv2]
    have lg : (g2.toNat * 2).log2 = g2.toNat.log2 + 1 := by
      apply log2_eq
      · rw [Nat.pow_succ]; have := Nat.log2_self_le hz; omega
      · rw [Nat.pow_succ]; omega
    obtain ⟨g, v, e, eg, ev⟩ := ih f (g2 <<< 1) (v2 <<< 1) (by omega) (by omega) (by rw [tg, lg]; omega) (by omega)
    refine ⟨g, v, ?_, ?_, ?_⟩
    · rw [alignTop, if_pos, e]
      by_contra h
      have := (and_top g2).mp h
      have h2 := Nat.testBit_lt_two_pow lt3
      rw [show g2.getLsbD 31 = g2.toNat.testBit 31 from rfl, h2] at this
      exact absurd this (by decide)
    · rw [eg, poly_shl _ sm, pow_succ]; ring
    · rw [ev, poly_shl _ sv2, pow_succ]; ring

/-- One reduction step when `g0` has at least the degree of `g1`. -/
theorem reduce_inv {M : Modulus} (hM : IsPrime M) (hd : M.d = 32) {a g0 g1 v0 v1 : P2} (h : EuInv M.p a g0 g1 v0 v1)
    (hdeg : g1.bits.log2 ≤ g0.bits.log2) :
    EuInv M.p a (g0 + X ^ (g0.bits.log2 - g1.bits.log2) * g1) g1 (v0 + X ^ (g0.bits.log2 - g1.bits.log2) * v1) v1 ∧
      (g0 + X ^ (g0.bits.log2 - g1.bits.log2) * g1).bits.log2 < g0.bits.log2 := by
  set j := g0.bits.log2 - g1.bits.log2 with hj
  have z1 : g1.bits ≠ 0 := by have := h.two; omega
  have t1 := log2_ge_one h.two
  have cr : (v0 + X ^ j * v1) * g1 + v1 * (g0 + X ^ j * g1) = M.p := by
    rw [← h.cross]
    have := P2.add_self (X ^ j * v1 * g1)
    linear_combination this
  have lt : (g0 + X ^ j * g1).bits < 2 ^ g0.bits.log2 := by
    rw [X_pow_mul]
    have e : 2 ^ g0.bits.log2 = 2 ^ j * 2 ^ g1.bits.log2 := by rw [← Nat.pow_add]; congr 1; omega
    have e' : 2 ^ (g0.bits.log2 + 1) = 2 ^ j * 2 ^ (g1.bits.log2 + 1) := by rw [← Nat.pow_add]; congr 1; omega
    apply xor_same_top (Nat.log2_self_le h.nz) Nat.lt_log2_self
    · rw [e]; exact Nat.mul_le_mul_left _ (Nat.log2_self_le z1)
    · rw [e']; exact Nat.mul_lt_mul_of_pos_left Nat.lt_log2_self (Nat.two_pow_pos _)
  have bv : (X ^ j * v1).bits < 2 ^ (33 - g1.bits.log2) := by
    rw [X_pow_mul]
    have l0 := log2_le_31 h.nz h.l0
    have e : 2 ^ (33 - g1.bits.log2) = 2 ^ j * 2 ^ (33 - g0.bits.log2) := by rw [← Nat.pow_add]; congr 1; omega
    rw [e]; exact Nat.mul_lt_mul_of_pos_left h.b1 (Nat.two_pow_pos _)
  have b0 : (v0 + X ^ j * v1).bits < 2 ^ (33 - g1.bits.log2) := Nat.xor_lt_two_pow h.b0 bv
  have nz : (g0 + X ^ j * g1).bits ≠ 0 := by
    intro h0
    have h0' : g0 + X ^ j * g1 = 0 := by ext; exact h0
    rw [h0', mul_zero, add_zero] at cr
    have lv : (v0 + X ^ j * v1).bits < 2 ^ M.d := by
      rw [hd]; exact Nat.lt_of_lt_of_le b0 (Nat.pow_le_pow_right (by decide) (by omega))
    have hp0 : M.p ≠ 0 := by
      intro e; have := M.lower; rw [e] at this; have := Nat.two_pow_pos M.d; simp at *
    rcases hM _ _ lv (by rw [hd]; exact h.l1) ⟨1, by rw [one_mul]; exact cr⟩ with e | e
    · rw [e, zero_mul] at cr; exact hp0 cr.symm
    · rw [e] at z1; exact z1 rfl
  have lg : (g0 + X ^ j * g1).bits.log2 < g0.bits.log2 := (Nat.log2_lt nz).mpr lt
  refine ⟨⟨cr, ?_, h.r1, ?_, b0, ?_, h.l1, h.two, nz⟩, lg⟩
  · obtain ⟨q0, e0⟩ := h.r0
    obtain ⟨q1, e1⟩ := h.r1
    exact ⟨q0 + X ^ j * q1, by linear_combination e0 + X ^ j * e1⟩
  · exact Nat.lt_of_lt_of_le h.b1 (Nat.pow_le_pow_right (by decide) (by omega))
  · have l0 := log2_le_31 h.nz h.l0
    exact Nat.lt_of_lt_of_le lt (Nat.pow_le_pow_right (by decide) (by omega))

/-- The state of the loop satisfies the invariant. -/
def Eu.Inv (P a : P2) (s : Eu) : Prop := EuInv P a (poly s.g0) (poly s.g1) (poly s.v0) (poly s.v1)

theorem align_step {M : Modulus} (hM : IsPrime M) (hd : M.d = 32) {a : P2} {s : Eu} (h : s.Inv M.p a) (fuel : Nat) (hf : 32 ≤ fuel)
    (hdeg : s.g1.toNat.log2 ≤ s.g0.toNat.log2) :
    ∃ g v, alignTo s.g0 fuel s.g1 s.v1 = .ok (g, v) ∧ Eu.Inv M.p a { s with g0 := s.g0 ^^^ g, v0 := s.v0 ^^^ v } ∧
      (s.g0 ^^^ g).toNat.log2 < s.g0.toNat.log2 := by
  have hh : EuInv M.p a (poly s.g0) (poly s.g1) (poly s.v0) (poly s.v1) := h
  have l0 : s.g0.toNat.log2 ≤ 31 := log2_le_31 hh.nz hh.l0
  have t1 : 1 ≤ s.g1.toNat.log2 := log2_ge_one hh.two
  have hb1 : s.v1.toNat < 2 ^ (33 - s.g0.toNat.log2) := hh.b1
  obtain ⟨g, v, e, eg, ev⟩ := alignTo_spec s.g0 (s.g0.toNat.log2 - s.g1.toNat.log2) fuel s.g1 s.v1 (by omega)
    (by have : 2 ≤ s.g1.toNat := hh.two
        omega) (by omega) hh.nz
    (Nat.lt_of_lt_of_le hb1 (Nat.pow_le_pow_right (by decide) (by omega))) (by omega)
  obtain ⟨i, l⟩ := reduce_inv hM hd hh hdeg
  have e1 : (poly s.g0).bits = s.g0.toNat := rfl
  have e2 : (poly s.g1).bits = s.g1.toNat := rfl
  rw [e1, e2, ← eg, ← ev, ← poly_xor, ← poly_xor] at i
  rw [e1, e2, ← eg, ← poly_xor] at l
  exact ⟨g, v, e, i, l⟩

theorem step_spec {M : Modulus} (hM : IsPrime M) (hd : M.d = 32) {a : P2} {s : Eu} (h : s.Inv M.p a) (fuel : Nat) (hf : 32 ≤ fuel)
    (h1 : s.g0 ≠ 1#32) :
    ∃ s', euStep fuel s = .ok s' ∧ s'.Inv M.p a ∧ s'.g0.toNat.log2 + s'.g1.toNat.log2 < s.g0.toNat.log2 + s.g1.toNat.log2 := by
  have hh : EuInv M.p a (poly s.g0) (poly s.g1) (poly s.v0) (poly s.v1) := h
  have n0 : s.g0.toNat ≠ 0 := hh.nz
  have n1 : 2 ≤ s.g1.toNat := hh.two
  have g02 : 2 ≤ s.g0.toNat := by
    have : s.g0.toNat ≠ 1 := fun e => h1 (BitVec.eq_of_toNat_eq e)
    omega
  unfold euStep
  split
  · rename_i hc
    rw [BitVec.lt_def, BitVec.lt_def, BitVec.lt_def, BitVec.toNat_xor] at hc
    have hdeg : s.g1.toNat.log2 ≤ s.g0.toNat.log2 := by
      by_contra hgt
      have l1 : s.g0.toNat < 2 ^ s.g1.toNat.log2 := Nat.lt_of_lt_of_le Nat.lt_log2_self (Nat.pow_le_pow_right (by decide) (by omega))
      have l2 : 2 ^ s.g1.toNat.log2 ≤ s.g1.toNat := Nat.log2_self_le (by omega)
      have l3 := xor_top l1 l2 Nat.lt_log2_self
      rw [Nat.xor_comm] at l3
      omega
    obtain ⟨g, v, e, i, l⟩ := align_step hM hd h fuel hf hdeg
    simp only [e]
    exact ⟨_, rfl, i, by simp only; omega⟩
  · rename_i hc
    rw [BitVec.lt_def, BitVec.lt_def, BitVec.lt_def, BitVec.toNat_xor] at hc
    have hdeg : s.g0.toNat.log2 ≤ s.g1.toNat.log2 := by
      by_contra hgt
      have l1 : s.g1.toNat < 2 ^ s.g0.toNat.log2 := Nat.lt_of_lt_of_le Nat.lt_log2_self (Nat.pow_le_pow_right (by decide) (by omega))
      have l2 : 2 ^ s.g0.toNat.log2 ≤ s.g0.toNat := Nat.log2_self_le n0
      omega
    obtain ⟨g, v, e, i, l⟩ := align_step hM hd (s := ⟨s.g1, s.g0, s.v1, s.v0⟩) (hh.swap g02) fuel hf hdeg
    simp only at e l ⊢
    simp only [e]
    exact ⟨_, rfl, i, by simp only; omega⟩

theorem euLoop_spec {M : Modulus} (hM : IsPrime M) (hd : M.d = 32) {a : P2} (fuel : Nat) (hf : 32 ≤ fuel) (n : Nat) :
    ∀ (f : Nat) (s : Eu), s.Inv M.p a → s.g0.toNat.log2 + s.g1.toNat.log2 ≤ n → n < f →
      ∃ r, euLoop fuel f s = .ok r ∧ ∃ q, poly r * a = q * M.p + 1 := by
  induction n with
  | zero =>
    intro f s h hm _
    have : 1 ≤ s.g1.toNat.log2 := log2_ge_one (EuInv.two h)
    omega
  | succ n ih =>
    intro f s h hm hf2
    obtain ⟨f, rfl⟩ : ∃ k, f = k + 1 := ⟨f - 1, by omega⟩
    by_cases h1 : s.g0 = 1#32
    · refine ⟨s.v0, by rw [euLoop, if_pos h1], ?_⟩
      obtain ⟨q, e⟩ := EuInv.r0 h
      exact ⟨q, by rw [e, h1]; rfl⟩
    · obtain ⟨s', e, i, l⟩ := step_spec hM hd h fuel hf h1
      obtain ⟨r, er, hr⟩ := ih f s' i (by omega) (by omega)
      exact ⟨r, by rw [euLoop, if_neg h1, e]; exact er, hr⟩

theorem inv32_spec (m : W32) (hM : IsPrime (M32 m)) (fuel : Nat) (hf : 64 ≤ fuel) (a : W32) (ha : a ≠ 0) :
    ∃ r, inv32 fuel m a = .ok r ∧ pmod (M32 m) (poly r * poly a) = 1 := by
  have one_rem : ∀ r : W32, (∃ q, poly r * poly a = q * (M32 m).p + 1) → pmod (M32 m) (poly r * poly a) = 1 := by
    rintro r ⟨q, e⟩
    exact pmod_eq _ ⟨by show 1 < 2 ^ 32; decide, q, e⟩
  have hz : a.toNat ≠ 0 := fun h => ha (BitVec.eq_of_toNat_eq h)
  unfold inv32
  by_cases h1 : a ≤ 1#32
  · rw [if_pos h1]
    rw [BitVec.le_def] at h1
    have : a.toNat = 1 := by simp at h1; omega
    have : a = 1#32 := BitVec.eq_of_toNat_eq this
    subst this
    exact ⟨_, rfl, one_rem _ ⟨0, by rw [zero_mul, zero_add]; exact mul_one 1⟩⟩
  · rw [if_neg h1]
    rw [BitVec.le_def] at h1
    have h2 : 2 ≤ a.toNat := by simp at h1; omega
    have t1 := log2_ge_one h2
    have t31 := log2_le_31 hz a.isLt
    obtain ⟨g, v, e, eg, ev⟩ := alignTop_spec a (31 - a.toNat.log2) fuel a 1#32 (by omega) hz (by omega)
      (Nat.one_lt_two_pow (by omega))
    rw [e]
    simp only
    set k := 31 - a.toNat.log2 with hk
    have hv : poly v = X ^ k := by rw [ev]; exact mul_one _
    have vt : v.toNat = 2 ^ k := by have := congrArg P2.bits hv; rw [X_pow] at this; exact this
    have sv : v.toNat * 2 < 2 ^ 32 := by rw [vt, ← Nat.pow_succ]; exact Nat.pow_lt_pow_right (by decide) (by omega)
    have gt : g.toNat = 2 ^ k * a.toNat := by have := congrArg P2.bits eg; rw [X_pow_mul] at this; exact this
    have glt : 2 ^ 31 ≤ g.toNat := by
      rw [gt]
      calc 2 ^ 31 = 2 ^ k * 2 ^ a.toNat.log2 := by rw [← Nat.pow_add]; congr 1; omega
        _ ≤ _ := Nat.mul_le_mul_left _ (Nat.log2_self_le hz)
    have pv : poly (v <<< 1) = X ^ (k + 1) := by rw [poly_shl v sv, hv, pow_succ]; ring
    have pg : poly (g <<< 1) = X * poly g + X ^ 32 := by
      rw [X_mul, X_pow]; ext
      show (g <<< 1).toNat = 2 * g.toNat ^^^ 2 ^ 32
      have e2 : 2 * g.toNat = 2 ^ 32 + (2 * g.toNat - 2 ^ 32) := by omega
      rw [BitVec.toNat_shiftLeft, Nat.shiftLeft_eq, pow_one, e2, ← two_pow_xor (by have := g.isLt; omega), Nat.xor_comm, xor_cancel]
      have := g.isLt
      omega
    have pg0 : poly (m ^^^ (g <<< 1)) = (M32 m).p + X ^ (k + 1) * poly a := by
      rw [poly_xor, pg, eg]
      show _ = X ^ 32 + poly m + _
      rw [pow_succ]; ring
    have pv0 : poly (0#32 ^^^ (v <<< 1)) = X ^ (k + 1) := by rw [poly_xor, pv]; exact zero_add _
    have nz : (m ^^^ (g <<< 1)).toNat ≠ 0 := by
      intro h0
      have h0' : poly (m ^^^ (g <<< 1)) = 0 := by ext; exact h0
      rw [h0'] at pg0
      have hp0 : X ^ (k + 1) * poly a = (M32 m).p := by
        have := P2.add_self (X ^ (k + 1) * poly a)
        linear_combination pg0 + this
      rcases hM (X ^ (k + 1)) (poly a) (by rw [X_pow]; exact Nat.pow_lt_pow_right (by decide) (show k + 1 < 32 by omega)) (poly_lt a)
        ⟨1, by rw [one_mul]; exact hp0⟩ with e | e
      · rw [X_pow] at e; have := congrArg P2.bits e; have p2 := Nat.two_pow_pos (k + 1); simp at this
      · exact hz (congrArg P2.bits e)
    obtain ⟨r, er, hr⟩ := euLoop_spec hM rfl fuel (by omega) 62 fuel ⟨m ^^^ (g <<< 1), a, 0#32 ^^^ (v <<< 1), 1#32⟩
      (a := poly a)
      { cross := by
          simp only [pg0, pv0]
          have h1 : poly (1#32) = 1 := rfl
          rw [h1]
          have := P2.add_self (X ^ (k + 1) * poly a)
          linear_combination this
        r0 := ⟨1, by
          simp only [pg0, pv0]
          have := P2.add_self (M32 m).p
          linear_combination -this⟩
        r1 := ⟨0, by
          have h1 : poly (1#32) = 1 := rfl
          simp only [h1]; ring⟩
        b1 := by
          have l0 : (m ^^^ (g <<< 1)).toNat.log2 ≤ 31 := log2_le_31 nz (BitVec.isLt _)
          show 1 < 2 ^ (33 - (m ^^^ (g <<< 1)).toNat.log2)
          exact Nat.one_lt_two_pow (by omega)
        b0 := by
          simp only [pv0]
          rw [X_pow]
          show 2 ^ (k + 1) < 2 ^ (33 - a.toNat.log2)
          exact Nat.pow_lt_pow_right (by decide) (by omega)
        l0 := poly_lt _
        l1 := poly_lt _
        two := h2
        nz := nz }
      (by
        have l0 : (m ^^^ (g <<< 1)).toNat.log2 ≤ 31 := log2_le_31 nz (BitVec.isLt _)
        simp only; omega) (by omega)
    exact ⟨r, er, one_rem r hr⟩

end Verif.Gf
