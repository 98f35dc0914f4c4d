import Verif.Poly1305.Model
import Verif.Poly1305.Spec
import Mathlib.Tactic.Ring

namespace Verif.Poly1305

theorem carry_eq (a b : Nat) (ha : a < 4294967296) (hb : b < 4294967296) : carry a b = if a < b then 1 else 0 := by
  unfold carry
  simp only
  generalize hx : BitVec.ofNat 32 a ^^^ ((BitVec.ofNat 32 a ^^^ BitVec.ofNat 32 b) ||| ((BitVec.ofNat 32 a - BitVec.ofNat 32 b) ^^^ BitVec.ofNat 32 b)) = x
  have h1 : (x >>> 31).toNat = x.msb.toNat := by
    rw [BitVec.toNat_ushiftRight, Nat.shiftRight_eq_div_pow, BitVec.msb_eq_decide]
    have := x.isLt
    by_cases h : 2 ^ 31 ≤ x.toNat
    · rw [decide_eq_true h]; simp only [Bool.toNat_true]; omega
    · rw [decide_eq_false h]; simp only [Bool.toNat_false]; omega
  rw [h1, ← hx, BitVec.msb_xor, BitVec.msb_or, BitVec.msb_xor, BitVec.msb_xor, BitVec.msb_eq_decide, BitVec.msb_eq_decide, BitVec.msb_eq_decide, BitVec.toNat_sub]
  simp only [BitVec.toNat_ofNat, Nat.mod_eq_of_lt ha, Nat.mod_eq_of_lt hb]
  by_cases hA : 2147483648 ≤ a <;> by_cases hB : 2147483648 ≤ b <;> by_cases hD : 2147483648 ≤ (4294967296 - b + a) % 4294967296 <;> by_cases hL : a < b <;>
    simp [hA, hB, hD, hL] <;> omega

theorem and_high (x : Nat) (h : x < 4294967296) : x &&& 4294967292 = 4 * (x / 4) := by
  have e : 4294967292 = 2 ^ 2 * (2 ^ 30 - 1) := by decide
  have e' : 4 * (x / 4) = 2 ^ 2 * (x / 2 ^ 2) := by rfl
  rw [e, e']
  apply Nat.eq_of_testBit_eq
  intro i
  rw [Nat.testBit_and, Nat.testBit_two_pow_mul, Nat.testBit_two_pow_mul, Nat.testBit_two_pow_sub_one, Nat.testBit_div_two_pow]
  by_cases hi : i ≥ 2
  · rw [show i - 2 + 2 = i by omega]
    by_cases h2 : i < 32
    · simp [hi, show i - 2 < 30 by omega]
    · have : x.testBit i = false := Nat.testBit_lt_two_pow (Nat.lt_of_lt_of_le h (by rw [show (4294967296 : Nat) = 2 ^ 32 by rfl]; exact Nat.pow_le_pow_right (by omega) (by omega)))
      simp [this]
  · simp [hi]

theorem and_low (x : Nat) : x &&& 3 = x % 4 := Nat.and_two_pow_sub_one_eq_mod x 2

/-- The number an accumulator holds. -/
def Acc.val (h : Acc) : Nat := h.h0 + 4294967296 * h.h1 + 18446744073709551616 * h.h2 + 79228162514264337593543950336 * h.h3 + 340282366920938463463374607431768211456 * h.h4
/-- The number four words hold. -/
def Quad.val (h : Quad) : Nat := h.w0 + 4294967296 * h.w1 + 18446744073709551616 * h.w2 + 79228162514264337593543950336 * h.w3

/-- Words in range, and less than 5 * 2^128. -/
structure Acc.Ok (h : Acc) : Prop where
  h0 : h.h0 < 4294967296
  h1 : h.h1 < 4294967296
  h2 : h.h2 < 4294967296
  h3 : h.h3 < 4294967296
  h4 : h.h4 ≤ 4

/-- `r` is clamped. -/
structure Quad.Clamped (r : Quad) : Prop where
  w0 : r.w0 < 268435456
  w1 : r.w1 < 268435456 ∧ r.w1 % 4 = 0
  w2 : r.w2 < 268435456 ∧ r.w2 % 4 = 0
  w3 : r.w3 < 268435456 ∧ r.w3 % 4 = 0

theorem word_lt (b : List Byte) (i : Nat) : word b i < 4294967296 := by
  have := leVal_lt ((b.drop i).take 4)
  have h : 256 ^ ((b.drop i).take 4).length ≤ 256 ^ 4 := Nat.pow_le_pow_right (by omega) (by simp)
  unfold word
  omega

theorem quad_val (b : List Byte) (h : 16 ≤ b.length) : (quad b).val = leVal (b.take 16) := by
  have e : b.take 16 = (b.drop 0).take 4 ++ ((b.drop 4).take 4 ++ ((b.drop 8).take 4 ++ (b.drop 12).take 4)) := by
    rw [show (16 : Nat) = 4 + (4 + (4 + 4)) by rfl, List.take_add, List.take_add, List.take_add]
    simp only [List.drop_drop, List.drop_zero]
  rw [e, leVal_append, leVal_append, leVal_append]
  simp only [List.length_take, List.length_drop, quad, Quad.val, word]
  rw [show min 4 (b.length - 0) = 4 by omega, show min 4 (b.length - 4) = 4 by omega, show min 4 (b.length - 8) = 4 by omega]
  omega

/-- The first part: the block is added. -/
theorem add_block (a0 a1 a2 a3 a4 m0 m1 m2 m3 pb : Nat) (h0 : a0 < 4294967296) (h1 : a1 < 4294967296) (h2 : a2 < 4294967296) (h3 : a3 < 4294967296) (h4 : a4 ≤ 4)
    (k0 : m0 < 4294967296) (k1 : m1 < 4294967296) (k2 : m2 < 4294967296) (k3 : m3 < 4294967296) (hp : pb ≤ 1) :
    ∃ b0 b1 b2 b3 b4, b0 < 4294967296 ∧ b1 < 4294967296 ∧ b2 < 4294967296 ∧ b3 < 4294967296 ∧ b4 ≤ 6 ∧
      b0 + 4294967296 * b1 + 18446744073709551616 * b2 + 79228162514264337593543950336 * b3 + 340282366920938463463374607431768211456 * b4 =
        a0 + 4294967296 * a1 + 18446744073709551616 * a2 + 79228162514264337593543950336 * a3 + 340282366920938463463374607431768211456 * a4 +
        (m0 + 4294967296 * m1 + 18446744073709551616 * m2 + 79228162514264337593543950336 * m3 + 340282366920938463463374607431768211456 * pb) ∧
      (let d0 := w64 (a0 + m0)
       let d1 := w64 (a1 + d0 / 4294967296 + m1)
       let d2 := w64 (a2 + d1 / 4294967296 + m2)
       let d3 := w64 (a3 + d2 / 4294967296 + m3)
       w32 d0 = b0 ∧ w32 d1 = b1 ∧ w32 d2 = b2 ∧ w32 d3 = b3 ∧ w32 (a4 + (w32 (d3 / 4294967296) + pb)) = b4) := by
  refine ⟨_, _, _, _, _, ?_, ?_, ?_, ?_, ?_, ?_, rfl, rfl, rfl, rfl, rfl⟩ <;> simp only [w32, w64] <;> omega

/-- The last part: carries, and `2^130` replaced by 5. -/
theorem reduce (d0 d1 d2 d3 e : Nat) (h0 : d0 < 2 ^ 63) (h1 : d1 < 2 ^ 63) (h2 : d2 < 2 ^ 63) (h3 : d3 < 2 ^ 62 + 2 ^ 32) (he : e ≤ 6 * 268435456) :
    ∃ b0 b1 b2 b3 b4 q, b0 < 4294967296 ∧ b1 < 4294967296 ∧ b2 < 4294967296 ∧ b3 < 4294967296 ∧ b4 ≤ 4 ∧
      b0 + 4294967296 * b1 + 18446744073709551616 * b2 + 79228162514264337593543950336 * b3 + 340282366920938463463374607431768211456 * b4 + (2 ^ 130 - 5) * q =
        d0 + 4294967296 * d1 + 18446744073709551616 * d2 + 79228162514264337593543950336 * d3 + 340282366920938463463374607431768211456 * e ∧
      (let h4 := w32 e
       let h0 := w32 d0
       let d1 := w64 (d1 + d0 / 4294967296)
       let h1 := w32 d1
       let d2 := w64 (d2 + d1 / 4294967296)
       let h2 := w32 d2
       let d3 := w64 (d3 + d2 / 4294967296)
       let h3 := w32 d3
       let h4 := w32 (h4 + w32 (d3 / 4294967296))
       let c := w32 (h4 / 4 + (h4 &&& 4294967292))
       let h4 := h4 &&& 3
       let h0 := w32 (h0 + c)
       let c := carry h0 c
       let h1 := w32 (h1 + c)
       let c := carry h1 c
       let h2 := w32 (h2 + c)
       let c := carry h2 c
       let h3 := w32 (h3 + c)
       let h4 := w32 (h4 + carry h3 c)
       h0 = b0 ∧ h1 = b1 ∧ h2 = b2 ∧ h3 = b3 ∧ h4 = b4) := by
  simp only
  obtain ⟨x0, hx0⟩ : ∃ x, x = w32 d0 := ⟨_, rfl⟩
  obtain ⟨y1, hy1⟩ : ∃ x, x = w64 (d1 + d0 / 4294967296) := ⟨_, rfl⟩
  obtain ⟨y2, hy2⟩ : ∃ x, x = w64 (d2 + y1 / 4294967296) := ⟨_, rfl⟩
  obtain ⟨y3, hy3⟩ : ∃ x, x = w64 (d3 + y2 / 4294967296) := ⟨_, rfl⟩
  obtain ⟨x4, hx4⟩ : ∃ x, x = w32 (w32 e + w32 (y3 / 4294967296)) := ⟨_, rfl⟩
  rw [← hy1, ← hy2, ← hy3, ← hx4, and_high x4 (by rw [hx4]; unfold w32; omega), and_low]
  simp only [w32, w64] at hx0 hy1 hy2 hy3 hx4
  have b4 : x4 = e + y3 / 4294967296 := by omega
  have b4' : x4 < 5 * 536870912 + 8 := by omega
  obtain ⟨c, hc⟩ : ∃ c, c = w32 (x4 / 4 + 4 * (x4 / 4)) := ⟨_, rfl⟩
  rw [← hc]
  have hc' : c = 5 * (x4 / 4) := by rw [hc]; unfold w32; omega
  have hcl : c < 4294967296 := by omega
  have step : ∀ x c : Nat, x < 4294967296 → c < 4294967296 → w32 (x + c) < 4294967296 ∧ carry (w32 (x + c)) c ≤ 1 ∧ w32 (x + c) + 4294967296 * carry (w32 (x + c)) c = x + c := by
    intro x c hx hc
    have hl : w32 (x + c) < 4294967296 := by unfold w32; omega
    rw [carry_eq _ _ hl hc]
    unfold w32
    split <;> omega
  obtain ⟨l0, n0, s0⟩ := step (w32 d0) c (by unfold w32; omega) hcl
  generalize hz0 : w32 (w32 d0 + c) = z0 at *
  generalize hc0 : carry z0 c = c0 at *
  obtain ⟨l1, n1, s1⟩ := step (w32 y1) c0 (by unfold w32; omega) (by omega)
  generalize hz1 : w32 (w32 y1 + c0) = z1 at *
  generalize hc1 : carry z1 c0 = c1 at *
  obtain ⟨l2, n2, s2⟩ := step (w32 y2) c1 (by unfold w32; omega) (by omega)
  generalize hz2 : w32 (w32 y2 + c1) = z2 at *
  generalize hc2 : carry z2 c1 = c2 at *
  obtain ⟨l3, n3, s3⟩ := step (w32 y3) c2 (by unfold w32; omega) (by omega)
  generalize hz3 : w32 (w32 y3 + c2) = z3 at *
  generalize hc3 : carry z3 c2 = c3 at *
  clear hz0 hc0 hz1 hc1 hz2 hc2 hz3 hc3 step hc
  simp only [w32] at s0 s1 s2 s3
  have hs4 : x4 % 4 + c3 ≤ 4 := by have := Nat.mod_lt x4 (show 0 < 4 by omega); omega
  have hw : w32 (x4 % 4 + c3) = x4 % 4 + c3 := Nat.mod_eq_of_lt (by omega)
  rw [hw]
  refine ⟨z0, z1, z2, z3, x4 % 4 + c3, x4 / 4, l0, l1, l2, l3, hs4, ?_, rfl, rfl, rfl, rfl, rfl⟩
  omega

theorem mul_bound {a b A B : Nat} (h1 : a ≤ A) (h2 : b ≤ B) : a * b ≤ A * B := Nat.mul_le_mul h1 h2

/-- One block: the sum with the block, times `r`, modulo `2^130 - 5`. -/
theorem hashBlock_spec (h : Acc) (r : Quad) (b : List Byte) (pb : Nat) (hh : h.Ok) (hr : r.Clamped) (hb : b.length = 16) (hp : pb ≤ 1) :
    (hashBlock h r b pb).Ok ∧ (hashBlock h r b pb).val % Spec.p = (h.val + (leVal b + 340282366920938463463374607431768211456 * pb)) * r.val % Spec.p := by
  have hq := quad_val b (by omega)
  rw [List.take_of_length_le (by omega)] at hq
  obtain ⟨b0, b1, b2, b3, b4, k0, k1, k2, k3, k4, hsum, e0, e1, e2, e3, e4⟩ := add_block h.h0 h.h1 h.h2 h.h3 h.h4 (word b 0) (word b 4) (word b 8) (word b 12) pb
    hh.h0 hh.h1 hh.h2 hh.h3 hh.h4 (word_lt _ _) (word_lt _ _) (word_lt _ _) (word_lt _ _) hp
  obtain ⟨q1, hq1⟩ : ∃ q, r.w1 = 4 * q := ⟨r.w1 / 4, by have := hr.w1; omega⟩
  obtain ⟨q2, hq2⟩ : ∃ q, r.w2 = 4 * q := ⟨r.w2 / 4, by have := hr.w2; omega⟩
  obtain ⟨q3, hq3⟩ : ∃ q, r.w3 = 4 * q := ⟨r.w3 / 4, by have := hr.w3; omega⟩
  have hr0 := hr.w0
  have l1 : q1 ≤ 67108863 := by have := hr.w1; omega
  have l2 : q2 ≤ 67108863 := by have := hr.w2; omega
  have l3 : q3 ≤ 67108863 := by have := hr.w3; omega
  have t1 : w32 (r.w1 + r.w1 / 4) = 5 * q1 := by unfold w32; omega
  have t2 : w32 (r.w2 + r.w2 / 4) = 5 * q2 := by unfold w32; omega
  have t3 : w32 (r.w3 + r.w3 / 4) = 5 * q3 := by unfold w32; omega
  have B : ∀ {x y Y : Nat}, x < 4294967296 → y ≤ Y → x * y ≤ 4294967295 * Y := fun hx hy => Nat.mul_le_mul (by omega) hy
  have B4 : ∀ {y Y : Nat}, y ≤ Y → b4 * y ≤ 6 * Y := fun hy => Nat.mul_le_mul k4 hy
  obtain ⟨D0, hD0⟩ : ∃ x, x = b0 * r.w0 + b1 * (5 * q3) + b2 * (5 * q2) + b3 * (5 * q1) := ⟨_, rfl⟩
  obtain ⟨D1, hD1⟩ : ∃ x, x = b0 * r.w1 + b1 * r.w0 + b2 * (5 * q3) + b3 * (5 * q2) + b4 * (5 * q1) := ⟨_, rfl⟩
  obtain ⟨D2, hD2⟩ : ∃ x, x = b0 * r.w2 + b1 * r.w1 + b2 * r.w0 + b3 * (5 * q3) + b4 * (5 * q2) := ⟨_, rfl⟩
  obtain ⟨D3, hD3⟩ : ∃ x, x = b0 * r.w3 + b1 * r.w2 + b2 * r.w1 + b3 * r.w0 + b4 * (5 * q3) := ⟨_, rfl⟩
  have u0 := B4 (show r.w0 ≤ 268435455 by omega)
  have u1 := B4 (show 5 * q1 ≤ 335544315 by omega)
  have u2 := B4 (show 5 * q2 ≤ 335544315 by omega)
  have u3 := B4 (show 5 * q3 ≤ 335544315 by omega)
  have g0 : D0 < 2 ^ 63 := by
    have := B k0 (show r.w0 ≤ 268435455 by omega); have := B k1 (show 5 * q3 ≤ 335544315 by omega); have := B k2 (show 5 * q2 ≤ 335544315 by omega); have := B k3 (show 5 * q1 ≤ 335544315 by omega)
    omega
  have g1 : D1 < 2 ^ 63 := by
    have := B k0 (show r.w1 ≤ 268435455 by omega); have := B k1 (show r.w0 ≤ 268435455 by omega); have := B k2 (show 5 * q3 ≤ 335544315 by omega); have := B k3 (show 5 * q2 ≤ 335544315 by omega)
    omega
  have g2 : D2 < 2 ^ 63 := by
    have := B k0 (show r.w2 ≤ 268435455 by omega); have := B k1 (show r.w1 ≤ 268435455 by omega); have := B k2 (show r.w0 ≤ 268435455 by omega); have := B k3 (show 5 * q3 ≤ 335544315 by omega)
    omega
  have g3 : D3 < 2 ^ 62 + 2 ^ 32 := by
    have := B k0 (show r.w3 ≤ 268435455 by omega); have := B k1 (show r.w2 ≤ 268435455 by omega); have := B k2 (show r.w1 ≤ 268435455 by omega); have := B k3 (show r.w0 ≤ 268435455 by omega)
    omega
  have f0 : w64 D0 = D0 := by unfold w64; omega
  have f1 : w64 D1 = D1 := by unfold w64; omega
  have f2 : w64 D2 = D2 := by unfold w64; omega
  have f3 : w64 D3 = D3 := by unfold w64; omega
  have v1 : w32 (b4 * (5 * q1)) = b4 * (5 * q1) := by unfold w32; omega
  have v2 : w32 (b4 * (5 * q2)) = b4 * (5 * q2) := by unfold w32; omega
  have v3 : w32 (b4 * (5 * q3)) = b4 * (5 * q3) := by unfold w32; omega
  obtain ⟨c0, c1, c2, c3, c4, q, j0, j1, j2, j3, j4, hred, i0, i1, i2, i3, i4⟩ := reduce D0 D1 D2 D3 (b4 * r.w0) g0 g1 g2 g3 (by omega)
  have main : hashBlock h r b pb = ⟨c0, c1, c2, c3, c4⟩ := by
    unfold hashBlock
    simp only
    rw [t1, t2, t3, e0, e1, e2, e3, e4, v1, v2, v3, ← hD0, ← hD1, ← hD2, ← hD3, f0, f1, f2, f3]
    rw [Acc.mk.injEq]
    exact ⟨i0, i1, i2, i3, i4⟩
  rw [main]
  refine ⟨⟨j0, j1, j2, j3, j4⟩, ?_⟩
  have hS : h.val + (leVal b + 340282366920938463463374607431768211456 * pb) = b0 + 4294967296 * b1 + 18446744073709551616 * b2 + 79228162514264337593543950336 * b3 + 340282366920938463463374607431768211456 * b4 := by
    rw [hsum, ← hq]; rfl
  rw [hS]
  have hK : (b0 + 4294967296 * b1 + 18446744073709551616 * b2 + 79228162514264337593543950336 * b3 + 340282366920938463463374607431768211456 * b4) * r.val =
      (D0 + 4294967296 * D1 + 18446744073709551616 * D2 + 79228162514264337593543950336 * D3 + 340282366920938463463374607431768211456 * (b4 * r.w0)) + Spec.p *
        (b1 * q3 + b2 * q2 + b3 * q1 + 4294967296 * (b2 * q3 + b3 * q2 + b4 * q1) + 18446744073709551616 * (b3 * q3 + b4 * q2) + 79228162514264337593543950336 * (b4 * q3)) := by
    rw [show Spec.p = 1361129467683753853853498429727072845819 by decide, hD0, hD1, hD2, hD3]
    unfold Quad.val
    rw [hq1, hq2, hq3]
    ring
  rw [hK, ← hred, Nat.add_mul_mod_self_left]
  show _ = (_ + Spec.p * q) % Spec.p
  rw [Nat.add_mul_mod_self_left]; rfl

theorem hashBlocks_spec (r : Quad) (hr : r.Clamped) : ∀ (n : Nat) (h : Acc) (x : List Byte) (a : Nat), h.Ok → 16 * n ≤ x.length → h.val % Spec.p = a % Spec.p →
    (hashBlocks r 1 n h x).Ok ∧ (hashBlocks r 1 n h x).val % Spec.p = Spec.accumulate r.val a (chunks 16 (x.take (16 * n))) % Spec.p := by
  intro n
  induction n with
  | zero => intro h x a hh _ e; exact ⟨hh, by simpa [hashBlocks, Spec.accumulate] using e⟩
  | succ n ih =>
    intro h x a hh hx e
    obtain ⟨h1, h2⟩ := hashBlock_spec h r (x.take 16) 1 hh hr (by simp; omega) (by omega)
    have hv : leVal (x.take 16 ++ [1]) = leVal (x.take 16) + 340282366920938463463374607431768211456 * 1 := by
      rw [leVal_append, show (x.take 16).length = 16 by simp; omega]; rfl
    obtain ⟨h3, h4⟩ := ih (hashBlock h r (x.take 16) 1) (x.drop 16) ((a + leVal (x.take 16 ++ [1])) * r.val % Spec.p) h1 (by simp; omega) (by
      rw [h2, Nat.mod_mod, hv, Nat.mul_mod, Nat.add_mod, e, ← Nat.add_mod, ← Nat.mul_mod])
    refine ⟨h3, ?_⟩
    show (hashBlocks r 1 n (hashBlock h r (x.take 16) 1) (x.drop 16)).val % Spec.p = _
    rw [h4, show 16 * (n + 1) = 16 + 16 * n by omega, List.take_add, chunks_append_block 16 (by omega) _ _ (by simp; omega)]
    rfl

theorem accumulate_append (r : Nat) (xs ys : List (List Byte)) : ∀ a, Spec.accumulate r a (xs ++ ys) = Spec.accumulate r (Spec.accumulate r a xs) ys := by
  induction xs with
  | nil => intro a; rfl
  | cons x xs ih => intro a; exact ih _

theorem mask_full (x : Nat) (h : x < 4294967296) : x &&& 4294967295 = x := by
  have := Nat.and_two_pow_sub_one_eq_mod x 32
  rw [show (2 : Nat) ^ 32 - 1 = 4294967295 by decide] at this
  rw [this]; exact Nat.mod_eq_of_lt h

theorem leBytes_quad (a b c d : Nat) (ha : a < 4294967296) (hb : b < 4294967296) (hc : c < 4294967296) :
    leBytes 4 a ++ leBytes 4 b ++ leBytes 4 c ++ leBytes 4 d = leBytes 16 (a + 4294967296 * b + 18446744073709551616 * c + 79228162514264337593543950336 * d) := by
  have e : ∀ x y k, x < 4294967296 → leBytes (4 + k) (x + 4294967296 * y) = leBytes 4 x ++ leBytes k y := by
    intro x y k hx
    rw [leBytes_append, ← leBytes_mod 4 (x + _), show (256 : Nat) ^ 4 = 4294967296 by rfl, Nat.add_mul_mod_self_left, Nat.mod_eq_of_lt hx,
      Nat.add_mul_div_left _ _ (by omega), Nat.div_eq_of_lt hx, Nat.zero_add]
  have h := e a (b + 4294967296 * (c + 4294967296 * d)) 12 ha
  have h' := e b (c + 4294967296 * d) 8 hb
  have h'' := e c d 4 hc
  rw [show 4 + 12 = 16 by rfl] at h
  rw [show 4 + 8 = 12 by rfl] at h'
  rw [show 4 + 4 = 8 by rfl] at h''
  rw [show a + 4294967296 * b + 18446744073709551616 * c + 79228162514264337593543950336 * d = a + 4294967296 * (b + 4294967296 * (c + 4294967296 * d)) by omega, h, h', h'']
  simp only [List.append_assoc]

theorem hashFinal_spec (h : Acc) (n : Quad) (hh : h.Ok) (n0 : n.w0 < 4294967296) (n1 : n.w1 < 4294967296) (n2 : n.w2 < 4294967296) (n3 : n.w3 < 4294967296) (size : Nat) :
    hashFinal h n size = (leBytes 16 (h.val % Spec.p + n.val)).take size := by
  obtain ⟨h0, h1, h2, h3, h4⟩ := hh
  unfold hashFinal
  simp only
  obtain ⟨t0, ht0⟩ : ∃ t, t = w64 (h.h0 + 5) := ⟨_, rfl⟩
  obtain ⟨t1, ht1⟩ : ∃ t, t = w64 (h.h1 + t0 / 4294967296) := ⟨_, rfl⟩
  obtain ⟨t2, ht2⟩ : ∃ t, t = w64 (h.h2 + t1 / 4294967296) := ⟨_, rfl⟩
  obtain ⟨t3, ht3⟩ : ∃ t, t = w64 (h.h3 + t2 / 4294967296) := ⟨_, rfl⟩
  obtain ⟨g4, hg4⟩ : ∃ t, t = w32 (h.h4 + w32 (t3 / 4294967296)) := ⟨_, rfl⟩
  rw [← ht0, ← ht1, ← ht2, ← ht3, ← hg4]
  -- the selected words
  have hsel : ∃ x0 x1 x2 x3, x0 < 4294967296 ∧ x1 < 4294967296 ∧ x2 < 4294967296 ∧ x3 < 4294967296 ∧
      (h.h0 &&& (4294967295 - w32 (4294967296 - g4 / 4))) ||| (w32 t0 &&& w32 (4294967296 - g4 / 4)) = x0 ∧
      (h.h1 &&& (4294967295 - w32 (4294967296 - g4 / 4))) ||| (w32 t1 &&& w32 (4294967296 - g4 / 4)) = x1 ∧
      (h.h2 &&& (4294967295 - w32 (4294967296 - g4 / 4))) ||| (w32 t2 &&& w32 (4294967296 - g4 / 4)) = x2 ∧
      (h.h3 &&& (4294967295 - w32 (4294967296 - g4 / 4))) ||| (w32 t3 &&& w32 (4294967296 - g4 / 4)) = x3 ∧
      (x0 + 4294967296 * x1 + 18446744073709551616 * x2 + 79228162514264337593543950336 * x3) % 340282366920938463463374607431768211456 = h.val % Spec.p % 340282366920938463463374607431768211456 := by
    simp only [w32, w64] at ht0 ht1 ht2 ht3 hg4
    rw [show Spec.p = 1361129467683753853853498429727072845819 by decide]
    have hg : g4 / 4 = 0 ∨ g4 / 4 = 1 := by omega
    have hg4' : g4 = h.h4 + t3 / 4294967296 := by omega
    have hG : t0 % 4294967296 + 4294967296 * (t1 % 4294967296) + 18446744073709551616 * (t2 % 4294967296) + 79228162514264337593543950336 * (t3 % 4294967296) + 340282366920938463463374607431768211456 * g4 = h.val + 5 := by
      have a0 : t0 = h.h0 + 5 := by omega
      have a1 : t1 = h.h1 + t0 / 4294967296 := by omega
      have a2 : t2 = h.h2 + t1 / 4294967296 := by omega
      have a3 : t3 = h.h3 + t2 / 4294967296 := by omega
      rw [hg4']; unfold Acc.val
      clear ht0 ht1 ht2 ht3 hg4 hg hg4'
      omega
    have c0 := Nat.mod_lt t0 (show 0 < 4294967296 by omega)
    have c1 := Nat.mod_lt t1 (show 0 < 4294967296 by omega)
    have c2 := Nat.mod_lt t2 (show 0 < 4294967296 by omega)
    have c3 := Nat.mod_lt t3 (show 0 < 4294967296 by omega)
    clear ht0 ht1 ht2 ht3 hg4 hg4'
    have hlt : h.val < 1701411834604692317316873037158841057280 := by unfold Acc.val; omega
    rcases hg with hg | hg
    · have e1 : w32 (4294967296 - g4 / 4) = 0 := by rw [hg]; rfl
      rw [e1]
      refine ⟨h.h0, h.h1, h.h2, h.h3, h0, h1, h2, h3, by simp [mask_full _ h0], by simp [mask_full _ h1], by simp [mask_full _ h2], by simp [mask_full _ h3], ?_⟩
      rw [Nat.mod_eq_of_lt (show h.val < 1361129467683753853853498429727072845819 by omega)]
      unfold Acc.val
      rw [Nat.add_mul_mod_self_left]
    · have e1 : w32 (4294967296 - g4 / 4) = 4294967295 := by rw [hg]; rfl
      rw [e1]
      have m : ∀ t, w32 t &&& 4294967295 = w32 t := fun t => mask_full _ (by unfold w32; omega)
      refine ⟨w32 t0, w32 t1, w32 t2, w32 t3, by unfold w32; omega, by unfold w32; omega, by unfold w32; omega, by unfold w32; omega, by simp [m], by simp [m], by simp [m], by simp [m], ?_⟩
      simp only [w32]
      have hge : 1361129467683753853853498429727072845819 ≤ h.val := by omega
      rw [Nat.mod_eq_sub_mod hge, Nat.mod_eq_of_lt (show h.val - 1361129467683753853853498429727072845819 < 1361129467683753853853498429727072845819 by omega)]
      have : h.val - 1361129467683753853853498429727072845819 = t0 % 4294967296 + 4294967296 * (t1 % 4294967296) + 18446744073709551616 * (t2 % 4294967296) + 79228162514264337593543950336 * (t3 % 4294967296) + 340282366920938463463374607431768211456 * (g4 - 4) := by omega
      rw [this, Nat.add_mul_mod_self_left]
  obtain ⟨x0, x1, x2, x3, l0, l1, l2, l3, e0, e1, e2, e3, hv⟩ := hsel
  rw [e0, e1, e2, e3]
  congr 1
  rw [leBytes_quad _ _ _ _ (by unfold w32; omega) (by unfold w32; omega) (by unfold w32; omega), ← leBytes_mod 16 (h.val % Spec.p + n.val), ← leBytes_mod 16]
  congr 1
  generalize h.val % Spec.p = y at hv ⊢
  unfold Quad.val
  simp only [w32, w64]
  rw [show (256 : Nat) ^ 16 = 340282366920938463463374607431768211456 by decide]
  clear e0 e1 e2 e3 ht0 ht1 ht2 ht3 hg4
  omega

theorem accumulate_lt (r : Nat) (bs : List (List Byte)) : ∀ a, a < Spec.p → Spec.accumulate r a bs < Spec.p := by
  induction bs with
  | nil => intro a h; exact h
  | cons b bs ih => intro a _; exact ih _ (Nat.mod_lt _ (by decide))

theorem and_word (a b x y : Nat) (ha : a < 4294967296) (hb : b < 4294967296) : (a + 4294967296 * x) &&& (b + 4294967296 * y) = (a &&& b) + 4294967296 * (x &&& y) := by
  have e : ∀ c z : Nat, c + 4294967296 * z = 2 ^ 32 * z + c := fun c z => by omega
  have hx : a &&& b < 2 ^ 32 := Nat.lt_of_le_of_lt Nat.and_le_left ha
  rw [e a x, e b y, e (a &&& b) (x &&& y)]
  apply Nat.eq_of_testBit_eq
  intro i
  rw [Nat.testBit_and, Nat.testBit_two_pow_mul_add _ ha, Nat.testBit_two_pow_mul_add _ hb, Nat.testBit_two_pow_mul_add _ hx]
  split <;> rw [Nat.testBit_and]

theorem clampedKey_val (key : List Byte) (h : 16 ≤ key.length) : (clampedKey key).val = Spec.clamp key := by
  have hq := quad_val key h
  unfold Spec.clamp
  rw [← hq]
  have e : (quad key).val = word key 0 + 4294967296 * (word key 4 + 4294967296 * (word key 8 + 4294967296 * word key 12)) := by simp only [quad, Quad.val]; omega
  have e2 : 0x0ffffffc0ffffffc0ffffffc0fffffff = 0x0fffffff + 4294967296 * (0x0ffffffc + 4294967296 * (0x0ffffffc + 4294967296 * 0x0ffffffc)) := by decide
  rw [e, e2, and_word _ _ _ _ (word_lt _ _) (by decide), and_word _ _ _ _ (word_lt _ _) (by decide), and_word _ _ _ _ (word_lt _ _) (by decide)]
  simp only [clampedKey, Quad.val]
  omega

theorem clampedKey_clamped (key : List Byte) : (clampedKey key).Clamped := by
  have h : ∀ w : Nat, (w &&& 0x0ffffffc) < 268435456 ∧ (w &&& 0x0ffffffc) % 4 = 0 := by
    intro w
    refine ⟨Nat.lt_of_le_of_lt Nat.and_le_right (by decide), ?_⟩
    rw [show (4 : Nat) = 2 ^ 2 by rfl, Nat.and_mod_two_pow]
    show _ &&& 0 = 0
    simp
  exact ⟨Nat.lt_of_le_of_lt Nat.and_le_right (by decide), h _, h _, h _⟩

/-- The object has been given `msg`. -/
structure Inv (s : St) (msg : List Byte) : Prop where
  clamped : s.r.Clamped
  accLen : s.acc.length = 16
  ok : s.h.Ok
  split : ∃ a rest, msg = a ++ rest ∧ a.length % 16 = 0 ∧ rest.length < 16 ∧ s.idx = rest.length ∧ s.acc.take s.idx = rest ∧
    s.h.val % Spec.p = Spec.accumulate s.r.val 0 (chunks 16 a) % Spec.p

theorem put_length (acc : List Byte) (i : Nat) (x : List Byte) (h : i + x.length ≤ acc.length) : (put acc i x).length = acc.length := by
  unfold put; simp; omega

theorem put_take (acc : List Byte) (i : Nat) (x : List Byte) (h : i + x.length ≤ acc.length) : (put acc i x).take (i + x.length) = acc.take i ++ x := by
  unfold put
  rw [List.take_left' (by simp; omega)]

/-- From a block boundary: the whole blocks and the rest. -/
theorem tail_spec (s : St) (a x : List Byte) (hc : s.r.Clamped) (hl : s.acc.length = 16) (ho : s.h.Ok) (ha : a.length % 16 = 0)
    (hv : s.h.val % Spec.p = Spec.accumulate s.r.val 0 (chunks 16 a) % Spec.p) :
    let rem := x.length % 16
    let length := x.length - rem
    let s := if length ≥ 16 then { s with h := hashBlocks s.r 1 (length / 16) s.h x } else s
    let x' := x.drop length
    let s := if rem ≠ 0 then { s with acc := put s.acc 0 x' } else s
    Inv { s with idx := rem } (a ++ x) := by
  intro rem length s' x' s''
  have hrl : rem < 16 := Nat.mod_lt _ (by omega)
  have hle : rem ≤ x.length := Nat.mod_le _ _
  obtain ⟨n, hn⟩ : ∃ n, length = 16 * n := ⟨x.length / 16, by have := Nat.div_add_mod x.length 16; omega⟩
  have hs' : s' = { s with h := hashBlocks s.r 1 n s.h x } := by
    show (if length ≥ 16 then { s with h := hashBlocks s.r 1 (length / 16) s.h x } else s) = _
    rw [hn, Nat.mul_div_cancel_left _ (by omega)]
    by_cases h : 16 * n ≥ 16
    · rw [if_pos h]
    · have : n = 0 := by omega
      rw [if_neg h, this]; rfl
  obtain ⟨h1, h2⟩ := hashBlocks_spec s.r hc n s.h x (Spec.accumulate s.r.val 0 (chunks 16 a)) ho (by omega) hv
  have hx' : x'.length = rem := by show (x.drop length).length = rem; simp; omega
  have hsum : a ++ x = (a ++ x.take length) ++ x' := by rw [List.append_assoc, List.take_append_drop]
  have hal : (a ++ x.take length).length % 16 = 0 := by simp; omega
  have hacc : Spec.accumulate s.r.val (Spec.accumulate s.r.val 0 (chunks 16 a)) (chunks 16 (x.take (16 * n))) = Spec.accumulate s.r.val 0 (chunks 16 (a ++ x.take length)) := by
    rw [chunks_append 16 (by omega) _ _ ha, accumulate_append, hn]
  rw [hacc] at h2
  by_cases hr : rem ≠ 0
  · have hs'' : s'' = { s' with acc := put s'.acc 0 x' } := if_pos hr
    rw [hs'', hs']
    refine ⟨hc, by rw [put_length _ _ _ (by rw [hl]; omega)]; exact hl, h1, _, x', hsum, hal, by omega, hx'.symm, ?_, h2⟩
    have := put_take s.acc 0 x' (by rw [hl]; omega)
    rw [hx', Nat.zero_add] at this
    exact this
  · have hs'' : s'' = s' := if_neg hr
    rw [hs'', hs']
    refine ⟨hc, hl, h1, _, x', hsum, hal, by omega, hx'.symm, ?_, h2⟩
    have h0 : rem = 0 := by omega
    show s.acc.take rem = x'
    rw [h0] at hx' ⊢
    rw [List.eq_nil_of_length_eq_zero hx']; rfl

theorem update_spec (s : St) (msg x : List Byte) (h : Inv s msg) : Inv (update s x) (msg ++ x) ∧ (update s x).r = s.r ∧ (update s x).n = s.n := by
  obtain ⟨hc, hl, ho, a, rest, hm, ha, hr, hi, hacc, hv⟩ := h
  refine ⟨?_, ?_, ?_⟩
  · unfold update
    by_cases h0 : x.length = 0
    · rw [if_pos h0, List.eq_nil_of_length_eq_zero h0, List.append_nil]
      exact ⟨hc, hl, ho, a, rest, hm, ha, hr, hi, hacc, hv⟩
    · rw [if_neg h0]
      simp only
      by_cases h1 : s.idx ≠ 0 ∧ x.length < 16 - s.idx
      · rw [if_pos h1]
        refine ⟨hc, by rw [put_length _ _ _ (by rw [hl]; omega)]; exact hl, ho, a, rest ++ x, by rw [hm, List.append_assoc], ha, by rw [List.length_append]; omega, by rw [List.length_append, ← hi], ?_, hv⟩
        rw [← hacc]; exact put_take s.acc s.idx x (by omega)
      · rw [if_neg h1]
        by_cases h2 : s.idx ≠ 0
        · rw [if_pos h2]
          simp only
          have hrem : (x.take (16 - s.idx)).length = 16 - s.idx := by simp; omega
          have hp : put s.acc s.idx (x.take (16 - s.idx)) = rest ++ x.take (16 - s.idx) := by
            have := put_take s.acc s.idx (x.take (16 - s.idx)) (by omega)
            rw [List.take_of_length_le (by rw [put_length _ _ _ (by omega)]; omega)] at this
            rw [this, hacc]
          have hblk : (rest ++ x.take (16 - s.idx)).length = 16 := by rw [List.length_append]; omega
          obtain ⟨g1, g2⟩ := hashBlocks_spec s.r hc 1 s.h (put s.acc s.idx (x.take (16 - s.idx))) _ ho (by rw [hp]; omega) hv
          have := tail_spec { s with acc := put s.acc s.idx (x.take (16 - s.idx)), h := hashBlocks s.r 1 1 s.h (put s.acc s.idx (x.take (16 - s.idx))) }
            (a ++ (rest ++ x.take (16 - s.idx))) (x.drop (16 - s.idx)) hc (by rw [put_length _ _ _ (by omega)]; exact hl) g1 (by rw [List.length_append]; omega) (by
              rw [g2, chunks_append 16 (by omega) _ _ ha, accumulate_append, hp, List.take_of_length_le (by omega)])
          have hmsg : a ++ (rest ++ x.take (16 - s.idx)) ++ x.drop (16 - s.idx) = msg ++ x := by
            rw [hm]; simp only [List.append_assoc, List.take_append_drop]
          rw [hmsg] at this
          exact this
        · rw [if_neg h2]
          simp only
          have hr0 : rest = [] := List.eq_nil_of_length_eq_zero (by omega)
          rw [hm, hr0, List.append_nil]
          exact tail_spec s a x hc hl ho ha hv
  all_goals
    unfold update
    simp only
    repeat' split
    all_goals first | rfl | skip

theorem zero_ok : (⟨0, 0, 0, 0, 0⟩ : Acc).Ok := ⟨by decide, by decide, by decide, by decide, by decide⟩

theorem restart_spec (s : St) (msg : List Byte) (h : Inv s msg) : Inv (restart s) [] :=
  ⟨h.clamped, h.accLen, zero_ok, [], [], rfl, rfl, by decide, rfl, rfl, rfl⟩

theorem final_spec (s : St) (msg : List Byte) (h : Inv s msg) (size : Nat) (hs : size ≤ 16) (n0 : s.n.w0 < 4294967296) (n1 : s.n.w1 < 4294967296) (n2 : s.n.w2 < 4294967296) (n3 : s.n.w3 < 4294967296) :
    ∃ s', truncatedFinal s size = .ok (s', (Spec.mac s.r.val s.n.val msg).take size) ∧ Inv s' [] ∧ s'.r = s.r ∧ s'.n = s.n := by
  obtain ⟨hc, hl, ho, a, rest, hm, ha, hr, hi, hacc, hv⟩ := h
  unfold truncatedFinal Spec.mac
  rw [if_neg (by omega)]
  have hp : ∀ bs, Spec.accumulate s.r.val 0 bs % Spec.p = Spec.accumulate s.r.val 0 bs := fun bs => Nat.mod_eq_of_lt (accumulate_lt _ _ _ (by decide))
  by_cases h0 : s.idx = 0
  · have hr0 : rest = [] := List.eq_nil_of_length_eq_zero (by omega)
    rw [if_neg (by omega)]
    simp only
    rw [hm, hr0, List.append_nil, hashFinal_spec s.h s.n ho n0 n1 n2 n3, hv, hp]
    exact ⟨_, rfl, restart_spec s a ⟨hc, hl, ho, a, [], by simp, ha, by decide, by simp [h0], by simp [h0], hv⟩, rfl, rfl⟩
  · rw [if_pos h0]
    simp only
    have hpl : (1 :: List.replicate (16 - (s.idx + 1)) (0 : Byte)).length = 16 - s.idx := by simp; omega
    have hput : put s.acc s.idx (1 :: List.replicate (16 - (s.idx + 1)) 0) = rest ++ (1 :: List.replicate (16 - (s.idx + 1)) 0) := by
      have := put_take s.acc s.idx (1 :: List.replicate (16 - (s.idx + 1)) 0) (by rw [hpl]; omega)
      rw [List.take_of_length_le (by rw [put_length _ _ _ (by rw [hpl]; omega), hpl]; omega)] at this
      rw [this, hacc]
    have hz : ∀ n, leVal (List.replicate n (0 : Byte)) = 0 := by
      intro n
      induction n with
      | zero => rfl
      | succ n ih => rw [List.replicate_succ, leVal, ih]; rfl
    have hval : leVal (rest ++ (1 :: List.replicate (16 - (s.idx + 1)) (0 : Byte))) = leVal (rest ++ [1]) := by
      rw [leVal_append, leVal_append, leVal, hz]; rfl
    obtain ⟨g1, g2⟩ := hashBlock_spec s.h s.r (put s.acc s.idx (1 :: List.replicate (16 - (s.idx + 1)) 0)) 0 ho hc (by rw [put_length _ _ _ (by rw [hpl]; omega), hl]) (by omega)
    have e : hashBlocks s.r 0 1 s.h (put s.acc s.idx (1 :: List.replicate (16 - (s.idx + 1)) 0)) = hashBlock s.h s.r (put s.acc s.idx (1 :: List.replicate (16 - (s.idx + 1)) 0)) 0 := by
      show hashBlock s.h s.r ((put s.acc s.idx _).take 16) 0 = _
      rw [List.take_of_length_le (by rw [put_length _ _ _ (by rw [hpl]; omega), hl])]
    rw [e, hashFinal_spec _ s.n g1 n0 n1 n2 n3, g2, hput, hval]
    have hch : chunks 16 msg = chunks 16 a ++ [rest] := by
      rw [hm, chunks_append 16 (by omega) _ _ ha, chunks_of_ne_nil 16 (by omega) rest (by intro h; rw [h] at hi; exact h0 hi), List.take_of_length_le (by omega), List.drop_eq_nil_of_le (by omega)]
      rfl
    have hfin : (s.h.val + (leVal (rest ++ [1]) + 340282366920938463463374607431768211456 * 0)) * s.r.val % Spec.p = Spec.accumulate s.r.val 0 (chunks 16 msg) := by
      rw [hch, accumulate_append, Nat.mul_zero, Nat.add_zero]
      show _ = (Spec.accumulate s.r.val 0 (chunks 16 a) + leVal (rest ++ [1])) * s.r.val % Spec.p
      rw [Nat.mul_mod, Nat.add_mod, hv, ← Nat.add_mod, ← Nat.mul_mod]
    rw [hfin]
    refine ⟨_, rfl, ⟨hc, ?_, zero_ok, [], [], rfl, rfl, by decide, rfl, rfl, rfl⟩, rfl, rfl⟩
    show (rest ++ _).length = 16
    rw [← hput, put_length _ _ _ (by rw [hpl]; omega), hl]

end Verif.Poly1305
