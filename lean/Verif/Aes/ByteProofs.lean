import Verif.Aes.Model
import Verif.Aes.Spec

/-! # Rijndael: bytes, words and tables -/
namespace Verif.Aes
open Verif.Cipher (rotr xorOut)
open Spec (mul xtime sbox invSbox)

/-- Bytes are less than 256 numbers. -/
theorem forall_byte {p : Byte → Prop} (h : ∀ n < 256, p (BitVec.ofNat 8 n)) (x : Byte) : p x := by
  have := h x.toNat x.isLt
  rwa [BitVec.ofNat_toNat, BitVec.setWidth_eq] at this

/-- A word from its bytes, the most significant first. -/
def W (a b c d : Byte) : W32 := a ++ b ++ c ++ d

theorem W_bit (a b c d : Byte) (i : Nat) : (W a b c d).getLsbD i =
    if i < 8 then d.getLsbD i else if i < 16 then c.getLsbD (i - 8) else if i < 24 then b.getLsbD (i - 16) else a.getLsbD (i - 24) := by
  unfold W
  rw [BitVec.getLsbD_append]
  by_cases h1 : i < 8
  · rw [if_pos h1, if_pos h1]
  rw [if_neg h1, if_neg h1, BitVec.getLsbD_append]
  by_cases h2 : i < 16
  · rw [if_pos h2, if_pos (by omega)]
  rw [if_neg h2, if_neg (by omega), BitVec.getLsbD_append]
  by_cases h3 : i < 24
  · rw [if_pos h3, if_pos (by omega), show i - 8 - 8 = i - 16 by omega]
  · rw [if_neg h3, if_neg (by omega), show i - 8 - 8 - 8 = i - 24 by omega]

theorem W_xor (a b c d a' b' c' d' : Byte) : W a b c d ^^^ W a' b' c' d' = W (a ^^^ a') (b ^^^ b') (c ^^^ c') (d ^^^ d') := by
  apply BitVec.eq_of_getLsbD_eq
  intro i _
  rw [BitVec.getLsbD_xor, W_bit, W_bit, W_bit]
  simp only [BitVec.getLsbD_xor]
  by_cases h1 : i < 8
  · simp only [if_pos h1]
  simp only [if_neg h1]
  by_cases h2 : i < 16
  · simp only [if_pos h2]
  simp only [if_neg h2]
  by_cases h3 : i < 24
  · simp only [if_pos h3]
  · simp only [if_neg h3]

theorem getByte_bit (x : W32) (y i : Nat) : (getByte x y).getLsbD i = (decide (i < 8) && x.getLsbD (8 * y + i)) := by
  rw [getByte, BitVec.getLsbD_setWidth, BitVec.getLsbD_ushiftRight]

theorem getByte_W0 (a b c d : Byte) : getByte (W a b c d) 0 = d := by
  apply BitVec.eq_of_getLsbD_eq; intro i hi
  rw [getByte_bit, W_bit, if_pos (by omega)]; simp [hi]
theorem getByte_W1 (a b c d : Byte) : getByte (W a b c d) 1 = c := by
  apply BitVec.eq_of_getLsbD_eq; intro i hi
  rw [getByte_bit, W_bit, if_neg (by omega), if_pos (by omega)]; simp [hi]
theorem getByte_W2 (a b c d : Byte) : getByte (W a b c d) 2 = b := by
  apply BitVec.eq_of_getLsbD_eq; intro i hi
  rw [getByte_bit, W_bit, if_neg (by omega), if_neg (by omega), if_pos (by omega)]; simp [hi]
theorem getByte_W3 (a b c d : Byte) : getByte (W a b c d) 3 = a := by
  apply BitVec.eq_of_getLsbD_eq; intro i hi
  rw [getByte_bit, W_bit, if_neg (by omega), if_neg (by omega), if_neg (by omega)]; simp [hi]

/-- Every word is made of its bytes. -/
theorem W_getByte (x : W32) : W (getByte x 3) (getByte x 2) (getByte x 1) (getByte x 0) = x := by
  apply BitVec.eq_of_getLsbD_eq; intro i hi
  rw [W_bit]
  simp only [getByte_bit]
  by_cases h1 : i < 8
  · simp [h1]
  by_cases h2 : i < 16
  · rw [if_neg h1, if_pos h2, decide_eq_true (by omega), Bool.true_and]; congr 1; omega
  by_cases h3 : i < 24
  · rw [if_neg h1, if_neg h2, if_pos h3, decide_eq_true (by omega), Bool.true_and]; congr 1; omega
  · rw [if_neg h1, if_neg h2, if_neg h3, decide_eq_true (by omega), Bool.true_and]; congr 1; omega

theorem exists_W (x : W32) : ∃ a b c d, x = W a b c d := ⟨_, _, _, _, (W_getByte x).symm⟩

theorem readByte_eq_le (x : W32) (k : Nat) : readByte (n := 4) false x k = getByte x k := rfl
theorem readByte_eq_be (x : W32) (k : Nat) : readByte (n := 4) true x k = getByte x (3 - k) := rfl

/-! ## Multiplication -/

theorem xtime_xor (x y : Byte) : xtime (x ^^^ y) = xtime x ^^^ xtime y := by
  unfold xtime
  rw [BitVec.shiftLeft_xor_distrib, BitVec.msb_xor]
  cases x.msb <;> cases y.msb
  · simp
  · simp [BitVec.xor_assoc]
  · simp; ac_rfl
  · calc _ = (x <<< 1 ^^^ y <<< 1) ^^^ ((27 : Byte) ^^^ 27) := by simp
      _ = _ := by simp only [if_true]; ac_rfl

theorem mul2_eq (x : Byte) : mul 2 x = xtime x := by
  show (0#8 ^^^ xtime x) = _
  rw [BitVec.zero_xor]
theorem mul3_eq (x : Byte) : mul 3 x = xtime x ^^^ x := by
  show (0#8 ^^^ x ^^^ xtime x) = _
  rw [BitVec.zero_xor]; ac_rfl
theorem mul9_eq (x : Byte) : mul 9 x = xtime (xtime (xtime x)) ^^^ x := by
  show (0#8 ^^^ x ^^^ xtime (xtime (xtime x))) = _
  rw [BitVec.zero_xor]; ac_rfl
theorem mulb_eq (x : Byte) : mul 0x0b x = xtime (xtime (xtime x)) ^^^ xtime x ^^^ x := by
  show (0#8 ^^^ x ^^^ xtime x ^^^ xtime (xtime (xtime x))) = _
  rw [BitVec.zero_xor]; ac_rfl
theorem muld_eq (x : Byte) : mul 0x0d x = xtime (xtime (xtime x)) ^^^ xtime (xtime x) ^^^ x := by
  show (0#8 ^^^ x ^^^ xtime (xtime x) ^^^ xtime (xtime (xtime x))) = _
  rw [BitVec.zero_xor]; ac_rfl
theorem mule_eq (x : Byte) : mul 0x0e x = xtime (xtime (xtime x)) ^^^ xtime (xtime x) ^^^ xtime x := by
  show (0#8 ^^^ xtime x ^^^ xtime (xtime x) ^^^ xtime (xtime (xtime x))) = _
  rw [BitVec.zero_xor]; ac_rfl

theorem mul2_xor (x y : Byte) : mul 2 (x ^^^ y) = mul 2 x ^^^ mul 2 y := by simp only [mul2_eq, xtime_xor]
theorem mul3_xor (x y : Byte) : mul 3 (x ^^^ y) = mul 3 x ^^^ mul 3 y := by simp only [mul3_eq, xtime_xor]; ac_rfl
theorem mul9_xor (x y : Byte) : mul 9 (x ^^^ y) = mul 9 x ^^^ mul 9 y := by simp only [mul9_eq, xtime_xor]; ac_rfl
theorem mulb_xor (x y : Byte) : mul 0x0b (x ^^^ y) = mul 0x0b x ^^^ mul 0x0b y := by simp only [mulb_eq, xtime_xor]; ac_rfl
theorem muld_xor (x y : Byte) : mul 0x0d (x ^^^ y) = mul 0x0d x ^^^ mul 0x0d y := by simp only [muld_eq, xtime_xor]; ac_rfl
theorem mule_xor (x y : Byte) : mul 0x0e (x ^^^ y) = mul 0x0e x ^^^ mul 0x0e y := by simp only [mule_eq, xtime_xor]; ac_rfl

/-! ## Tables -/

theorem se_eq : ∀ x, se x = sbox x := forall_byte (by decide +kernel)
theorem sd_eq : ∀ x, sd x = invSbox x := forall_byte (by decide +kernel)
theorem invSbox_sbox (x : Byte) : invSbox (sbox x) = x := by
  rw [← se_eq, ← sd_eq]; revert x; exact forall_byte (by decide +kernel)
theorem sbox_invSbox (x : Byte) : sbox (invSbox x) = x := by
  rw [← sd_eq, ← se_eq]; revert x; exact forall_byte (by decide +kernel)
/-- `inv` is the multiplicative inverse. -/
theorem inv_mul : ∀ x : Byte, x ≠ 0 → mul x (Spec.inv x) = 1 := forall_byte (by decide +kernel)

/-- What the four encryption tables hold: `Te0[x] = S[x].[02, 01, 01, 03]` and its rotations. -/
def teSpec (i : Nat) (s : Byte) : W32 :=
  match i with
  | 0 => W (mul 2 s) s s (mul 3 s)
  | 1 => W (mul 3 s) (mul 2 s) s s
  | 2 => W s (mul 3 s) (mul 2 s) s
  | _ => W s s (mul 3 s) (mul 2 s)

/-- What the four decryption tables hold: `Td0[x] = Si[x].[0e, 09, 0d, 0b]` and its rotations. -/
def tdSpec (i : Nat) (s : Byte) : W32 :=
  match i with
  | 0 => W (mul 0x0e s) (mul 0x09 s) (mul 0x0d s) (mul 0x0b s)
  | 1 => W (mul 0x0b s) (mul 0x0e s) (mul 0x09 s) (mul 0x0d s)
  | 2 => W (mul 0x0d s) (mul 0x0b s) (mul 0x0e s) (mul 0x09 s)
  | _ => W (mul 0x09 s) (mul 0x0d s) (mul 0x0b s) (mul 0x0e s)

/-- All builds. -/
theorem forall_cfg {p : Cfg → Prop} (h : ∀ b u : Bool, p ⟨b, u⟩) (c : Cfg) : p c := h c.big c.unaligned

theorem tlM_te (c : Cfg) (x : Byte) : ∀ i < 4, tlM c te32 te64 i x = teSpec i (se x) := by
  unfold teSpec
  simp only [mul2_eq, mul3_eq]
  revert c x
  refine forall_cfg fun b u => forall_byte ?_
  cases b <;> cases u <;> decide +kernel

theorem tlM_td (c : Cfg) (x : Byte) : ∀ i < 4, tlM c td32 td64 i x = tdSpec i (sd x) := by
  unfold tdSpec
  simp only [mul9_eq, mulb_eq, muld_eq, mule_eq]
  revert c x
  refine forall_cfg fun b u => forall_byte ?_
  cases b <;> cases u <;> decide +kernel

theorem tlF_te (c : Cfg) (x : Byte) : ∀ i < 4, tlF c te32 te64 i x = teSpec (if c.big then i else 3 - i) (se x) := by
  unfold teSpec
  simp only [mul2_eq, mul3_eq]
  revert c x
  refine forall_cfg fun b u => forall_byte ?_
  cases b <;> cases u <;> decide +kernel

theorem tlF_td (c : Cfg) (x : Byte) : ∀ i < 4, tlF c td32 td64 i x = tdSpec (if c.big then i else 3 - i) (sd x) := by
  unfold tdSpec
  simp only [mul9_eq, mulb_eq, muld_eq, mule_eq]
  revert c x
  refine forall_cfg fun b u => forall_byte ?_
  cases b <;> cases u <;> decide +kernel

theorem lookLE_eq (c : Cfg) (x : Byte) : lookLE c x = se x := by
  revert c x
  refine forall_cfg fun b u => forall_byte ?_
  cases b <;> cases u <;> decide +kernel

theorem lookLD_eq (c : Cfg) (x : Byte) : lookLD c x = sd x := by
  revert c x
  refine forall_cfg fun b u => forall_byte ?_
  cases b <;> cases u <;> decide +kernel

/-- The rows of the product of the two matrices. -/
theorem mix_one (x : Byte) : mul 0x0e (mul 2 x) ^^^ mul 0x0b x ^^^ mul 0x0d x ^^^ mul 9 (mul 3 x) = x := by
  simp only [mul2_eq, mul3_eq, mul9_eq, mulb_eq, muld_eq, mule_eq]
  revert x; exact forall_byte (by decide +kernel)
theorem mix_two (x : Byte) : mul 0x0e (mul 3 x) ^^^ mul 0x0b (mul 2 x) ^^^ mul 0x0d x ^^^ mul 9 x = 0 := by
  simp only [mul2_eq, mul3_eq, mul9_eq, mulb_eq, muld_eq, mule_eq]
  revert x; exact forall_byte (by decide +kernel)
theorem mix_three (x : Byte) : mul 0x0e x ^^^ mul 0x0b (mul 3 x) ^^^ mul 0x0d (mul 2 x) ^^^ mul 9 x = 0 := by
  simp only [mul2_eq, mul3_eq, mul9_eq, mulb_eq, muld_eq, mule_eq]
  revert x; exact forall_byte (by decide +kernel)
theorem mix_four (x : Byte) : mul 0x0e x ^^^ mul 0x0b x ^^^ mul 0x0d (mul 3 x) ^^^ mul 9 (mul 2 x) = 0 := by
  simp only [mul2_eq, mul3_eq, mul9_eq, mulb_eq, muld_eq, mule_eq]
  revert x; exact forall_byte (by decide +kernel)

theorem unmix (a b c d : Byte) :
    mul 0x0e (mul 2 a ^^^ mul 3 b ^^^ c ^^^ d) ^^^ mul 0x0b (mul 2 b ^^^ mul 3 c ^^^ d ^^^ a) ^^^
      mul 0x0d (mul 2 c ^^^ mul 3 d ^^^ a ^^^ b) ^^^ mul 9 (mul 2 d ^^^ mul 3 a ^^^ b ^^^ c) = a := by
  simp only [mul9_xor, mulb_xor, muld_xor, mule_xor]
  calc _ = (mul 0x0e (mul 2 a) ^^^ mul 0x0b a ^^^ mul 0x0d a ^^^ mul 9 (mul 3 a)) ^^^
      (mul 0x0e (mul 3 b) ^^^ mul 0x0b (mul 2 b) ^^^ mul 0x0d b ^^^ mul 9 b) ^^^
      (mul 0x0e c ^^^ mul 0x0b (mul 3 c) ^^^ mul 0x0d (mul 2 c) ^^^ mul 9 c) ^^^
      (mul 0x0e d ^^^ mul 0x0b d ^^^ mul 0x0d (mul 3 d) ^^^ mul 9 (mul 2 d)) := by ac_rfl
    _ = a := by rw [mix_one, mix_two, mix_three, mix_four]; simp

theorem xim_one (x : Byte) : mul 2 (mul 0x0e x) ^^^ mul 3 (mul 9 x) ^^^ mul 0x0d x ^^^ mul 0x0b x = x := by
  simp only [mul2_eq, mul3_eq, mul9_eq, mulb_eq, muld_eq, mule_eq]
  revert x; exact forall_byte (by decide +kernel)
theorem xim_two (x : Byte) : mul 2 (mul 0x0b x) ^^^ mul 3 (mul 0x0e x) ^^^ mul 9 x ^^^ mul 0x0d x = 0 := by
  simp only [mul2_eq, mul3_eq, mul9_eq, mulb_eq, muld_eq, mule_eq]
  revert x; exact forall_byte (by decide +kernel)
theorem xim_three (x : Byte) : mul 2 (mul 0x0d x) ^^^ mul 3 (mul 0x0b x) ^^^ mul 0x0e x ^^^ mul 9 x = 0 := by
  simp only [mul2_eq, mul3_eq, mul9_eq, mulb_eq, muld_eq, mule_eq]
  revert x; exact forall_byte (by decide +kernel)
theorem xim_four (x : Byte) : mul 2 (mul 9 x) ^^^ mul 3 (mul 0x0d x) ^^^ mul 0x0b x ^^^ mul 0x0e x = 0 := by
  simp only [mul2_eq, mul3_eq, mul9_eq, mulb_eq, muld_eq, mule_eq]
  revert x; exact forall_byte (by decide +kernel)

theorem remix (a b c d : Byte) :
    mul 2 (mul 0x0e a ^^^ mul 0x0b b ^^^ mul 0x0d c ^^^ mul 9 d) ^^^ mul 3 (mul 0x0e b ^^^ mul 0x0b c ^^^ mul 0x0d d ^^^ mul 9 a) ^^^
      (mul 0x0e c ^^^ mul 0x0b d ^^^ mul 0x0d a ^^^ mul 9 b) ^^^ (mul 0x0e d ^^^ mul 0x0b a ^^^ mul 0x0d b ^^^ mul 9 c) = a := by
  simp only [mul2_xor, mul3_xor]
  calc _ = (mul 2 (mul 0x0e a) ^^^ mul 3 (mul 9 a) ^^^ mul 0x0d a ^^^ mul 0x0b a) ^^^
      (mul 2 (mul 0x0b b) ^^^ mul 3 (mul 0x0e b) ^^^ mul 9 b ^^^ mul 0x0d b) ^^^
      (mul 2 (mul 0x0d c) ^^^ mul 3 (mul 0x0b c) ^^^ mul 0x0e c ^^^ mul 9 c) ^^^
      (mul 2 (mul 9 d) ^^^ mul 3 (mul 0x0d d) ^^^ mul 0x0b d ^^^ mul 0x0e d) := by ac_rfl
    _ = a := by rw [xim_one, xim_two, xim_three, xim_four]; simp

end Verif.Aes
