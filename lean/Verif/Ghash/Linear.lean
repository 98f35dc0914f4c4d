import Verif.Ghash.Spec
import Verif.Ghash.Model
import Verif.XorWords

/-! The algebra: everything is linear over exclusive or. -/
namespace Verif.Ghash

open Spec

/-- The sum of `f s` over the set bits `s < n` of `b`. -/
def comb (f : Nat → Nat) : Nat → Nat → Nat
  | 0, _ => 0
  | n + 1, b => comb f n b ^^^ (if b.testBit n then f n else 0)

theorem xor4 (a b c d : Nat) : (a ^^^ b) ^^^ (c ^^^ d) = (a ^^^ c) ^^^ (b ^^^ d) := by
  rw [Nat.xor_assoc, Nat.xor_assoc, ← Nat.xor_assoc b c d, Nat.xor_comm b c, Nat.xor_assoc]

theorem comb_xor (f : Nat → Nat) (n a b : Nat) : comb f n (a ^^^ b) = comb f n a ^^^ comb f n b := by
  induction n with
  | zero => simp [comb]
  | succ n ih =>
    simp only [comb, ih, Nat.testBit_xor]
    rw [xor4]
    congr 1
    cases a.testBit n <;> cases b.testBit n <;> simp

theorem comb_congr (f g : Nat → Nat) (n b : Nat) (h : ∀ s, s < n → f s = g s) : comb f n b = comb g n b := by
  induction n with
  | zero => rfl
  | succ n ih => simp only [comb]; rw [ih fun s hs => h s (by omega), h n (by omega)]

theorem comb_zero (f : Nat → Nat) (n : Nat) : comb f n 0 = 0 := by
  induction n with
  | zero => rfl
  | succ n ih => simp [comb, ih]

/-- The high and the low bits. -/
theorem comb_split (f : Nat → Nat) (m n a b : Nat) (hb : b < 2 ^ n) : comb f (n + m) (2 ^ n * a + b) = comb f n b ^^^ comb (fun s => f (n + s)) m a := by
  induction m with
  | zero =>
    simp only [comb, Nat.add_zero, Nat.xor_zero]
    have : ∀ k, k ≤ n → comb f k (2 ^ n * a + b) = comb f k b := by
      intro k
      induction k with
      | zero => intro _; rfl
      | succ k ih =>
        intro hk
        simp only [comb]
        rw [ih (by omega), Nat.testBit_two_pow_mul_add _ hb]
        simp only [show k < n by omega, if_true]
    exact this n (Nat.le_refl n)
  | succ m ih =>
    show comb f (n + m) _ ^^^ (if Nat.testBit _ (n + m) then f (n + m) else 0) = _ ^^^ (comb _ m a ^^^ _)
    rw [ih, Nat.xor_assoc, Nat.testBit_two_pow_mul_add _ hb]
    simp only [show ¬ n + m < n by omega, if_false, Nat.add_sub_cancel_left]

theorem comb_pow (f : Nat → Nat) (n s : Nat) (h : s < n) : comb f n (2 ^ s) = f s := by
  induction n with
  | zero => omega
  | succ n ih =>
    simp only [comb]
    by_cases hs : s = n
    · subst hs
      have : ∀ k, k ≤ s → comb f k (2 ^ s) = 0 := by
        intro k
        induction k with
        | zero => intro _; rfl
        | succ k ihk =>
          intro hk
          simp only [comb]
          rw [ihk (by omega), Nat.testBit_two_pow]
          simp [show s ≠ k by omega]
      rw [this s (Nat.le_refl s), Nat.testBit_two_pow]
      simp
    · rw [ih (by omega), Nat.testBit_two_pow]
      simp [hs]

theorem comb_map (g : Nat → Nat) (g0 : g 0 = 0) (gx : ∀ a b, g (a ^^^ b) = g a ^^^ g b) (f : Nat → Nat) (n b : Nat) : g (comb f n b) = comb (fun s => g (f s)) n b := by
  induction n with
  | zero => exact g0
  | succ n ih =>
    simp only [comb, gx, ih]
    congr 1
    split
    · rfl
    · exact g0

/-- The key times `x^i`. -/
def P (H : Nat) : Nat → Nat
  | 0 => H
  | i + 1 => next (P H i)

theorem P_next (H i : Nat) : P (next H) i = P H (i + 1) := by
  induction i with
  | zero => rfl
  | succ i ih => show next (P (next H) i) = _; rw [ih]; rfl

theorem mulLoop_eq (X : Nat) : ∀ (n Z V : Nat), mulLoop X n Z V = Z ^^^ comb (fun s => P V (n - 1 - s)) n X := by
  intro n
  induction n with
  | zero => intro Z V; simp [mulLoop, comb]
  | succ n ih =>
    intro Z V
    rw [mulLoop, ih]
    simp only [comb]
    have : comb (fun s => P (next V) (n - 1 - s)) n X = comb (fun s => P V (n + 1 - 1 - s)) n X := by
      apply comb_congr
      intro s hs
      rw [P_next]; congr 1; omega
    rw [this, show n + 1 - 1 - n = 0 by omega]
    split
    · show (Z ^^^ V) ^^^ _ = _
      rw [Nat.xor_assoc, Nat.xor_comm V]; rfl
    · rw [Nat.xor_zero]

theorem mul_eq (X H : Nat) : mul X H = comb (fun s => P H (127 - s)) 128 X := by
  unfold mul; rw [mulLoop_eq, Nat.zero_xor]

/-- A byte `b` at byte position `j`. -/
def byteMul (H j b : Nat) : Nat := comb (fun s => P H (8 * j + 7 - s)) 8 b

/-- The sum over the bytes from position `j` on. -/
def bytesMul (H : Nat) : Nat → List Byte → Nat
  | _, [] => 0
  | j, b :: bs => byteMul H j b.toNat ^^^ bytesMul H (j + 1) bs

theorem bytesMul_eq (H : Nat) : ∀ (bs : List Byte) (j : Nat), j + bs.length = 16 → bytesMul H j bs = comb (fun s => P H (127 - s)) (8 * bs.length) (beVal bs) := by
  intro bs
  induction bs with
  | nil => intro j _; rfl
  | cons b bs ih =>
    intro j hj
    rw [List.length_cons] at hj
    rw [bytesMul, ih (j + 1) (by omega), beVal_cons, show 256 ^ bs.length = 2 ^ (8 * bs.length) by rw [show (256 : Nat) = 2 ^ 8 by rfl, ← Nat.pow_mul], Nat.mul_comm b.toNat, List.length_cons, Nat.mul_add, comb_split]
    · rw [Nat.xor_comm]
      congr 1
      apply comb_congr
      intro s hs
      congr 1
      omega
    · have := beVal_lt bs
      rwa [show 256 ^ bs.length = 2 ^ (8 * bs.length) by rw [show (256 : Nat) = 2 ^ 8 by rfl, ← Nat.pow_mul]] at this

theorem mul_bytes (H : Nat) (bs : List Byte) (h : bs.length = 16) : mul (beVal bs) H = bytesMul H 0 bs := by
  rw [bytesMul_eq H bs 0 (by omega), mul_eq, h]

theorem next_xor (a b : Nat) : next (a ^^^ b) = next a ^^^ next b := by
  have h1 : (a ^^^ b) % 2 = (a % 2) ^^^ (b % 2) := by
    have := Nat.xor_mod_two_pow (a := a) (b := b) (n := 1)
    simpa using this
  have h2 : (a ^^^ b) / 2 = a / 2 ^^^ b / 2 := by
    have := Nat.xor_div_two_pow (a := a) (b := b) (n := 1)
    simpa using this
  unfold next
  rw [h1, h2]
  rcases Nat.mod_two_eq_zero_or_one a with ha | ha <;> rcases Nat.mod_two_eq_zero_or_one b with hb | hb <;> rw [ha, hb]
  · simp
  · simp [Nat.xor_assoc]
  · simp only [Nat.xor_zero]
    rw [if_neg (by omega), if_neg (by omega), Nat.xor_assoc, Nat.xor_assoc, Nat.xor_comm R]; rfl
  · rw [show (1 : Nat) ^^^ 1 = 0 by rfl, if_pos rfl, if_neg (by omega), if_neg (by omega), xor4, Nat.xor_self, Nat.xor_zero]

theorem next_zero : next 0 = 0 := rfl

/-- Multiplication by `x^8`. -/
def x8 (v : Nat) : Nat := next (next (next (next (next (next (next (next v)))))))

theorem x8_xor (a b : Nat) : x8 (a ^^^ b) = x8 a ^^^ x8 b := by simp only [x8, next_xor]
theorem x8_zero : x8 0 = 0 := rfl

theorem P_x8 (H i : Nat) : P H (i + 8) = x8 (P H i) := rfl

theorem byteMul_x8 (H j b : Nat) : byteMul H (j + 1) b = x8 (byteMul H j b) := by
  unfold byteMul
  rw [comb_map x8 x8_zero x8_xor]
  apply comb_congr
  intro s hs
  rw [← P_x8]; congr 1; omega

theorem next_even (v : Nat) : next (2 * v) = v := by
  unfold next
  rw [if_pos (by omega)]; omega

theorem x8_shift (v : Nat) : x8 (256 * v) = v := by
  unfold x8
  rw [show 256 * v = 2 * (2 * (2 * (2 * (2 * (2 * (2 * (2 * v))))))) by omega]
  simp only [next_even]

/-- What the low byte gives after a multiplication by `x^8`, as a 16-bit number at the top. -/
def fold8 (b : Nat) : Nat := comb (fun s => 0x01c2 * 2 ^ s) 8 b

theorem x8_byte (b : Nat) (h : b < 256) : x8 b = fold8 b * 2 ^ 112 := by
  have : ∀ b ∈ List.range 256, x8 b = fold8 b * 2 ^ 112 := by decide +kernel
  exact this b (by simpa using h)

theorem x8_eq (v : Nat) : x8 v = v / 256 ^^^ fold8 (v % 256) * 2 ^ 112 := by
  have e : v = 256 * (v / 256) ^^^ v % 256 := by
    have := xor_digit 0 (v % 256) (v / 256) 0 (by omega) (Nat.mod_lt _ (by omega))
    simp only [Nat.zero_add, Nat.mul_zero, Nat.add_zero, Nat.zero_xor, Nat.xor_zero] at this
    rw [this]; omega
  have h : x8 v = x8 (256 * (v / 256)) ^^^ x8 (v % 256) := by rw [← x8_xor, ← e]
  rw [h, x8_shift, x8_byte _ (Nat.mod_lt _ (by omega))]

theorem fold8_lt (b : Nat) (h : b < 256) : fold8 b < 2 ^ 16 := by
  have : ∀ b ∈ List.range 256, fold8 b < 2 ^ 16 := by decide +kernel
  exact this b (by simpa using h)

end Verif.Ghash
