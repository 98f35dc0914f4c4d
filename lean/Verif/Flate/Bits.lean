import Mathlib.Tactic.Ring
import Mathlib.Data.Nat.ModEq
import Verif.Common

/-!
# Strings of bits, low bit first

Specification side: how DEFLATE (RFC 1951, 3.1.1) packs numbers into bytes.
-/
namespace Verif.Flate

/-- The `n` low bits of `v`, lowest first. -/
def bits : Nat → Nat → List Bool
  | 0, _ => []
  | n + 1, v => decide (v % 2 = 1) :: bits n (v / 2)

/-- The number a string of bits stands for, lowest first. -/
def val : List Bool → Nat
  | [] => 0
  | b :: l => b.toNat + 2 * val l

/-- The bits of a string of bytes. -/
def byteBits (l : List Byte) : List Bool := l.flatMap fun b => bits 8 b.toNat

@[simp] theorem bits_length (n v : Nat) : (bits n v).length = n := by
  induction n generalizing v with
  | zero => rfl
  | succ n ih => simp [bits, ih]

theorem val_bits (n v : Nat) : val (bits n v) = v % 2 ^ n := by
  induction n generalizing v with
  | zero => simp [bits, val, Nat.mod_one]
  | succ n ih =>
    have e : v % 2 ^ (n + 1) = v % 2 + 2 * (v / 2 % 2 ^ n) := by rw [Nat.pow_succ, Nat.mul_comm, Nat.mod_mul]
    rw [bits, val, ih, e]
    have : (decide (v % 2 = 1)).toNat = v % 2 := by rcases Nat.mod_two_eq_zero_or_one v with h | h <;> simp [h]
    rw [this]

theorem val_lt (l : List Bool) : val l < 2 ^ l.length := by
  induction l with
  | nil => simp [val]
  | cons b l ih =>
    rw [val, List.length_cons, Nat.pow_succ]
    have : b.toNat ≤ 1 := by cases b <;> decide
    omega

theorem bits_val (l : List Bool) : bits l.length (val l) = l := by
  induction l with
  | nil => rfl
  | cons b l ih =>
    rw [List.length_cons, bits, val]
    have h1 : (b.toNat + 2 * val l) / 2 = val l := by cases b <;> simp <;> omega
    have h2 : (b.toNat + 2 * val l) % 2 = b.toNat := by cases b <;> simp <;> omega
    rw [h1, h2, ih]
    cases b <;> simp

theorem val_append (l m : List Bool) : val (l ++ m) = val l + 2 ^ l.length * val m := by
  induction l with
  | nil => simp [val]
  | cons b l ih => rw [List.cons_append, val, val, ih, List.length_cons, Nat.pow_succ]; ring

theorem bits_mod (n v : Nat) : bits n (v % 2 ^ n) = bits n v := by
  have := bits_val (bits n v)
  rw [bits_length, val_bits] at this
  exact this

theorem bits_append (n m v w : Nat) (hv : v < 2 ^ n) : bits n v ++ bits m w = bits (n + m) (v + 2 ^ n * w) := by
  have h := bits_val (bits n v ++ bits m w)
  rw [List.length_append, bits_length, bits_length, val_append, val_bits, val_bits, bits_length, Nat.mod_eq_of_lt hv] at h
  rw [← h, ← bits_mod (n + m) (v + 2 ^ n * w), ← bits_mod (n + m) (v + 2 ^ n * (w % 2 ^ m))]
  congr 1
  rw [Nat.pow_add, Nat.mod_mul, Nat.mod_mul]
  have e1 : (v + 2 ^ n * w) % 2 ^ n = v := by rw [Nat.add_mul_mod_self_left, Nat.mod_eq_of_lt hv]
  have e2 : (v + 2 ^ n * (w % 2 ^ m)) % 2 ^ n = v := by rw [Nat.add_mul_mod_self_left, Nat.mod_eq_of_lt hv]
  have e3 : (v + 2 ^ n * w) / 2 ^ n = w := by rw [Nat.add_mul_div_left _ _ (Nat.two_pow_pos n), Nat.div_eq_of_lt hv, Nat.zero_add]
  have e4 : (v + 2 ^ n * (w % 2 ^ m)) / 2 ^ n = w % 2 ^ m := by rw [Nat.add_mul_div_left _ _ (Nat.two_pow_pos n), Nat.div_eq_of_lt hv, Nat.zero_add]
  rw [e1, e2, e3, e4, Nat.mod_mod]

theorem bits_take (n m v : Nat) (h : n ≤ m) : (bits m v).take n = bits n v := by
  induction n generalizing m v with
  | zero => rfl
  | succ n ih =>
    obtain ⟨m, rfl⟩ : ∃ k, m = k + 1 := ⟨m - 1, by omega⟩
    rw [bits, bits, List.take_succ_cons, ih m _ (by omega)]

theorem bits_drop (n m v : Nat) (h : n ≤ m) : (bits m v).drop n = bits (m - n) (v / 2 ^ n) := by
  induction n generalizing m v with
  | zero => simp
  | succ n ih =>
    obtain ⟨m, rfl⟩ : ∃ k, m = k + 1 := ⟨m - 1, by omega⟩
    rw [bits, List.drop_succ_cons, ih m _ (by omega), Nat.div_div_eq_div_mul, Nat.pow_succ, Nat.mul_comm 2, Nat.add_sub_add_right]

theorem bits_inj {n v w : Nat} (hv : v < 2 ^ n) (hw : w < 2 ^ n) (h : bits n v = bits n w) : v = w := by
  have := congrArg val h
  rwa [val_bits, val_bits, Nat.mod_eq_of_lt hv, Nat.mod_eq_of_lt hw] at this

theorem val_zeros (n : Nat) : val (List.replicate n false) = 0 := by
  induction n with
  | zero => rfl
  | succ n ih => rw [List.replicate_succ, val, ih]; rfl

theorem bits_zero (n : Nat) : bits n 0 = List.replicate n false := by
  induction n with
  | zero => rfl
  | succ n ih => rw [bits, Nat.zero_div, ih, List.replicate_succ]; rfl

@[simp] theorem byteBits_nil : byteBits [] = [] := rfl
@[simp] theorem byteBits_cons (b : Byte) (l : List Byte) : byteBits (b :: l) = bits 8 b.toNat ++ byteBits l := rfl
@[simp] theorem byteBits_append (l m : List Byte) : byteBits (l ++ m) = byteBits l ++ byteBits m := by simp [byteBits]
@[simp] theorem byteBits_length (l : List Byte) : (byteBits l).length = 8 * l.length := by
  induction l with
  | nil => rfl
  | cons b l ih => rw [byteBits_cons, List.length_append, bits_length, ih, List.length_cons]; omega

end Verif.Flate
