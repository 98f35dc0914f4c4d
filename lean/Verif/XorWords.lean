import Verif.Words
import Verif.Mem

/-! Exclusive or of byte strings and of the words they form. -/
namespace Verif

theorem xor_digit (a b x y : Nat) (ha : a < 256) (hb : b < 256) : (a + 256 * x) ^^^ (b + 256 * y) = (a ^^^ b) + 256 * (x ^^^ y) := by
  have e : ∀ c z : Nat, c < 256 → c + 256 * z = 2 ^ 8 * z + c := fun c z _ => by omega
  have hx : a ^^^ b < 256 := Nat.xor_lt_two_pow (n := 8) ha hb
  rw [e a x ha, e b y hb, e (a ^^^ b) (x ^^^ y) hx]
  apply Nat.eq_of_testBit_eq
  intro i
  rw [Nat.testBit_xor, Nat.testBit_two_pow_mul_add _ ha, Nat.testBit_two_pow_mul_add _ hb, Nat.testBit_two_pow_mul_add _ hx]
  split <;> rw [Nat.testBit_xor]

theorem leVal_xor (a b : List Byte) (h : a.length = b.length) : leVal (xorBytes a b) = leVal a ^^^ leVal b := by
  induction a generalizing b with
  | nil => cases b with
    | nil => rfl
    | cons _ _ => simp at h
  | cons x a ih => cases b with
    | nil => simp at h
    | cons y b =>
      simp only [List.length_cons, Nat.add_right_cancel_iff] at h
      show leVal ((x ^^^ y) :: xorBytes a b) = _
      simp only [leVal]
      rw [ih b h, xor_digit _ _ _ _ x.isLt y.isLt, BitVec.toNat_xor]

theorem xorBytes_reverse (a b : List Byte) (h : a.length = b.length) : (xorBytes a b).reverse = xorBytes a.reverse b.reverse := by
  unfold xorBytes; rw [List.reverse_zipWith h]

theorem ByteOrder.val_xor (o : ByteOrder) (a b : List Byte) (h : a.length = b.length) : o.val (xorBytes a b) = o.val a ^^^ o.val b := by
  cases o
  · exact leVal_xor a b h
  · show leVal (xorBytes a b).reverse = leVal a.reverse ^^^ leVal b.reverse
    rw [xorBytes_reverse a b h, leVal_xor _ _ (by simp [h])]

/-- Xoring words and storing them is xoring bytes. -/
theorem ByteOrder.bytes_xor_val (o : ByteOrder) (k : Nat) (a b : List Byte) (ha : a.length = k) (hb : b.length = k) :
    o.bytes k (o.val a ^^^ o.val b) = xorBytes a b := by
  rw [← ByteOrder.val_xor o a b (by omega)]
  have := ByteOrder.bytes_val o (xorBytes a b)
  rw [xorBytes_length, ha, hb, Nat.min_self] at this
  exact this

theorem ByteOrder.bytes_xor (o : ByteOrder) (k x y : Nat) (hx : x < 256 ^ k) (hy : y < 256 ^ k) : o.bytes k (x ^^^ y) = xorBytes (o.bytes k x) (o.bytes k y) := by
  have := ByteOrder.bytes_xor_val o k (o.bytes k x) (o.bytes k y) (by simp) (by simp)
  rw [ByteOrder.val_bytes, ByteOrder.val_bytes, Nat.mod_eq_of_lt hx, Nat.mod_eq_of_lt hy] at this
  exact this

end Verif
