import Verif.Common

/-!
# Bytes and words

Independent vocabulary: the value of a byte string read least or most significant byte first, and the byte string of a
given length with a given value.
-/
namespace Verif

/-- Value of a byte string, least significant byte first. -/
def leVal : List Byte → Nat
  | [] => 0
  | b :: bs => b.toNat + 256 * leVal bs

/-- The `k` low bytes of `n`, least significant first. -/
def leBytes : Nat → Nat → List Byte
  | 0, _ => []
  | k + 1, n => BitVec.ofNat 8 n :: leBytes k (n / 256)

/-- Value of a byte string, most significant byte first. -/
def beVal (bs : List Byte) : Nat := leVal bs.reverse

/-- The `k` low bytes of `n`, most significant first. -/
def beBytes (k n : Nat) : List Byte := (leBytes k n).reverse

inductive ByteOrder | little | big
deriving DecidableEq

/-- Value of a byte string in a byte order. -/
def ByteOrder.val : ByteOrder → List Byte → Nat
  | .little => leVal
  | .big => beVal

/-- Bytes of a number in a byte order. -/
def ByteOrder.bytes : ByteOrder → Nat → Nat → List Byte
  | .little => leBytes
  | .big => beBytes

@[simp] theorem leBytes_length (k n : Nat) : (leBytes k n).length = k := by
  induction k generalizing n with
  | zero => rfl
  | succ k ih => simp [leBytes, ih]

@[simp] theorem beBytes_length (k n : Nat) : (beBytes k n).length = k := by simp [beBytes]

@[simp] theorem ByteOrder.bytes_length (o : ByteOrder) (k n : Nat) : (o.bytes k n).length = k := by cases o <;> simp [ByteOrder.bytes]

theorem leVal_lt (bs : List Byte) : leVal bs < 256 ^ bs.length := by
  induction bs with
  | nil => simp [leVal]
  | cons b bs ih =>
    simp only [leVal, List.length_cons, Nat.pow_succ]
    have := b.isLt
    omega

theorem beVal_lt (bs : List Byte) : beVal bs < 256 ^ bs.length := by
  unfold beVal; have := leVal_lt bs.reverse; simpa using this

theorem leVal_leBytes (k n : Nat) : leVal (leBytes k n) = n % 256 ^ k := by
  induction k generalizing n with
  | zero => simp [leVal, leBytes, Nat.mod_one]
  | succ k ih =>
    simp only [leVal, leBytes, ih, BitVec.toNat_ofNat]
    rw [show 256 ^ (k + 1) = 256 * 256 ^ k by rw [Nat.pow_succ, Nat.mul_comm], Nat.mod_mul]

theorem beVal_beBytes (k n : Nat) : beVal (beBytes k n) = n % 256 ^ k := by
  simp [beVal, beBytes, leVal_leBytes]

theorem leBytes_leVal (bs : List Byte) : leBytes bs.length (leVal bs) = bs := by
  induction bs with
  | nil => rfl
  | cons b bs ih =>
    simp only [leVal, List.length_cons, leBytes]
    have h1 : BitVec.ofNat 8 (b.toNat + 256 * leVal bs) = b := by
      apply BitVec.eq_of_toNat_eq
      rw [BitVec.toNat_ofNat]
      have := b.isLt
      omega
    have h2 : (b.toNat + 256 * leVal bs) / 256 = leVal bs := by
      have := b.isLt
      omega
    rw [h1, h2, ih]

theorem beBytes_beVal (bs : List Byte) : beBytes bs.length (beVal bs) = bs := by
  have := leBytes_leVal bs.reverse
  unfold beBytes beVal
  rw [List.length_reverse] at this
  rw [this, List.reverse_reverse]

theorem leBytes_mod (k n : Nat) : leBytes k (n % 256 ^ k) = leBytes k n := by
  rw [← leVal_leBytes]
  have := leBytes_leVal (leBytes k n)
  rwa [leBytes_length] at this

theorem beBytes_mod (k n : Nat) : beBytes k (n % 256 ^ k) = beBytes k n := by
  unfold beBytes; rw [leBytes_mod]

theorem leVal_append (a b : List Byte) : leVal (a ++ b) = leVal a + 256 ^ a.length * leVal b := by
  induction a with
  | nil => simp [leVal]
  | cons x a ih =>
    simp only [List.cons_append, leVal, ih, List.length_cons, Nat.pow_succ]
    rw [Nat.mul_add, ← Nat.mul_assoc, Nat.mul_comm 256 (256 ^ a.length), Nat.add_assoc]

theorem beVal_append (a b : List Byte) : beVal (a ++ b) = beVal a * 256 ^ b.length + beVal b := by
  unfold beVal
  rw [List.reverse_append, leVal_append, List.length_reverse, Nat.mul_comm, Nat.add_comm]

theorem leBytes_append (i j n : Nat) : leBytes (i + j) n = leBytes i n ++ leBytes j (n / 256 ^ i) := by
  induction i generalizing n with
  | zero => simp [leBytes]
  | succ i ih =>
    rw [show i + 1 + j = (i + j) + 1 by omega]
    simp only [leBytes, List.cons_append, ih]
    rw [Nat.div_div_eq_div_mul, Nat.pow_succ, Nat.mul_comm 256]

theorem beBytes_append (i j n : Nat) : beBytes (i + j) n = beBytes i (n / 256 ^ j) ++ beBytes j n := by
  unfold beBytes
  rw [Nat.add_comm i j, leBytes_append, List.reverse_append]

/-- Reading in one order the reversal of a string is reading the string in the other order. -/
theorem leVal_reverse (bs : List Byte) : leVal bs.reverse = beVal bs := rfl
theorem beVal_reverse (bs : List Byte) : beVal bs.reverse = leVal bs := by simp [beVal]

@[simp] theorem leVal_nil : leVal [] = 0 := rfl
@[simp] theorem beVal_nil : beVal [] = 0 := rfl
theorem beVal_cons (b : Byte) (bs : List Byte) : beVal (b :: bs) = b.toNat * 256 ^ bs.length + beVal bs := by
  have := beVal_append [b] bs
  simpa [beVal, leVal] using this

theorem ByteOrder.val_bytes (o : ByteOrder) (k n : Nat) : o.val (o.bytes k n) = n % 256 ^ k := by
  cases o
  · exact leVal_leBytes k n
  · exact beVal_beBytes k n

theorem ByteOrder.bytes_val (o : ByteOrder) (bs : List Byte) : o.bytes bs.length (o.val bs) = bs := by
  cases o
  · exact leBytes_leVal bs
  · exact beBytes_beVal bs

/-- A list cut into pieces of `n` elements (the last may be shorter), at most `fuel` pieces. -/
def chunksAux (n : Nat) : Nat → List α → List (List α)
  | 0, _ => []
  | _, [] => []
  | f + 1, x :: xs => (x :: xs).take n :: chunksAux n f ((x :: xs).drop n)

/-- A list cut into pieces of `n` elements (the last may be shorter). -/
def chunks (n : Nat) (l : List α) : List (List α) := chunksAux n l.length l

theorem chunksAux_fuel (n : Nat) (hn : 0 < n) (f g : Nat) (l : List α) (hf : l.length ≤ f) (hg : l.length ≤ g) :
    chunksAux n f l = chunksAux n g l := by
  induction f generalizing g l with
  | zero =>
    have : l = [] := List.eq_nil_of_length_eq_zero (by omega)
    subst this
    cases g <;> rfl
  | succ f ih =>
    match l, g with
    | [], 0 => rfl
    | [], g + 1 => rfl
    | x :: xs, g + 1 =>
      simp only [chunksAux]
      rw [ih g]
      · simp only [List.length_drop]; simp only [List.length_cons] at *; omega
      · simp only [List.length_drop]; simp only [List.length_cons] at *; omega

@[simp] theorem chunks_nil (n : Nat) : chunks n ([] : List α) = [] := rfl

theorem chunks_of_ne_nil (n : Nat) (hn : 0 < n) (l : List α) (h : l ≠ []) : chunks n l = l.take n :: chunks n (l.drop n) := by
  match l, h with
  | x :: xs, _ =>
    unfold chunks
    rw [List.length_cons]
    conv => lhs; unfold chunksAux
    rw [chunksAux_fuel n hn xs.length ((x :: xs).drop n).length]
    · simp only [List.length_drop, List.length_cons]; omega
    · omega

theorem chunks_append_block (n : Nat) (hn : 0 < n) (a b : List α) (ha : a.length = n) : chunks n (a ++ b) = a :: chunks n b := by
  rw [chunks_of_ne_nil n hn _ (by intro h; have := congrArg List.length h; rw [List.length_append, List.length_nil] at this; omega)]
  rw [← ha, List.take_left, List.drop_left]

theorem chunks_append (n : Nat) (hn : 0 < n) (a b : List α) (ha : a.length % n = 0) : chunks n (a ++ b) = chunks n a ++ chunks n b := by
  obtain ⟨k, hk⟩ : ∃ k, a.length = k * n := ⟨a.length / n, by rw [Nat.div_mul_cancel (Nat.dvd_of_mod_eq_zero ha)]⟩
  clear ha
  induction k generalizing a with
  | zero =>
    have : a = [] := List.eq_nil_of_length_eq_zero (by omega)
    subst this; rfl
  | succ k ih =>
    rw [Nat.succ_mul] at hk
    have h1 : (a.take n).length = n := by rw [List.length_take]; omega
    have h2 : a = a.take n ++ a.drop n := (List.take_append_drop _ _).symm
    rw [h2, List.append_assoc, chunks_append_block n hn _ _ h1, chunks_append_block n hn _ _ h1,
      ih _ (by rw [List.length_drop]; omega)]
    rfl

theorem chunks_flatten (n : Nat) (hn : 0 < n) (l : List α) : (chunks n l).flatten = l := by
  induction hl : l.length using Nat.strongRecOn generalizing l with
  | ind m ih =>
    by_cases h : l = []
    · subst h; rfl
    · rw [chunks_of_ne_nil n hn l h, List.flatten_cons, ih (l.drop n).length _ _ rfl, List.take_append_drop]
      have := List.length_pos_iff.2 h
      rw [List.length_drop]; omega

theorem chunks_block_length (n : Nat) (hn : 0 < n) (l : List α) (hl : l.length % n = 0) : ∀ x ∈ chunks n l, x.length = n := by
  induction hk : l.length using Nat.strongRecOn generalizing l with
  | ind m ih =>
    by_cases h : l = []
    · subst h; simp
    · have hp := List.length_pos_iff.2 h
      have hle := Nat.le_of_dvd hp (Nat.dvd_of_mod_eq_zero hl)
      rw [chunks_of_ne_nil n hn l h]
      intro x hx
      rcases List.mem_cons.1 hx with rfl | hx
      · rw [List.length_take]; omega
      · refine ih (l.drop n).length (by rw [List.length_drop]; omega) (l.drop n) ?_ rfl x hx
        rw [List.length_drop]
        exact Nat.mod_eq_zero_of_dvd (Nat.dvd_sub (Nat.dvd_of_mod_eq_zero hl) (Nat.dvd_refl n))

theorem chunks_length (n : Nat) (hn : 0 < n) (l : List α) (hl : l.length % n = 0) : (chunks n l).length = l.length / n := by
  obtain ⟨k, hk⟩ : ∃ k, l.length = k * n := ⟨l.length / n, by rw [Nat.div_mul_cancel (Nat.dvd_of_mod_eq_zero hl)]⟩
  rw [hk, Nat.mul_div_cancel _ hn]
  clear hl
  induction k generalizing l with
  | zero =>
    have : l = [] := List.eq_nil_of_length_eq_zero (by omega)
    subst this; rfl
  | succ k ih =>
    rw [Nat.succ_mul] at hk
    have h1 : (l.take n).length = n := by rw [List.length_take]; omega
    have h2 : l = l.take n ++ l.drop n := (List.take_append_drop _ _).symm
    rw [h2, chunks_append_block n hn _ _ h1, List.length_cons, ih _ (by rw [List.length_drop]; omega)]

theorem chunks_flatten_blocks (n : Nat) (hn : 0 < n) (xs : List (List α)) (h : ∀ x ∈ xs, x.length = n) : chunks n xs.flatten = xs := by
  induction xs with
  | nil => rfl
  | cons x xs ih =>
    rw [List.flatten_cons, chunks_append_block n hn x _ (h x (by simp)), ih fun y hy => h y (by simp [hy])]

theorem flatten_map_length (n : Nat) (xs : List (List α)) (f : List α → List α) (h : ∀ x ∈ xs, x.length = n)
    (hf : ∀ x, (f x).length = x.length) : (xs.map f).flatten.length = xs.flatten.length := by
  induction xs with
  | nil => rfl
  | cons x xs ih =>
    simp only [List.map_cons, List.flatten_cons, List.length_append, hf]
    rw [ih fun y hy => h y (by simp [hy])]

end Verif
