import Verif.Words
import Verif.Mem

/-!
# Block ciphers: blocks, words, rotations, and what it means to be inverse
-/
namespace Verif.Cipher

/-- misc.h:1757-1763 `rotlConstant`, 1894-1899 `rotlMod` (and the other `rotl` functions): `(x<<(y&MASK))|(x>>(-y&MASK))`; a word has a
power of two bits, so masking is reducing modulo the width. -/
def rotl {w : Nat} (x : BitVec w) (y : Nat) : BitVec w := (x <<< (y % w)) ||| (x >>> ((w - y % w) % w))

/-- misc.h:1784-1790 `rotrConstant`, 1910-1915 `rotrMod`. -/
def rotr {w : Nat} (x : BitVec w) (y : Nat) : BitVec w := (x >>> (y % w)) ||| (x <<< ((w - y % w) % w))

theorem rotl_eq {w : Nat} (x : BitVec w) (y : Nat) : rotl x y = x.rotateLeft y := by
  unfold rotl
  rw [BitVec.rotateLeft_def]
  by_cases hw : w = 0
  · subst hw; exact (BitVec.eq_nil _).trans (BitVec.eq_nil _).symm
  by_cases h0 : y % w = 0
  · rw [h0]; simp [BitVec.ushiftRight_eq_zero, BitVec.shiftLeft_eq_zero]
  · have := Nat.mod_lt y (by omega : w > 0)
    rw [Nat.mod_eq_of_lt (by omega : w - y % w < w)]

theorem rotr_eq {w : Nat} (x : BitVec w) (y : Nat) : rotr x y = x.rotateRight y := by
  unfold rotr
  rw [BitVec.rotateRight_def]
  by_cases hw : w = 0
  · subst hw; exact (BitVec.eq_nil _).trans (BitVec.eq_nil _).symm
  by_cases h0 : y % w = 0
  · rw [h0]; simp [BitVec.ushiftRight_eq_zero, BitVec.shiftLeft_eq_zero]
  · have := Nat.mod_lt y (by omega : w > 0)
    rw [Nat.mod_eq_of_lt (by omega : w - y % w < w)]

@[simp] theorem rotr_rotl {w : Nat} (x : BitVec w) (y : Nat) : rotr (rotl x y) y = x := by
  rw [rotl_eq, rotr_eq]
  apply BitVec.eq_of_getLsbD_eq
  intro i hi
  have := Nat.mod_lt y (by omega : w > 0)
  rw [BitVec.getLsbD_rotateRight, BitVec.getLsbD_rotateLeft, BitVec.getLsbD_rotateLeft]
  by_cases h : i < w - y % w
  · rw [cond_eq_ite, if_pos (by simpa using h), cond_eq_ite, if_neg (by simp)]
    rw [decide_eq_true (by omega), Bool.true_and]
    congr 1; omega
  · rw [cond_eq_ite, if_neg (by simpa using h), cond_eq_ite, if_pos (by simp; omega)]
    rw [decide_eq_true hi, Bool.true_and]
    congr 1; omega

@[simp] theorem rotl_rotr {w : Nat} (x : BitVec w) (y : Nat) : rotl (rotr x y) y = x := by
  rw [rotl_eq, rotr_eq]
  apply BitVec.eq_of_getLsbD_eq
  intro i hi
  have := Nat.mod_lt y (by omega : w > 0)
  rw [BitVec.getLsbD_rotateLeft, BitVec.getLsbD_rotateRight, BitVec.getLsbD_rotateRight]
  by_cases h : i < y % w
  · rw [cond_eq_ite, if_pos (by simpa using h), cond_eq_ite, if_neg (by simp)]
    rw [decide_eq_true (by omega), Bool.true_and]
    congr 1; omega
  · rw [cond_eq_ite, if_neg (by simpa using h), cond_eq_ite, if_pos (by simp; omega)]
    rw [decide_eq_true hi, Bool.true_and]
    congr 1; omega

@[simp] theorem xor_xor_cancel {w : Nat} (x y : BitVec w) : (x ^^^ y) ^^^ y = x := by
  rw [BitVec.xor_assoc, BitVec.xor_self, BitVec.xor_zero]
theorem xor_xor_cancel_mid {w : Nat} (x y : BitVec w) : (x ^^^ y) ^^^ x = y := by
  rw [BitVec.xor_comm x y, xor_xor_cancel]
theorem xor_xor_cancel_left {w : Nat} (x y : BitVec w) : x ^^^ (x ^^^ y) = y := by
  rw [← BitVec.xor_assoc, BitVec.xor_self, BitVec.zero_xor]
theorem xor_xor_cancel_right {w : Nat} (x y : BitVec w) : x ^^^ (y ^^^ x) = y := by
  rw [BitVec.xor_comm y x, xor_xor_cancel_left]
@[simp] theorem add_sub_cancel' {w : Nat} (x y : BitVec w) : x + y - y = x := BitVec.add_sub_cancel x y
@[simp] theorem sub_add_cancel' {w : Nat} (x y : BitVec w) : x - y + y = x := BitVec.sub_add_cancel x y

/-! ## Blocks of words -/

/-- misc.h:2974-3010 `GetBlock`: the words of a block in a byte order. -/
def words (o : ByteOrder) (k : Nat) (b : List Byte) : List (BitVec (8 * k)) := (chunks k b).map fun c => BitVec.ofNat (8 * k) (o.val c)

/-- misc.h:3014-3041 `PutBlock`, without the optional mask. -/
def unwords (o : ByteOrder) (k : Nat) (l : List (BitVec (8 * k))) : List Byte := l.flatMap fun x => o.bytes k x.toNat

theorem ByteOrder.val_lt (o : ByteOrder) (c : List Byte) : o.val c < 256 ^ c.length := by
  cases o
  · exact leVal_lt c
  · exact beVal_lt c

theorem pow256 (k : Nat) : 2 ^ (8 * k) = 256 ^ k := by rw [Nat.pow_mul]

theorem unwords_length (o : ByteOrder) (k : Nat) (l : List (BitVec (8 * k))) : (unwords o k l).length = l.length * k := by
  induction l with
  | nil => simp [unwords]
  | cons x l ih =>
    have : unwords o k (x :: l) = o.bytes k x.toNat ++ unwords o k l := rfl
    rw [this, List.length_append, ih, ByteOrder.bytes_length, List.length_cons, Nat.add_mul l.length 1 k, Nat.one_mul]; exact Nat.add_comm _ _

theorem words_unwords (o : ByteOrder) {k : Nat} (hk : 0 < k) (l : List (BitVec (8 * k))) : words o k (unwords o k l) = l := by
  induction l with
  | nil => rfl
  | cons x l ih =>
    have : unwords o k (x :: l) = o.bytes k x.toNat ++ unwords o k l := rfl
    unfold words at ih ⊢
    rw [this, chunks_append_block k hk _ _ (o.bytes_length k _), List.map_cons, ih, ByteOrder.val_bytes]
    congr 1
    rw [← pow256]
    apply BitVec.eq_of_toNat_eq
    rw [BitVec.toNat_ofNat, Nat.mod_mod, Nat.mod_eq_of_lt x.isLt]

theorem words_append {o : ByteOrder} {k : Nat} (hk : 0 < k) (a b : List Byte) (ha : a.length = k) :
    words o k (a ++ b) = BitVec.ofNat (8 * k) (o.val a) :: words o k b := by
  unfold words; rw [chunks_append_block k hk a b ha, List.map_cons]

theorem words_spec (o : ByteOrder) {k : Nat} (hk : 0 < k) : ∀ (n : Nat) (b : List Byte), b.length = n * k →
    (words o k b).length = n ∧ unwords o k (words o k b) = b
  | 0, b, h => by
    have : b = [] := List.eq_nil_of_length_eq_zero (by omega)
    subst this; exact ⟨rfl, rfl⟩
  | n + 1, b, h => by
    rw [Nat.succ_mul] at h
    have h1 : (b.take k).length = k := by rw [List.length_take]; omega
    have h2 : b = b.take k ++ b.drop k := (List.take_append_drop _ _).symm
    obtain ⟨i1, i2⟩ := words_spec o hk n (b.drop k) (by rw [List.length_drop]; omega)
    rw [h2, words_append hk _ _ h1]
    refine ⟨by rw [List.length_cons, i1], ?_⟩
    have : unwords o k (BitVec.ofNat (8 * k) (o.val (b.take k)) :: words o k (b.drop k)) =
        o.bytes k (BitVec.ofNat (8 * k) (o.val (b.take k))).toNat ++ unwords o k (words o k (b.drop k)) := rfl
    rw [this, i2]
    congr 1
    have hl := ByteOrder.val_lt o (b.take k)
    rw [h1] at hl
    rw [BitVec.toNat_ofNat, pow256, Nat.mod_eq_of_lt hl]
    have := ByteOrder.bytes_val o (b.take k)
    rwa [h1] at this

/-! ## Inverse transformations -/

/-- A cipher with a key: the two directions of `ProcessBlock`. -/
structure Keyed where
  blockSize : Nat
  enc : List Byte → List Byte
  dec : List Byte → List Byte

/-- Decryption undoes encryption and the other way round, on all blocks; both map blocks to blocks. -/
def Keyed.Inverse (c : Keyed) : Prop :=
  ∀ b : List Byte, b.length = c.blockSize →
    (c.enc b).length = c.blockSize ∧ c.dec (c.enc b) = b ∧ (c.dec b).length = c.blockSize ∧ c.enc (c.dec b) = b

/-- cryptlib.h:875-900 `ProcessAndXorBlock(in, xorBlock, out)`: the mask, if there is one, is added to the output. -/
def xorOut (mask : Option (List Byte)) (out : List Byte) : List Byte :=
  match mask with
  | none => out
  | some m => xorBytes out m

/-- Two transformations of `n` words that undo each other. -/
def Pair {α : Type} (n : Nat) (f g : List α → List α) : Prop :=
  ∀ l : List α, l.length = n → (f l).length = n ∧ g (f l) = l ∧ (g l).length = n ∧ f (g l) = l

/-- A cipher that gets `n` words of `k` bytes, transforms them and puts them back. -/
def ofWords (o : ByteOrder) (k n : Nat) (f g : List (BitVec (8 * k)) → List (BitVec (8 * k))) : Keyed :=
  ⟨n * k, fun b => unwords o k (f (words o k b)), fun b => unwords o k (g (words o k b))⟩

theorem ofWords_inverse (o : ByteOrder) {k n : Nat} (hk : 0 < k) {f g : List (BitVec (8 * k)) → List (BitVec (8 * k))} (h : Pair n f g) :
    (ofWords o k n f g).Inverse := by
  intro b hb
  obtain ⟨h1, h2⟩ := words_spec o hk n b hb
  obtain ⟨k1, k2, k3, k4⟩ := h (words o k b) h1
  show (unwords o k (f (words o k b))).length = n * k ∧ unwords o k (g (words o k (unwords o k (f (words o k b))))) = b ∧
    (unwords o k (g (words o k b))).length = n * k ∧ unwords o k (f (words o k (unwords o k (g (words o k b))))) = b
  rw [unwords_length, unwords_length, words_unwords o hk, words_unwords o hk, k1, k2, k3, k4, h2]
  exact ⟨rfl, rfl, rfl, rfl⟩

theorem Pair.comp {α : Type} {n : Nat} {f g f' g' : List α → List α} (h : Pair n f g) (h' : Pair n f' g') :
    Pair n (fun l => f' (f l)) (fun l => g (g' l)) := by
  intro l hl
  obtain ⟨a1, a2, a3, a4⟩ := h l hl
  obtain ⟨b1, b2, _, _⟩ := h' (f l) a1
  obtain ⟨_, _, c3, c4⟩ := h' l hl
  obtain ⟨_, _, d3, d4⟩ := h (g' l) c3
  exact ⟨b1, by simp only; rw [b2, a2], d3, by simp only; rw [d4, c4]⟩

theorem Pair.symm {α : Type} {n : Nat} {f g : List α → List α} (h : Pair n f g) : Pair n g f :=
  fun l hl => ⟨(h l hl).2.2.1, (h l hl).2.2.2, (h l hl).1, (h l hl).2.1⟩

theorem Pair.id {α : Type} (n : Nat) : Pair (α := α) n (fun l => l) (fun l => l) := fun _ h => ⟨h, rfl, h, rfl⟩

/-- Rounds in order, and their inverses in the opposite order. -/
theorem Pair.foldl {α κ : Type} {n : Nat} {f g : κ → List α → List α} (h : ∀ k, Pair n (f k) (g k)) : ∀ ks : List κ,
    Pair n (fun l => ks.foldl (fun l k => f k l) l) (fun l => ks.reverse.foldl (fun l k => g k l) l)
  | [] => Pair.id n
  | k :: ks => by
    have := (h k).comp (Pair.foldl h ks)
    simpa [List.foldl_append] using this

/-- Two words: states as pairs. -/
theorem pair2 {α : Type} {f g : α → α → α × α} (h1 : ∀ a b, g (f a b).1 (f a b).2 = (a, b)) (h2 : ∀ a b, f (g a b).1 (g a b).2 = (a, b)) :
    Pair 2 (fun l => match l with | [a, b] => [(f a b).1, (f a b).2] | _ => l) (fun l => match l with | [a, b] => [(g a b).1, (g a b).2] | _ => l) := by
  intro l hl
  match l, hl with
  | [a, b], _ => simp [h1, h2]

end Verif.Cipher
