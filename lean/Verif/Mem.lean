import Verif.Common

/-! Flat byte-addressed memory: reading and writing ranges. -/
namespace Verif

/-- Memory: a byte at every address. -/
abbrev Mem := Nat → Byte

/-- `n` bytes from address `a` on. -/
def load (m : Mem) (a n : Nat) : List Byte := (List.range n).map fun i => m (a + i)

/-- Writes bytes from address `a` on. -/
def store (m : Mem) (a : Nat) (bs : List Byte) : Mem := fun x => if a ≤ x ∧ x < a + bs.length then bs.getD (x - a) 0 else m x

@[simp] theorem load_length (m : Mem) (a n : Nat) : (load m a n).length = n := by simp [load]

@[simp] theorem load_zero (m : Mem) (a : Nat) : load m a 0 = [] := rfl

theorem load_add (m : Mem) (a n k : Nat) : load m a (n + k) = load m a n ++ load m (a + n) k := by
  simp only [load, List.range_add, List.map_append, List.map_map]
  congr 1
  apply List.map_congr_left
  intro i _
  show m (a + (n + i)) = m (a + n + i)
  rw [Nat.add_assoc]

theorem load_take (m : Mem) (a n k : Nat) (h : k ≤ n) : (load m a n).take k = load m a k := by
  obtain ⟨j, rfl⟩ := Nat.exists_eq_add_of_le h
  rw [load_add, List.take_left' (by simp)]

theorem load_drop (m : Mem) (a n k : Nat) (h : k ≤ n) : (load m a n).drop k = load m (a + k) (n - k) := by
  obtain ⟨j, rfl⟩ := Nat.exists_eq_add_of_le h
  rw [load_add, List.drop_left' (by simp), Nat.add_sub_cancel_left]

theorem load_congr (m m' : Mem) (a n : Nat) (h : ∀ i, i < n → m (a + i) = m' (a + i)) : load m a n = load m' a n := by
  apply List.map_congr_left
  intro i hi
  exact h i (List.mem_range.mp hi)

theorem load_store (m : Mem) (a : Nat) (bs : List Byte) : load (store m a bs) a bs.length = bs := by
  apply List.ext_getElem (by simp)
  intro i h1 h2
  simp only [load, List.getElem_map, List.getElem_range, store]
  rw [if_pos (by omega), Nat.add_sub_cancel_left, List.getD_eq_getElem?_getD, List.getElem?_eq_getElem h2]; rfl

theorem load_store' (m : Mem) (a n : Nat) (bs : List Byte) (h : bs.length = n) : load (store m a bs) a n = bs := by
  subst h; exact load_store m a bs

theorem load_store_disj (m : Mem) (a c n : Nat) (bs : List Byte) (h : a + bs.length ≤ c ∨ c + n ≤ a) :
    load (store m a bs) c n = load m c n := by
  apply load_congr
  intro i hi
  simp only [store]
  rw [if_neg (by omega)]

theorem store_append (m : Mem) (a : Nat) (x y : List Byte) : store m a (x ++ y) = store (store m a x) (a + x.length) y := by
  funext z
  simp only [store, List.length_append]
  by_cases h1 : a + x.length ≤ z ∧ z < a + x.length + y.length
  · rw [if_pos (by omega), if_pos h1, List.getD_eq_getElem?_getD, List.getElem?_append_right (by omega), ← List.getD_eq_getElem?_getD]
    congr 1; omega
  · rw [if_neg h1]
    by_cases h2 : a ≤ z ∧ z < a + x.length
    · rw [if_pos (by omega), if_pos h2, List.getD_eq_getElem?_getD, List.getElem?_append_left (by omega), ← List.getD_eq_getElem?_getD]
    · rw [if_neg (by omega), if_neg h2]

theorem store_nil (m : Mem) (a : Nat) : store m a [] = m := by
  funext z; simp only [store, List.length_nil]; rw [if_neg (by omega)]

theorem store_out (m : Mem) (a x : Nat) (bs : List Byte) (h : x < a ∨ a + bs.length ≤ x) : store m a bs x = m x := by
  simp only [store]; rw [if_neg (by omega)]

/-- Writes to disjoint ranges commute. -/
theorem store_comm (m : Mem) (a b : Nat) (x y : List Byte) (h : a + x.length ≤ b ∨ b + y.length ≤ a) :
    store (store m a x) b y = store (store m b y) a x := by
  funext z
  simp only [store]
  by_cases h1 : b ≤ z ∧ z < b + y.length <;> by_cases h2 : a ≤ z ∧ z < a + x.length
  · omega
  · rw [if_pos h1, if_neg h2, if_pos h1]
  · rw [if_neg h1, if_pos h2, if_pos h2]
  · rw [if_neg h1, if_neg h2, if_neg h2, if_neg h1]

/-- Bytewise exclusive or of two byte strings (`xorbuf`, misc.cpp). -/
def xorBytes (a b : List Byte) : List Byte := List.zipWith (· ^^^ ·) a b

@[simp] theorem xorBytes_length (a b : List Byte) : (xorBytes a b).length = min a.length b.length := by simp [xorBytes]

theorem xorBytes_append (a a' b b' : List Byte) (h : a.length = b.length) : xorBytes (a ++ a') (b ++ b') = xorBytes a b ++ xorBytes a' b' :=
  List.zipWith_append h

theorem xorBytes_comm (a b : List Byte) : xorBytes a b = xorBytes b a := by
  unfold xorBytes
  rw [List.zipWith_comm]
  congr 1
  funext x y
  exact BitVec.xor_comm _ _

theorem xorBytes_take (a b : List Byte) (n : Nat) : (xorBytes a b).take n = xorBytes (a.take n) (b.take n) := List.take_zipWith

theorem xorBytes_drop (a b : List Byte) (n : Nat) : (xorBytes a b).drop n = xorBytes (a.drop n) (b.drop n) := List.drop_zipWith

theorem xorBytes_cancel (a b : List Byte) (h : a.length ≤ b.length) : xorBytes (xorBytes a b) b = a := by
  induction a generalizing b with
  | nil => simp [xorBytes]
  | cons x a ih =>
    cases b with
    | nil => simp at h
    | cons y b =>
      simp only [List.length_cons] at h
      simp only [xorBytes, List.zipWith_cons_cons] at ih ⊢
      rw [ih b (by omega), BitVec.xor_assoc, BitVec.xor_self, BitVec.xor_zero]

theorem xorBytes_assoc (a b c : List Byte) : xorBytes (xorBytes a b) c = xorBytes a (xorBytes b c) := by
  induction a generalizing b c with
  | nil => simp [xorBytes]
  | cons x a ih =>
    cases b with
    | nil => simp [xorBytes]
    | cons y b =>
      cases c with
      | nil => simp [xorBytes]
      | cons z c =>
        simp only [xorBytes, List.zipWith_cons_cons] at ih ⊢
        rw [ih, BitVec.xor_assoc]

end Verif
