import Verif.Keccak.Round

/-! # The permutation on 200 bytes is KECCAK-f[1600] on 1600 bits -/
namespace Verif.Keccak
open Spec (bits)

theorem bits_nil : bits [] = [] := rfl
theorem bits_append (a b : List Byte) : bits (a ++ b) = bits a ++ bits b := by simp [bits]
theorem bits_cons (a : Byte) (b : List Byte) : bits (a :: b) = (List.range 8).map (fun i => a.getLsbD i) ++ bits b := by simp [bits]
theorem bits_length (m : List Byte) : (bits m).length = 8 * m.length := by
  induction m with
  | nil => rfl
  | cons a m ih => rw [bits_cons]; simp [ih]; omega

theorem bits_getD (m : List Byte) (k : Nat) : (bits m).getD k false = (m.getD (k / 8) 0).getLsbD (k % 8) := by
  induction m generalizing k with
  | nil => simp [bits_nil]
  | cons a m ih =>
    rw [bits_cons]
    by_cases hk : k < 8
    · rw [Nat.div_eq_of_lt hk, Nat.mod_eq_of_lt hk, List.getD_eq_getElem?_getD, List.getElem?_append_left (by simpa using hk)]
      simp [hk]
    · rw [List.getD_eq_getElem?_getD, List.getElem?_append_right (by simp; omega), ← List.getD_eq_getElem?_getD]
      simp only [List.length_map, List.length_range]
      rw [ih]
      obtain ⟨j, rfl⟩ : ∃ j, k = j + 8 := ⟨k - 8, by omega⟩
      rw [show (j + 8) / 8 = j / 8 + 1 by omega, show (j + 8) % 8 = j % 8 by omega, Nat.add_sub_cancel]
      simp

theorem testBit_leVal (m : List Byte) (k : Nat) : (leVal m).testBit k = (m.getD (k / 8) 0).getLsbD (k % 8) := by
  induction m generalizing k with
  | nil => simp [leVal]
  | cons a m ih =>
    have ha : a.toNat < 2 ^ 8 := a.isLt
    rw [leVal, show a.toNat + 256 * leVal m = 2 ^ 8 * leVal m + a.toNat by omega, Nat.testBit_two_pow_mul_add _ ha]
    by_cases hk : k < 8
    · rw [if_pos hk, Nat.div_eq_of_lt hk, Nat.mod_eq_of_lt hk]; rfl
    · rw [if_neg hk, ih]
      obtain ⟨j, rfl⟩ : ∃ j, k = j + 8 := ⟨k - 8, by omega⟩
      rw [show (j + 8) / 8 = j / 8 + 1 by omega, show (j + 8) % 8 = j % 8 by omega, Nat.add_sub_cancel]
      simp

theorem bit_getWord (st : List Byte) (i : Nat) (z : Fin 64) : bit (getWord st i) z = (bits st).getD (64 * i + z.val) false := by
  have hz := z.isLt
  unfold bit getWord
  rw [BitVec.getLsbD_ofNat, decide_eq_true hz, Bool.true_and, testBit_leVal, bits_getD,
    show (64 * i + z.val) / 8 = 8 * i + z.val / 8 by omega, show (64 * i + z.val) % 8 = z.val % 8 by omega]
  congr 1
  simp only [List.getD_eq_getElem?_getD]
  rw [List.getElem?_take_of_lt (by omega), List.getElem?_drop]

theorem arr_getLanes (st : List Byte) : arr (getLanes st) = Spec.ofString (bits st) := by
  funext x y z
  unfold Spec.ofString
  rw [← bit_getWord]
  revert x y
  refine fin5 ?_ ?_ ?_ ?_ ?_ <;> refine fin5 ?_ ?_ ?_ ?_ ?_ <;> rfl

theorem bits_leBytes (w : Word) : bits (leBytes 8 w.toNat) = (List.finRange 64).map (bit w) := by
  apply List.ext_getElem
  · rw [bits_length]; simp
  · intro k h1 h2
    have hk : k < 64 := by simpa using h2
    have e : (bits (leBytes 8 w.toNat))[k] = (bits (leBytes 8 w.toNat)).getD k false := by
      rw [List.getD_eq_getElem?_getD, List.getElem?_eq_getElem h1]; rfl
    refine e.trans ?_
    rw [bits_getD, ← testBit_leVal, leVal_leBytes, Nat.mod_eq_of_lt (by have := w.isLt; omega)]
    simp [bit, BitVec.testBit_toNat]

theorem bits_flatMap {α : Type} (l : List α) (f : α → List Byte) : bits (l.flatMap f) = l.flatMap fun a => bits (f a) := by
  induction l with
  | nil => rfl
  | cons a l ih => simp [bits_append, ih]

theorem bits_putLanes (s : Lanes) : bits (putLanes s) = Spec.toString (arr s) := by
  unfold putLanes
  rw [bits_flatMap]
  simp only [bits_leBytes]
  have h5 : List.finRange 5 = [0, 1, 2, 3, 4] := by decide
  have hl : ∀ x y, (List.finRange 64).map (fun z => arr s x y z) = (List.finRange 64).map (bit (s.list.getD (5 * y.val + x.val) 0)) := fun _ _ => rfl
  unfold Spec.toString
  simp only [hl, h5, List.flatMap_cons, List.flatMap_nil, List.append_nil, List.append_assoc]
  rfl

theorem constants_ok (i : Nat) (hi : i < 24) (z : Fin 64) : bit (constants.getD i 0) z = Spec.roundConstant i z := by
  have h : ∀ i : Fin 24, ∀ z : Fin 64, bit (constants.getD i.val 0) z = Spec.roundConstant i.val z := by decide +kernel
  exact h ⟨i, hi⟩ z

theorem arr_roundLoop (n r : Nat) (s : Lanes) (h : r + 2 * n ≤ 24) : arr (roundLoop n r s) = (List.range' r (2 * n)).foldl Spec.round (arr s) := by
  induction n generalizing r s with
  | zero => rfl
  | succ n ih =>
    rw [roundLoop, ih _ _ (by omega), odd_round _ (r + 1) (constants_ok _ (by omega)), even_round _ r (constants_ok _ (by omega)),
      show 2 * (n + 1) = 2 * n + 1 + 1 by omega, List.range'_succ, List.range'_succ, List.foldl_cons, List.foldl_cons]

theorem bits_keccakF (st : List Byte) : bits (keccakF1600 st) = Spec.keccakF (bits st) := by
  unfold keccakF1600 Spec.keccakF
  rw [bits_putLanes, arr_roundLoop 12 0 _ (by omega), arr_getLanes, List.range_eq_range']

theorem putLanes_length (s : Lanes) : (putLanes s).length = 200 := by simp [putLanes]
theorem keccakF1600_length (st : List Byte) : (keccakF1600 st).length = 200 := putLanes_length _

theorem bits_xorBytes (a b : List Byte) : bits (xorBytes a b) = Spec.xor (bits a) (bits b) := by
  induction a generalizing b with
  | nil => simp [xorBytes, bits_nil, Spec.xor]
  | cons x a ih => cases b with
    | nil => simp [xorBytes, bits_nil, Spec.xor]
    | cons y b =>
      have := ih b
      simp only [xorBytes, Spec.xor, List.zipWith_cons_cons, bits_cons] at this ⊢
      rw [this, List.zipWith_append (by simp)]
      congr 1
      simp [List.range_succ]

theorem bits_zeros (n : Nat) : bits (List.replicate n 0) = List.replicate (8 * n) false := by
  induction n with
  | zero => rfl
  | succ n ih => rw [List.replicate_succ, bits_cons, ih, show 8 * (n + 1) = 8 + 8 * n by omega, List.replicate_append_replicate.symm]; simp [List.range_succ]

theorem bits_take (m : List Byte) (n : Nat) : bits (m.take n) = (bits m).take (8 * n) := by
  by_cases h : n ≤ m.length
  · conv => rhs; rw [← List.take_append_drop n m, bits_append]
    rw [List.take_left' (by rw [bits_length]; simp; omega)]
  · rw [List.take_of_length_le (by omega), List.take_of_length_le (by rw [bits_length]; omega)]

theorem bits_inj {a b : List Byte} (h : bits a = bits b) : a = b := by
  induction a generalizing b with
  | nil => cases b with
    | nil => rfl
    | cons y b => have := congrArg List.length h; rw [bits_length, bits_length] at this; simp at this
  | cons x a ih => cases b with
    | nil => have := congrArg List.length h; rw [bits_length, bits_length] at this; simp at this
    | cons y b =>
      rw [bits_cons, bits_cons] at h
      obtain ⟨h1, h2⟩ := List.append_inj h (by simp)
      rw [ih h2]
      congr 1
      apply BitVec.eq_of_getLsbD_eq
      intro i hi
      exact List.map_inj_left.mp h1 i (List.mem_range.mpr hi)

end Verif.Keccak
