import Verif.Common

/-!
# Big-endian bit strings (specification vocabulary)

`bitsBE w v` is the `w`-bit big-endian binary expansion of `v`; `ofBits` reads one back.
-/
namespace Verif

/-- The `w` low bits of `v`, most significant first. -/
def bitsBE (w v : Nat) : List Bool := (List.range w).map fun i => v.testBit (w - 1 - i)

/-- The number a big-endian bit string denotes. -/
def ofBits (l : List Bool) : Nat := l.foldl (fun a b => 2 * a + b.toNat) 0

/-- The bit string of a byte string: each byte's eight bits, most significant first. -/
def bytesToBits (bs : List Byte) : List Bool := bs.flatMap fun b => bitsBE 8 b.toNat

@[simp] theorem bitsBE_length (w v : Nat) : (bitsBE w v).length = w := by simp [bitsBE]

theorem bitsBE_getElem (w v i : Nat) (h : i < (bitsBE w v).length) : (bitsBE w v)[i] = v.testBit (w - 1 - i) := by
  simp [bitsBE]

@[simp] theorem bytesToBits_length (bs : List Byte) : (bytesToBits bs).length = 8 * bs.length := by
  induction bs with
  | nil => rfl
  | cons b bs ih => simp [bytesToBits, List.flatMap_cons] at *; omega

theorem bytesToBits_append (a b : List Byte) : bytesToBits (a ++ b) = bytesToBits a ++ bytesToBits b := by
  simp [bytesToBits]

theorem bytesToBits_cons (a : Byte) (b : List Byte) : bytesToBits (a :: b) = bitsBE 8 a.toNat ++ bytesToBits b := by
  simp [bytesToBits]

theorem ofBits_append_foldl (l : List Bool) (a : Nat) :
    l.foldl (fun a b => 2 * a + b.toNat) a = a * 2 ^ l.length + ofBits l := by
  induction l generalizing a with
  | nil => simp [ofBits]
  | cons b l ih =>
    rw [List.foldl_cons, ih]
    have : ofBits (b :: l) = (b.toNat) * 2 ^ l.length + ofBits l := by
      rw [ofBits, List.foldl_cons, ih]; simp
    rw [this, List.length_cons, Nat.pow_succ, Nat.add_mul]
    have e : 2 * a * 2 ^ l.length = a * (2 ^ l.length * 2) := by
      rw [Nat.mul_comm 2 a, Nat.mul_assoc, Nat.mul_comm 2]
    omega

theorem ofBits_append (l m : List Bool) : ofBits (l ++ m) = ofBits l * 2 ^ m.length + ofBits m := by
  rw [ofBits, List.foldl_append, ofBits_append_foldl]; rfl

theorem ofBits_cons (b : Bool) (l : List Bool) : ofBits (b :: l) = b.toNat * 2 ^ l.length + ofBits l := by
  rw [ofBits, List.foldl_cons, ofBits_append_foldl]; simp

theorem ofBits_lt (l : List Bool) : ofBits l < 2 ^ l.length := by
  induction l with
  | nil => simp [ofBits]
  | cons b l ih =>
    rw [ofBits_cons, List.length_cons, Nat.pow_succ]
    cases b <;> simp <;> omega

theorem bitsBE_succ (w v : Nat) : bitsBE (w + 1) v = v.testBit w :: bitsBE w v := by
  apply List.ext_getElem
  · simp
  · intro i h1 h2
    rw [bitsBE_getElem]
    cases i with
    | zero => simp
    | succ i =>
      rw [List.getElem_cons_succ, bitsBE_getElem]
      congr 1; omega

theorem ofBits_bitsBE (w v : Nat) : ofBits (bitsBE w v) = v % 2 ^ w := by
  induction w with
  | zero => simp [bitsBE, ofBits, Nat.mod_one]
  | succ w ih =>
    rw [bitsBE_succ, ofBits_cons, ih, bitsBE_length]
    have h := Nat.testBit_eq_decide_div_mod_eq (x := v) (i := w)
    have h2 : v % 2 ^ (w + 1) = v % 2 ^ w + 2 ^ w * (v / 2 ^ w % 2) := Nat.mod_pow_succ
    rw [h2, h]
    rcases Nat.mod_two_eq_zero_or_one (v / 2 ^ w) with h3 | h3 <;> simp [h3] <;> omega

theorem bitsBE_ofBits (l : List Bool) : bitsBE l.length (ofBits l) = l := by
  induction l with
  | nil => rfl
  | cons b l ih =>
    rw [List.length_cons, bitsBE_succ]
    have hlt := ofBits_lt l
    have h1 : (ofBits (b :: l)).testBit l.length = b := by
      rw [ofBits_cons, Nat.testBit_eq_decide_div_mod_eq]
      rw [Nat.add_comm, Nat.add_mul_div_right _ _ (Nat.two_pow_pos _), Nat.div_eq_of_lt hlt]
      cases b <;> simp
    rw [h1]
    congr 1
    apply List.ext_getElem
    · simp
    · intro i h1 h2
      rw [bitsBE_getElem]
      have h3 : i < (bitsBE l.length (ofBits l)).length := by simpa using h2
      have h4 := bitsBE_getElem l.length (ofBits l) i h3
      have h5 : (bitsBE l.length (ofBits l))[i] = l[i] := by simp [ih]
      rw [← h5, h4, ofBits_cons]
      have e : (b.toNat * 2 ^ l.length + ofBits l) % 2 ^ l.length = ofBits l := by
        rw [Nat.mul_add_mod_self_right, Nat.mod_eq_of_lt hlt]
      have := Nat.testBit_mod_two_pow (b.toNat * 2 ^ l.length + ofBits l) l.length (l.length - 1 - i)
      rw [e] at this
      rw [this]; simp; omega

theorem bitsBE_inj {w a b : Nat} (ha : a < 2 ^ w) (hb : b < 2 ^ w) (h : bitsBE w a = bitsBE w b) : a = b := by
  have := congrArg ofBits h
  rwa [ofBits_bitsBE, ofBits_bitsBE, Nat.mod_eq_of_lt ha, Nat.mod_eq_of_lt hb] at this

theorem bytesToBits_inj {a b : List Byte} (h : bytesToBits a = bytesToBits b) : a = b := by
  induction a generalizing b with
  | nil =>
    have := congrArg List.length h
    simp at this
    exact (List.eq_nil_of_length_eq_zero (by have : 0 = 8 * b.length := by simpa [bytesToBits] using this
                                             omega)).symm
  | cons x a ih =>
    cases b with
    | nil => have := congrArg List.length h; simp at this
    | cons y b =>
      rw [bytesToBits_cons, bytesToBits_cons] at h
      obtain ⟨h1, h2⟩ := List.append_inj h (by simp)
      have : x.toNat = y.toNat := bitsBE_inj x.isLt y.isLt h1
      rw [ih h2, BitVec.eq_of_toNat_eq this]

/-! ### Bit operations on bit strings -/

theorem bitsBE_or (w a b : Nat) : bitsBE w (a ||| b) = List.zipWith (· || ·) (bitsBE w a) (bitsBE w b) := by
  apply List.ext_getElem
  · simp
  · intro i h1 h2; simp [bitsBE, Nat.testBit_or]

theorem bitsBE_zero (w : Nat) : bitsBE w 0 = List.replicate w false := by
  apply List.ext_getElem <;> simp [bitsBE]

theorem bitsBE_shiftRight (w s v : Nat) : bitsBE w (v >>> s) = (bitsBE (w + s) v).take w := by
  apply List.ext_getElem
  · simp
  · intro i h1 h2
    simp only [bitsBE_length, List.length_take] at h1 h2
    rw [bitsBE_getElem, List.getElem_take, bitsBE_getElem, Nat.testBit_shiftRight]
    congr 1; omega

theorem bitsBE_shiftLeft (w s v : Nat) (h : s ≤ w) : bitsBE w (v <<< s) = (bitsBE w v).drop s ++ List.replicate s false := by
  apply List.ext_getElem
  · simp; omega
  · intro i h1 h2
    simp only [bitsBE_length] at h1
    rw [bitsBE_getElem, List.getElem_append]
    split
    · rename_i h3; simp at h3
      rw [List.getElem_drop, bitsBE_getElem, Nat.testBit_shiftLeft]
      have : s ≤ w - 1 - i := by omega
      simp [this]; congr 1; omega
    · rename_i h3; simp at h3
      simp [Nat.testBit_shiftLeft]; omega

theorem bitsBE_widen (w k v : Nat) (h : v < 2 ^ w) : bitsBE (k + w) v = List.replicate k false ++ bitsBE w v := by
  apply List.ext_getElem
  · simp
  · intro i h1 h2
    simp only [bitsBE_length] at h1
    rw [bitsBE_getElem, List.getElem_append]
    split
    · rename_i h3; simp at h3
      simp
      exact Nat.testBit_lt_two_pow (Nat.lt_of_lt_of_le h (Nat.pow_le_pow_right (by omega) (by omega)))
    · rename_i h3; simp at h3
      rw [bitsBE_getElem]; simp; congr 1; omega

theorem bitsBE_take (w k v : Nat) (h : k ≤ w) : (bitsBE w v).drop (w - k) = bitsBE k v := by
  apply List.ext_getElem
  · simp; omega
  · intro i h1 h2
    simp at h1 h2
    rw [List.getElem_drop, bitsBE_getElem, bitsBE_getElem]; congr 1; omega

theorem bitsBE_mod (w v : Nat) : bitsBE w (v % 2 ^ w) = bitsBE w v := by
  apply List.ext_getElem
  · simp
  · intro i h1 h2
    simp at h1
    rw [bitsBE_getElem, bitsBE_getElem, Nat.testBit_mod_two_pow]
    simp; omega

end Verif
