import Verif.Serpent.Model
import Verif.Serpent.Spec
import Verif.Cipher.Rounds

/-!
# Serpent: the macros compute the S-boxes and the linear transformation
-/
namespace Verif.Serpent

open Verif.Cipher
open Spec (Four)

theorem getLsbD_ofBits (f : Nat → Bool) (n i : Nat) (h : i < n) : (Spec.ofBits f n).getLsbD i = f i := by
  induction n with
  | zero => omega
  | succ n ih =>
    rw [Spec.ofBits, BitVec.getLsbD_cons]
    by_cases hi : i = n
    · rw [if_pos hi, hi]
    · rw [if_neg hi]; exact ih (by omega)

/-- Four words. -/
abbrev R4 (w : Nat) := BitVec w × BitVec w × BitVec w × BitVec w

/-- The first four variables in an order. -/
def view {w : Nat} (o : Order w) (s : R5 w) : R4 w := let (a, b, c, d, _) := o.get s; (a, b, c, d)

/-- Bit `i` of four words. -/
def bit4 {w : Nat} (i : Nat) (x : R4 w) : R4 1 := (x.1.extractLsb' i 1, x.2.1.extractLsb' i 1, x.2.2.1.extractLsb' i 1, x.2.2.2.extractLsb' i 1)

theorem bit4_ext {w : Nat} {x y : R4 w} (h : ∀ i, i < w → bit4 i x = bit4 i y) : x = y := by
  have hb : ∀ {a b : BitVec w}, (∀ i, i < w → a.extractLsb' i 1 = b.extractLsb' i 1) → a = b := by
    intro a b h
    apply BitVec.eq_of_getLsbD_eq
    intro i hi
    have := congrArg (fun x => x.getLsbD 0) (h i hi)
    simpa using this
  obtain ⟨x0, x1, x2, x3⟩ := x
  obtain ⟨y0, y1, y2, y3⟩ := y
  have h0 := hb fun i hi => congrArg (·.1) (h i hi)
  have h1 := hb fun i hi => congrArg (·.2.1) (h i hi)
  have h2 := hb fun i hi => congrArg (·.2.2.1) (h i hi)
  have h3 := hb fun i hi => congrArg (·.2.2.2) (h i hi)
  exact Prod.ext h0 (Prod.ext h1 (Prod.ext h2 h3))

theorem extract_not {w : Nat} (x : BitVec w) (i : Nat) (h : i < w) : (~~~x).extractLsb' i 1 = ~~~(x.extractLsb' i 1) := by
  apply BitVec.eq_of_getLsbD_eq
  intro j hj
  have : j = 0 := by omega
  subst this
  simp [h]

section
variable {w : Nat}

/-- S-box macro 0: from one order to the next. -/
def sl0 (x : R4 w) : R4 w := view afterS0 (on' beforeS0 s0 (beforeS0.put (x.1, x.2.1, x.2.2.1, x.2.2.2, 0)))

theorem view_s0 (s : R5 w) : view afterS0 (on' beforeS0 s0 s) = sl0 (view beforeS0 s) := rfl

theorem bit_s0 (i : Nat) (hi : i < w) (x : R4 w) : bit4 i (sl0 x) = sl0 (bit4 i x) := by
  simp only [sl0, view, on', on, beforeS0, afterS0, s0, bit4, BitVec.extractLsb'_xor, BitVec.extractLsb'_and, BitVec.extractLsb'_or, extract_not _ i hi]

/-- S-box macro 1: from one order to the next. -/
def sl1 (x : R4 w) : R4 w := view afterS1 (on' afterS0 s1 (afterS0.put (x.1, x.2.1, x.2.2.1, x.2.2.2, 0)))

theorem view_s1 (s : R5 w) : view afterS1 (on' afterS0 s1 s) = sl1 (view afterS0 s) := rfl

theorem bit_s1 (i : Nat) (hi : i < w) (x : R4 w) : bit4 i (sl1 x) = sl1 (bit4 i x) := by
  simp only [sl1, view, on', on, afterS0, afterS1, s1, bit4, BitVec.extractLsb'_xor, BitVec.extractLsb'_and, BitVec.extractLsb'_or, extract_not _ i hi]

/-- S-box macro 2: from one order to the next. -/
def sl2 (x : R4 w) : R4 w := view afterS2 (on' afterS1 s2 (afterS1.put (x.1, x.2.1, x.2.2.1, x.2.2.2, 0)))

theorem view_s2 (s : R5 w) : view afterS2 (on' afterS1 s2 s) = sl2 (view afterS1 s) := rfl

theorem bit_s2 (i : Nat) (hi : i < w) (x : R4 w) : bit4 i (sl2 x) = sl2 (bit4 i x) := by
  simp only [sl2, view, on', on, afterS1, afterS2, s2, bit4, BitVec.extractLsb'_xor, BitVec.extractLsb'_and, BitVec.extractLsb'_or, extract_not _ i hi]

/-- S-box macro 3: from one order to the next. -/
def sl3 (x : R4 w) : R4 w := view afterS3 (on' afterS2 s3 (afterS2.put (x.1, x.2.1, x.2.2.1, x.2.2.2, 0)))

theorem view_s3 (s : R5 w) : view afterS3 (on' afterS2 s3 s) = sl3 (view afterS2 s) := rfl

theorem bit_s3 (i : Nat) (hi : i < w) (x : R4 w) : bit4 i (sl3 x) = sl3 (bit4 i x) := by
  simp only [sl3, view, on', on, afterS2, afterS3, s3, bit4, BitVec.extractLsb'_xor, BitVec.extractLsb'_and, BitVec.extractLsb'_or, extract_not _ i hi]

/-- S-box macro 4: from one order to the next. -/
def sl4 (x : R4 w) : R4 w := view afterS4 (on' afterS3 s4 (afterS3.put (x.1, x.2.1, x.2.2.1, x.2.2.2, 0)))

theorem view_s4 (s : R5 w) : view afterS4 (on' afterS3 s4 s) = sl4 (view afterS3 s) := rfl

theorem bit_s4 (i : Nat) (hi : i < w) (x : R4 w) : bit4 i (sl4 x) = sl4 (bit4 i x) := by
  simp only [sl4, view, on', on, afterS3, afterS4, s4, bit4, BitVec.extractLsb'_xor, BitVec.extractLsb'_and, BitVec.extractLsb'_or, extract_not _ i hi]

/-- S-box macro 5: from one order to the next. -/
def sl5 (x : R4 w) : R4 w := view afterS5 (on' afterS4 s5 (afterS4.put (x.1, x.2.1, x.2.2.1, x.2.2.2, 0)))

theorem view_s5 (s : R5 w) : view afterS5 (on' afterS4 s5 s) = sl5 (view afterS4 s) := rfl

theorem bit_s5 (i : Nat) (hi : i < w) (x : R4 w) : bit4 i (sl5 x) = sl5 (bit4 i x) := by
  simp only [sl5, view, on', on, afterS4, afterS5, s5, bit4, BitVec.extractLsb'_xor, BitVec.extractLsb'_and, BitVec.extractLsb'_or, extract_not _ i hi]

/-- S-box macro 6: from one order to the next. -/
def sl6 (x : R4 w) : R4 w := view afterS6 (on' afterS5 s6 (afterS5.put (x.1, x.2.1, x.2.2.1, x.2.2.2, 0)))

theorem view_s6 (s : R5 w) : view afterS6 (on' afterS5 s6 s) = sl6 (view afterS5 s) := rfl

theorem bit_s6 (i : Nat) (hi : i < w) (x : R4 w) : bit4 i (sl6 x) = sl6 (bit4 i x) := by
  simp only [sl6, view, on', on, afterS5, afterS6, s6, bit4, BitVec.extractLsb'_xor, BitVec.extractLsb'_and, BitVec.extractLsb'_or, extract_not _ i hi]

/-- S-box macro 7: from one order to the next. -/
def sl7 (x : R4 w) : R4 w := view afterS7 (on' afterS6 s7 (afterS6.put (x.1, x.2.1, x.2.2.1, x.2.2.2, 0)))

theorem view_s7 (s : R5 w) : view afterS7 (on' afterS6 s7 s) = sl7 (view afterS6 s) := rfl

theorem bit_s7 (i : Nat) (hi : i < w) (x : R4 w) : bit4 i (sl7 x) = sl7 (bit4 i x) := by
  simp only [sl7, view, on', on, afterS6, afterS7, s7, bit4, BitVec.extractLsb'_xor, BitVec.extractLsb'_and, BitVec.extractLsb'_or, extract_not _ i hi]

/-- Inverse S-box macro 7. -/
def il7 (x : R4 w) : R4 w := view afterI7 (on' beforeI7 i7 (beforeI7.put (x.1, x.2.1, x.2.2.1, x.2.2.2, 0)))

theorem view_i7 (s : R5 w) : view afterI7 (on' beforeI7 i7 s) = il7 (view beforeI7 s) := rfl

theorem bit_i7 (i : Nat) (hi : i < w) (x : R4 w) : bit4 i (il7 x) = il7 (bit4 i x) := by
  simp only [il7, view, on', on, beforeI7, afterI7, i7, bit4, BitVec.extractLsb'_xor, BitVec.extractLsb'_and, BitVec.extractLsb'_or, extract_not _ i hi]

theorem cancel7 : Cancel (sl7 (w := w)) il7 := by
  have h : ∀ a b c d : BitVec 1, il7 (sl7 (a, b, c, d)) = (a, b, c, d) ∧ sl7 (il7 (a, b, c, d)) = (a, b, c, d) := by decide +kernel
  constructor
  · intro x
    exact bit4_ext fun i hi => by rw [bit_i7 i hi, bit_s7 i hi]; exact (h _ _ _ _).1
  · intro x
    exact bit4_ext fun i hi => by rw [bit_s7 i hi, bit_i7 i hi]; exact (h _ _ _ _).2

/-- Inverse S-box macro 6. -/
def il6 (x : R4 w) : R4 w := view afterI6 (on' afterI7 i6 (afterI7.put (x.1, x.2.1, x.2.2.1, x.2.2.2, 0)))

theorem view_i6 (s : R5 w) : view afterI6 (on' afterI7 i6 s) = il6 (view afterI7 s) := rfl

theorem bit_i6 (i : Nat) (hi : i < w) (x : R4 w) : bit4 i (il6 x) = il6 (bit4 i x) := by
  simp only [il6, view, on', on, afterI7, afterI6, i6, bit4, BitVec.extractLsb'_xor, BitVec.extractLsb'_and, BitVec.extractLsb'_or, extract_not _ i hi]

theorem cancel6 : Cancel (sl6 (w := w)) il6 := by
  have h : ∀ a b c d : BitVec 1, il6 (sl6 (a, b, c, d)) = (a, b, c, d) ∧ sl6 (il6 (a, b, c, d)) = (a, b, c, d) := by decide +kernel
  constructor
  · intro x
    exact bit4_ext fun i hi => by rw [bit_i6 i hi, bit_s6 i hi]; exact (h _ _ _ _).1
  · intro x
    exact bit4_ext fun i hi => by rw [bit_s6 i hi, bit_i6 i hi]; exact (h _ _ _ _).2

/-- Inverse S-box macro 5. -/
def il5 (x : R4 w) : R4 w := view afterI5 (on' afterI6 i5 (afterI6.put (x.1, x.2.1, x.2.2.1, x.2.2.2, 0)))

theorem view_i5 (s : R5 w) : view afterI5 (on' afterI6 i5 s) = il5 (view afterI6 s) := rfl

theorem bit_i5 (i : Nat) (hi : i < w) (x : R4 w) : bit4 i (il5 x) = il5 (bit4 i x) := by
  simp only [il5, view, on', on, afterI6, afterI5, i5, bit4, BitVec.extractLsb'_xor, BitVec.extractLsb'_and, BitVec.extractLsb'_or, extract_not _ i hi]

theorem cancel5 : Cancel (sl5 (w := w)) il5 := by
  have h : ∀ a b c d : BitVec 1, il5 (sl5 (a, b, c, d)) = (a, b, c, d) ∧ sl5 (il5 (a, b, c, d)) = (a, b, c, d) := by decide +kernel
  constructor
  · intro x
    exact bit4_ext fun i hi => by rw [bit_i5 i hi, bit_s5 i hi]; exact (h _ _ _ _).1
  · intro x
    exact bit4_ext fun i hi => by rw [bit_s5 i hi, bit_i5 i hi]; exact (h _ _ _ _).2

/-- Inverse S-box macro 4. -/
def il4 (x : R4 w) : R4 w := view afterI4 (on' afterI5 i4 (afterI5.put (x.1, x.2.1, x.2.2.1, x.2.2.2, 0)))

theorem view_i4 (s : R5 w) : view afterI4 (on' afterI5 i4 s) = il4 (view afterI5 s) := rfl

theorem bit_i4 (i : Nat) (hi : i < w) (x : R4 w) : bit4 i (il4 x) = il4 (bit4 i x) := by
  simp only [il4, view, on', on, afterI5, afterI4, i4, bit4, BitVec.extractLsb'_xor, BitVec.extractLsb'_and, BitVec.extractLsb'_or, extract_not _ i hi]

theorem cancel4 : Cancel (sl4 (w := w)) il4 := by
  have h : ∀ a b c d : BitVec 1, il4 (sl4 (a, b, c, d)) = (a, b, c, d) ∧ sl4 (il4 (a, b, c, d)) = (a, b, c, d) := by decide +kernel
  constructor
  · intro x
    exact bit4_ext fun i hi => by rw [bit_i4 i hi, bit_s4 i hi]; exact (h _ _ _ _).1
  · intro x
    exact bit4_ext fun i hi => by rw [bit_s4 i hi, bit_i4 i hi]; exact (h _ _ _ _).2

/-- Inverse S-box macro 3. -/
def il3 (x : R4 w) : R4 w := view afterI3 (on' afterI4 i3 (afterI4.put (x.1, x.2.1, x.2.2.1, x.2.2.2, 0)))

theorem view_i3 (s : R5 w) : view afterI3 (on' afterI4 i3 s) = il3 (view afterI4 s) := rfl

theorem bit_i3 (i : Nat) (hi : i < w) (x : R4 w) : bit4 i (il3 x) = il3 (bit4 i x) := by
  simp only [il3, view, on', on, afterI4, afterI3, i3, bit4, BitVec.extractLsb'_xor, BitVec.extractLsb'_and, BitVec.extractLsb'_or, extract_not _ i hi]

theorem cancel3 : Cancel (sl3 (w := w)) il3 := by
  have h : ∀ a b c d : BitVec 1, il3 (sl3 (a, b, c, d)) = (a, b, c, d) ∧ sl3 (il3 (a, b, c, d)) = (a, b, c, d) := by decide +kernel
  constructor
  · intro x
    exact bit4_ext fun i hi => by rw [bit_i3 i hi, bit_s3 i hi]; exact (h _ _ _ _).1
  · intro x
    exact bit4_ext fun i hi => by rw [bit_s3 i hi, bit_i3 i hi]; exact (h _ _ _ _).2

/-- Inverse S-box macro 2. -/
def il2 (x : R4 w) : R4 w := view afterI2 (on' afterI3 i2 (afterI3.put (x.1, x.2.1, x.2.2.1, x.2.2.2, 0)))

theorem view_i2 (s : R5 w) : view afterI2 (on' afterI3 i2 s) = il2 (view afterI3 s) := rfl

theorem bit_i2 (i : Nat) (hi : i < w) (x : R4 w) : bit4 i (il2 x) = il2 (bit4 i x) := by
  simp only [il2, view, on', on, afterI3, afterI2, i2, bit4, BitVec.extractLsb'_xor, BitVec.extractLsb'_and, BitVec.extractLsb'_or, extract_not _ i hi]

theorem cancel2 : Cancel (sl2 (w := w)) il2 := by
  have h : ∀ a b c d : BitVec 1, il2 (sl2 (a, b, c, d)) = (a, b, c, d) ∧ sl2 (il2 (a, b, c, d)) = (a, b, c, d) := by decide +kernel
  constructor
  · intro x
    exact bit4_ext fun i hi => by rw [bit_i2 i hi, bit_s2 i hi]; exact (h _ _ _ _).1
  · intro x
    exact bit4_ext fun i hi => by rw [bit_s2 i hi, bit_i2 i hi]; exact (h _ _ _ _).2

/-- Inverse S-box macro 1. -/
def il1 (x : R4 w) : R4 w := view afterI1 (on' afterI2 i1 (afterI2.put (x.1, x.2.1, x.2.2.1, x.2.2.2, 0)))

theorem view_i1 (s : R5 w) : view afterI1 (on' afterI2 i1 s) = il1 (view afterI2 s) := rfl

theorem bit_i1 (i : Nat) (hi : i < w) (x : R4 w) : bit4 i (il1 x) = il1 (bit4 i x) := by
  simp only [il1, view, on', on, afterI2, afterI1, i1, bit4, BitVec.extractLsb'_xor, BitVec.extractLsb'_and, BitVec.extractLsb'_or, extract_not _ i hi]

theorem cancel1 : Cancel (sl1 (w := w)) il1 := by
  have h : ∀ a b c d : BitVec 1, il1 (sl1 (a, b, c, d)) = (a, b, c, d) ∧ sl1 (il1 (a, b, c, d)) = (a, b, c, d) := by decide +kernel
  constructor
  · intro x
    exact bit4_ext fun i hi => by rw [bit_i1 i hi, bit_s1 i hi]; exact (h _ _ _ _).1
  · intro x
    exact bit4_ext fun i hi => by rw [bit_s1 i hi, bit_i1 i hi]; exact (h _ _ _ _).2

/-- Inverse S-box macro 0. -/
def il0 (x : R4 w) : R4 w := view afterI0 (on' afterI1 i0 (afterI1.put (x.1, x.2.1, x.2.2.1, x.2.2.2, 0)))

theorem view_i0 (s : R5 w) : view afterI0 (on' afterI1 i0 s) = il0 (view afterI1 s) := rfl

theorem bit_i0 (i : Nat) (hi : i < w) (x : R4 w) : bit4 i (il0 x) = il0 (bit4 i x) := by
  simp only [il0, view, on', on, afterI1, afterI0, i0, bit4, BitVec.extractLsb'_xor, BitVec.extractLsb'_and, BitVec.extractLsb'_or, extract_not _ i hi]

theorem cancel0 : Cancel (sl0 (w := w)) il0 := by
  have h : ∀ a b c d : BitVec 1, il0 (sl0 (a, b, c, d)) = (a, b, c, d) ∧ sl0 (il0 (a, b, c, d)) = (a, b, c, d) := by decide +kernel
  constructor
  · intro x
    exact bit4_ext fun i hi => by rw [bit_i0 i hi, bit_s0 i hi]; exact (h _ _ _ _).1
  · intro x
    exact bit4_ext fun i hi => by rw [bit_s0 i hi, bit_i0 i hi]; exact (h _ _ _ _).2

end

/-! ## The S-boxes -/

/-- Four words in the specification. -/
def four (x : R4 32) : Four := ⟨x.1, x.2.1, x.2.2.1, x.2.2.2⟩

/-- The S-box of the specification on single bits. -/
def tab (j : Nat) (x : R4 1) : R4 1 :=
  let n := (x.1.getLsbD 0).toNat + 2 * (x.2.1.getLsbD 0).toNat + 4 * (x.2.2.1.getLsbD 0).toNat + 8 * (x.2.2.2.getLsbD 0).toNat
  let o (t : Nat) : BitVec 1 := BitVec.ofBool (((Spec.box j).getD n 0).testBit t)
  (o 0, o 1, o 2, o 3)

theorem sub_eq (j : Nat) (f : R4 32 → R4 32) (g : R4 1 → R4 1) (hf : ∀ i, i < 32 → ∀ x, bit4 i (f x) = g (bit4 i x)) (hg : ∀ a b c d : BitVec 1, g (a, b, c, d) = tab j (a, b, c, d)) (x : R4 32) :
    four (f x) = Spec.sub j (four x) := by
  have hb : ∀ (a : BitVec 32) (i : Nat), (a.extractLsb' i 1).getLsbD 0 = a.getLsbD i := by intro a i; simp
  have ho : ∀ b : Bool, (BitVec.ofBool b).getLsbD 0 = b := by decide
  have key : ∀ i, i < 32 → bit4 i (f x) = tab j (bit4 i x) := fun i hi => by rw [hf i hi, show bit4 i x = ((bit4 i x).1, (bit4 i x).2.1, (bit4 i x).2.2.1, (bit4 i x).2.2.2) from rfl, hg]
  have hw : ∀ (t : Nat) (a : BitVec 32), (∀ i, i < 32 → a.extractLsb' i 1 = BitVec.ofBool (((Spec.box j).getD (Spec.nibble (four x) i) 0).testBit t)) →
      a = Spec.ofBits (fun i => ((Spec.box j).getD (Spec.nibble (four x) i) 0).testBit t) 32 := by
    intro t a h
    apply BitVec.eq_of_getLsbD_eq
    intro i hi
    rw [getLsbD_ofBits _ _ _ hi, ← hb a i, h i hi, ho]
  have hn : ∀ i, (((bit4 i x).1.getLsbD 0).toNat + 2 * ((bit4 i x).2.1.getLsbD 0).toNat + 4 * ((bit4 i x).2.2.1.getLsbD 0).toNat + 8 * ((bit4 i x).2.2.2.getLsbD 0).toNat) = Spec.nibble (four x) i := by
    intro i
    simp only [bit4, hb]
    rfl
  unfold tab at key
  simp only [hn] at key
  unfold four Spec.sub
  congr 1
  · exact hw 0 _ fun i hi => congrArg (·.1) (key i hi)
  · exact hw 1 _ fun i hi => congrArg (·.2.1) (key i hi)
  · exact hw 2 _ fun i hi => congrArg (·.2.2.1) (key i hi)
  · exact hw 3 _ fun i hi => congrArg (·.2.2.2) (key i hi)

theorem sl0_spec (x : R4 32) : four (sl0 x) = Spec.sub 0 (four x) := sub_eq 0 sl0 sl0 (fun i hi x => bit_s0 i hi x) (by decide +kernel) x
theorem sl1_spec (x : R4 32) : four (sl1 x) = Spec.sub 1 (four x) := sub_eq 1 sl1 sl1 (fun i hi x => bit_s1 i hi x) (by decide +kernel) x
theorem sl2_spec (x : R4 32) : four (sl2 x) = Spec.sub 2 (four x) := sub_eq 2 sl2 sl2 (fun i hi x => bit_s2 i hi x) (by decide +kernel) x
theorem sl3_spec (x : R4 32) : four (sl3 x) = Spec.sub 3 (four x) := sub_eq 3 sl3 sl3 (fun i hi x => bit_s3 i hi x) (by decide +kernel) x
theorem sl4_spec (x : R4 32) : four (sl4 x) = Spec.sub 4 (four x) := sub_eq 4 sl4 sl4 (fun i hi x => bit_s4 i hi x) (by decide +kernel) x
theorem sl5_spec (x : R4 32) : four (sl5 x) = Spec.sub 5 (four x) := sub_eq 5 sl5 sl5 (fun i hi x => bit_s5 i hi x) (by decide +kernel) x
theorem sl6_spec (x : R4 32) : four (sl6 x) = Spec.sub 6 (four x) := sub_eq 6 sl6 sl6 (fun i hi x => bit_s6 i hi x) (by decide +kernel) x
theorem sl7_spec (x : R4 32) : four (sl7 x) = Spec.sub 7 (four x) := sub_eq 7 sl7 sl7 (fun i hi x => bit_s7 i hi x) (by decide +kernel) x

/-! ## The linear transformation -/

def lt4 (x : R4 32) : R4 32 := view beforeS0 (lt (x.1, x.2.1, x.2.2.1, x.2.2.2, 0))
def ilt4 (x : R4 32) : R4 32 := view beforeS0 (ilt (x.1, x.2.1, x.2.2.1, x.2.2.2, 0))
def kx4 (k : List W32) (i : Nat) (x : R4 32) : R4 32 := (x.1 ^^^ wd k i, x.2.1 ^^^ wd k (i + 1), x.2.2.1 ^^^ wd k (i + 2), x.2.2.2 ^^^ wd k (i + 3))

theorem lt4_spec (x : R4 32) : four (lt4 x) = Spec.linear (four x) := by
  simp only [lt4, lt, view, beforeS0, four, Spec.linear, rotl_eq]

theorem lt_cancel : Cancel lt4 ilt4 := by
  have e1 : ∀ x y z : W32, x ^^^ (y ^^^ z) = x ^^^ y ^^^ z := fun x y z => (BitVec.xor_assoc x y z).symm
  have e2 : ∀ x y z : W32, x ^^^ y ^^^ z ^^^ y ^^^ z = x := by
    intro x y z
    rw [BitVec.xor_assoc (x ^^^ y) z y, BitVec.xor_comm z y, ← BitVec.xor_assoc, xor_xor_cancel, xor_xor_cancel]
  constructor
  · rintro ⟨a, b, c, d⟩
    simp only [lt4, ilt4, lt, ilt, view, beforeS0, rotr_rotl, e1, e2]
  · rintro ⟨a, b, c, d⟩
    simp only [lt4, ilt4, lt, ilt, view, beforeS0, rotl_rotr]
    have hp : rotr a 5 ^^^ (b ^^^ d) ^^^ b ^^^ d = rotr a 5 := by rw [e1, e2]
    have hq : rotr c 22 ^^^ (d ^^^ b <<< 7) ^^^ d ^^^ b <<< 7 = rotr c 22 := by rw [e1, e2]
    generalize rotr a 5 ^^^ (b ^^^ d) = p at *
    generalize rotr c 22 ^^^ (d ^^^ b <<< 7) = q at *
    simp only [e1, e2, rotl_rotr, hp, hq]

/-! ## Orders -/

section
variable {w : Nat}

/-- An order whose `put` undoes its `get`. -/
def Order.Good (o : Order w) : Prop := ∀ x, o.get (o.put x) = x

theorem beforeS0_good : (beforeS0 (w := w)).Good := fun _ => rfl
theorem afterS0_good : (afterS0 (w := w)).Good := fun _ => rfl
theorem afterS1_good : (afterS1 (w := w)).Good := fun _ => rfl
theorem afterS2_good : (afterS2 (w := w)).Good := fun _ => rfl
theorem afterS3_good : (afterS3 (w := w)).Good := fun _ => rfl
theorem afterS4_good : (afterS4 (w := w)).Good := fun _ => rfl
theorem afterS5_good : (afterS5 (w := w)).Good := fun _ => rfl
theorem afterS6_good : (afterS6 (w := w)).Good := fun _ => rfl
theorem afterS7_good : (afterS7 (w := w)).Good := fun _ => rfl
theorem beforeI7_good : (beforeI7 (w := w)).Good := fun _ => rfl
theorem afterI7_good : (afterI7 (w := w)).Good := fun _ => rfl
theorem afterI6_good : (afterI6 (w := w)).Good := fun _ => rfl
theorem afterI5_good : (afterI5 (w := w)).Good := fun _ => rfl
theorem afterI4_good : (afterI4 (w := w)).Good := fun _ => rfl
theorem afterI3_good : (afterI3 (w := w)).Good := fun _ => rfl
theorem afterI2_good : (afterI2 (w := w)).Good := fun _ => rfl
theorem afterI1_good : (afterI1 (w := w)).Good := fun _ => rfl
theorem afterI0_good : (afterI0 (w := w)).Good := fun _ => rfl

end

theorem view_lt {o : Order 32} (h : o.Good) (s : R5 32) : view o (on' o lt s) = lt4 (view o s) := by
  unfold view on' on
  rw [h]
  rfl

theorem view_ilt {o : Order 32} (h : o.Good) (s : R5 32) : view o (on' o ilt s) = ilt4 (view o s) := by
  unfold view on' on
  rw [h]
  rfl

theorem view_kx {o : Order 32} (h : o.Good) (k : List W32) (base : Nat) (s : R5 32) : view o (on o (kx k base) s) = kx4 k (base + 4 * o.n) (view o s) := by
  unfold view on
  rw [h]
  rfl

/-! ## Encryption -/

/-- A round. -/
def sl (j : Nat) : R4 32 → R4 32 :=
  match j % 8 with
  | 0 => sl0 | 1 => sl1 | 2 => sl2 | 3 => sl3 | 4 => sl4 | 5 => sl5 | 6 => sl6 | _ => sl7

def il (j : Nat) : R4 32 → R4 32 :=
  match j % 8 with
  | 0 => il0 | 1 => il1 | 2 => il2 | 3 => il3 | 4 => il4 | 5 => il5 | 6 => il6 | _ => il7

theorem sl_cancel (j : Nat) : Cancel (sl j) (il j) := by
  have := Nat.mod_lt j (by decide : 8 > 0)
  unfold sl il
  generalize j % 8 = m at this
  match m, this with
  | 0, _ => exact cancel0
  | 1, _ => exact cancel1
  | 2, _ => exact cancel2
  | 3, _ => exact cancel3
  | 4, _ => exact cancel4
  | 5, _ => exact cancel5
  | 6, _ => exact cancel6
  | 7, _ => exact cancel7

theorem sl_spec (j : Nat) (x : R4 32) : four (sl j x) = Spec.sub (j % 8) (four x) := by
  have := Nat.mod_lt j (by decide : 8 > 0)
  unfold sl
  generalize j % 8 = m at this
  match m, this with
  | 0, _ => exact sl0_spec x
  | 1, _ => exact sl1_spec x
  | 2, _ => exact sl2_spec x
  | 3, _ => exact sl3_spec x
  | 4, _ => exact sl4_spec x
  | 5, _ => exact sl5_spec x
  | 6, _ => exact sl6_spec x
  | 7, _ => exact sl7_spec x

theorem kx_cancel (k : List W32) (i : Nat) : Cancel (kx4 k i) (kx4 k i) := by
  constructor <;> rintro ⟨a, b, c, d⟩ <;> simp only [kx4, xor_xor_cancel]

/-- Round `r` but for the linear transformation. -/
def half (k : List W32) (r : Nat) (x : R4 32) : R4 32 := sl r (kx4 k (4 * r) x)
/-- Round `r`. -/
def full (k : List W32) (r : Nat) (x : R4 32) : R4 32 := lt4 (half k r x)
def unhalf (k : List W32) (r : Nat) (x : R4 32) : R4 32 := kx4 k (4 * r) (il r x)
def unfull (k : List W32) (r : Nat) (x : R4 32) : R4 32 := unhalf k r (ilt4 x)

theorem half_cancel (k : List W32) (r : Nat) : Cancel (half k r) (unhalf k r) := (kx_cancel k (4 * r)).comp (sl_cancel r)
theorem full_cancel (k : List W32) (r : Nat) : Cancel (full k r) (unfull k r) := (half_cancel k r).comp lt_cancel

theorem view_rounds (k : List W32) (g : Nat) (s : R5 32) :
    view afterS7 (rounds k (32 * g) s) = half k (8 * g + 7) (upto 7 (fun i => full k (8 * g + i)) (view beforeS0 s)) := by
  have hb : ∀ i, 32 * g + 4 * i = 4 * (8 * g + i) := by intro i; omega
  have h0 : sl0 = sl (8 * g + 0) := by unfold sl; rw [show (8 * g + 0) % 8 = 0 by omega]; rfl
  have h1 : sl1 = sl (8 * g + 1) := by unfold sl; rw [show (8 * g + 1) % 8 = 1 by omega]; rfl
  have h2 : sl2 = sl (8 * g + 2) := by unfold sl; rw [show (8 * g + 2) % 8 = 2 by omega]; rfl
  have h3 : sl3 = sl (8 * g + 3) := by unfold sl; rw [show (8 * g + 3) % 8 = 3 by omega]; rfl
  have h4 : sl4 = sl (8 * g + 4) := by unfold sl; rw [show (8 * g + 4) % 8 = 4 by omega]; rfl
  have h5 : sl5 = sl (8 * g + 5) := by unfold sl; rw [show (8 * g + 5) % 8 = 5 by omega]; rfl
  have h6 : sl6 = sl (8 * g + 6) := by unfold sl; rw [show (8 * g + 6) % 8 = 6 by omega]; rfl
  have h7 : sl7 = sl (8 * g + 7) := by unfold sl; rw [show (8 * g + 7) % 8 = 7 by omega]; rfl
  unfold rounds
  rw [view_s7, view_kx afterS6_good, view_lt afterS6_good, view_s6, view_kx afterS5_good, view_lt afterS5_good, view_s5, view_kx afterS4_good, view_lt afterS4_good, view_s4, view_kx afterS3_good, view_lt afterS3_good, view_s3,
    view_kx afterS2_good, view_lt afterS2_good, view_s2, view_kx afterS1_good, view_lt afterS1_good, view_s1, view_kx afterS0_good, view_lt afterS0_good, view_s0, view_kx beforeS0_good]
  show sl7 (kx4 k (32 * g + 4 * 7) (lt4 (sl6 (kx4 k (32 * g + 4 * 6) (lt4 (sl5 (kx4 k (32 * g + 4 * 5) (lt4 (sl4 (kx4 k (32 * g + 4 * 4) (lt4 (sl3 (kx4 k (32 * g + 4 * 3)
    (lt4 (sl2 (kx4 k (32 * g + 4 * 2) (lt4 (sl1 (kx4 k (32 * g + 4 * 1) (lt4 (sl0 (kx4 k (32 * g + 4 * 0) (view beforeS0 s))))))))))))))))))))))) = _
  rw [hb, hb, hb, hb, hb, hb, hb, hb, h0, h1, h2, h3, h4, h5, h6, h7]
  rfl

theorem view_invRounds (k : List W32) (g : Nat) (s : R5 32) :
    view afterI0 (invRounds k (32 * g) s) = downto 7 (fun i => unfull k (8 * g + i)) (unhalf k (8 * g + 7) (view beforeI7 s)) := by
  have hb : ∀ i, 32 * g + 4 * i = 4 * (8 * g + i) := by intro i; omega
  have h0 : il0 = il (8 * g + 0) := by unfold il; rw [show (8 * g + 0) % 8 = 0 by omega]; rfl
  have h1 : il1 = il (8 * g + 1) := by unfold il; rw [show (8 * g + 1) % 8 = 1 by omega]; rfl
  have h2 : il2 = il (8 * g + 2) := by unfold il; rw [show (8 * g + 2) % 8 = 2 by omega]; rfl
  have h3 : il3 = il (8 * g + 3) := by unfold il; rw [show (8 * g + 3) % 8 = 3 by omega]; rfl
  have h4 : il4 = il (8 * g + 4) := by unfold il; rw [show (8 * g + 4) % 8 = 4 by omega]; rfl
  have h5 : il5 = il (8 * g + 5) := by unfold il; rw [show (8 * g + 5) % 8 = 5 by omega]; rfl
  have h6 : il6 = il (8 * g + 6) := by unfold il; rw [show (8 * g + 6) % 8 = 6 by omega]; rfl
  have h7 : il7 = il (8 * g + 7) := by unfold il; rw [show (8 * g + 7) % 8 = 7 by omega]; rfl
  unfold invRounds
  rw [view_kx afterI0_good, view_i0, view_ilt afterI1_good, view_kx afterI1_good, view_i1, view_ilt afterI2_good, view_kx afterI2_good, view_i2, view_ilt afterI3_good, view_kx afterI3_good, view_i3, view_ilt afterI4_good,
    view_kx afterI4_good, view_i4, view_ilt afterI5_good, view_kx afterI5_good, view_i5, view_ilt afterI6_good, view_kx afterI6_good, view_i6, view_ilt afterI7_good, view_kx afterI7_good, view_i7]
  show kx4 k (32 * g + 4 * 0) (il0 (ilt4 (kx4 k (32 * g + 4 * 1) (il1 (ilt4 (kx4 k (32 * g + 4 * 2) (il2 (ilt4 (kx4 k (32 * g + 4 * 3) (il3 (ilt4 (kx4 k (32 * g + 4 * 4) (il4
    (ilt4 (kx4 k (32 * g + 4 * 5) (il5 (ilt4 (kx4 k (32 * g + 4 * 6) (il6 (ilt4 (kx4 k (32 * g + 4 * 7) (il7 (view beforeI7 s))))))))))))))))))))))) = _
  rw [hb, hb, hb, hb, hb, hb, hb, hb, h0, h1, h2, h3, h4, h5, h6, h7]
  rfl

theorem view_shuffle (s : R5 32) : view beforeS0 (shuffle s) = view afterS7 s := rfl
theorem view_unshuffle (s : R5 32) : view beforeI7 (unshuffle s) = view afterI0 s := rfl

/-- All rounds. -/
def whole (k : List W32) (x : R4 32) : R4 32 := kx4 k 128 (half k 31 (upto 31 (full k) x))
def unwhole (k : List W32) (x : R4 32) : R4 32 := downto 31 (unfull k) (unhalf k 31 (kx4 k 128 x))

theorem whole_cancel (k : List W32) : Cancel (whole k) (unwhole k) :=
  ((Cancel.loop fun i _ => full_cancel k i).comp (half_cancel k 31)).comp (kx_cancel k 128)

theorem upto_add {α : Type _} (f : Nat → α → α) (m : Nat) : ∀ (n : Nat) (x : α), upto (m + n) f x = upto n (fun i => f (m + i)) (upto m f x)
  | 0, _ => rfl
  | n + 1, x => by
    rw [← Nat.add_assoc, upto_succ, upto_succ, upto_add f m n]

theorem downto_add {α : Type _} (f : Nat → α → α) (m : Nat) : ∀ (n : Nat) (x : α), downto (m + n) f x = downto m f (downto n (fun i => f (m + i)) x)
  | 0, _ => rfl
  | n + 1, x => by
    rw [← Nat.add_assoc, downto_succ, downto_succ, downto_add f m n]

/-- A group of eight rounds. -/
theorem group (k : List W32) (g : Nat) (x : R4 32) :
    lt4 (half k (8 * g + 7) (upto 7 (fun i => full k (8 * g + i)) (upto (8 * g) (full k) x))) = upto (8 * g + 8) (full k) x := by
  rw [← upto_add, upto_succ (8 * g + 7)]
  rfl

theorem ungroup (k : List W32) (g : Nat) (x : R4 32) :
    downto (8 * g) (unfull k) (downto 7 (fun i => unfull k (8 * g + i)) (unhalf k (8 * g + 7) (ilt4 x))) = downto (8 * g + 8) (unfull k) x := by
  rw [← downto_add, downto_succ (8 * g + 7)]
  rfl

theorem view_encLoop (k : List W32) : ∀ (n g : Nat) (s : R5 32) (x : R4 32), view beforeS0 s = upto (8 * g) (full k) x →
    view afterS7 (encLoop k n (32 * g) s) = half k (8 * (g + n) + 7) (upto (8 * (g + n) + 7) (full k) x)
  | 0, g, s, x, h => by
    unfold encLoop
    rw [view_rounds, h, ← upto_add]
    rfl
  | n + 1, g, s, x, h => by
    unfold encLoop
    rw [show 32 * g + 32 = 32 * (g + 1) by omega, view_encLoop k n (g + 1) _ x, show g + 1 + n = g + (n + 1) by omega]
    rw [view_lt beforeS0_good, view_shuffle, view_rounds, h, group]
    rfl

theorem view_decLoop (k : List W32) : ∀ (n : Nat) (s : R5 32) ,
    view afterI0 (decLoop k n (32 * n) s) = downto (8 * n + 7) (unfull k) (unhalf k (8 * n + 7) (view beforeI7 s))
  | 0, s => by
    unfold decLoop
    rw [view_invRounds, downto_add]
    rfl
  | n + 1, s => by
    unfold decLoop
    rw [show 32 * (n + 1) - 32 = 32 * n by omega, view_decLoop k n, view_ilt beforeI7_good, view_unshuffle, view_invRounds, downto_add (unfull k) (8 * (n + 1)) 7]
    rw [show 8 * (n + 1) = 8 * n + 7 + 1 by omega, downto_succ (8 * n + 7)]
    rfl

theorem encWords_eq (k : List W32) (e a b c d : W32) :
    encWords k e [a, b, c, d] = [(whole k (a, b, c, d)).1, (whole k (a, b, c, d)).2.1, (whole k (a, b, c, d)).2.2.1, (whole k (a, b, c, d)).2.2.2] := by
  have h : view afterS7 (on afterS7 (kx k 96) (encLoop k 3 (32 * 0) (a, b, c, d, e))) = whole k (a, b, c, d) := by
    rw [view_kx afterS7_good, view_encLoop k 3 0 (a, b, c, d, e) (a, b, c, d) rfl]
    rfl
  rw [← h]
  unfold encWords
  rw [show 32 * 0 = 0 from rfl]
  dsimp only
  generalize on afterS7 (kx k 96) (encLoop k 3 0 (a, b, c, d, e)) = s
  rfl

theorem decWords_eq (k : List W32) (a b c d : W32) :
    decWords k [a, b, c, d] = [(unwhole k (a, b, c, d)).1, (unwhole k (a, b, c, d)).2.1, (unwhole k (a, b, c, d)).2.2.1, (unwhole k (a, b, c, d)).2.2.2] := by
  have h : view afterI0 (decLoop k 3 (32 * 3) (on beforeI7 (kx k 96) (a, b, c, d, 0))) = unwhole k (a, b, c, d) := by
    rw [view_decLoop, view_kx beforeI7_good]
    rfl
  rw [← h]
  unfold decWords
  rw [show 32 * 3 = 96 from rfl]
  dsimp only
  generalize decLoop k 3 96 (on beforeI7 (kx k 96) (a, b, c, d, 0)) = s
  rfl

theorem words_pair (k : List W32) (e : W32) : Pair 4 (encWords k e) (decWords k) := by
  intro l hl
  match l, hl with
  | [a, b, c, d], _ =>
    refine ⟨by rw [encWords_eq]; rfl, ?_, by rw [decWords_eq]; rfl, ?_⟩
    · rw [encWords_eq, decWords_eq]
      rw [show ((whole k (a, b, c, d)).1, (whole k (a, b, c, d)).2.1, (whole k (a, b, c, d)).2.2.1, (whole k (a, b, c, d)).2.2.2) = whole k (a, b, c, d) from rfl, (whole_cancel k).1]
    · rw [decWords_eq, encWords_eq]
      rw [show ((unwhole k (a, b, c, d)).1, (unwhole k (a, b, c, d)).2.1, (unwhole k (a, b, c, d)).2.2.1, (unwhole k (a, b, c, d)).2.2.2) = unwhole k (a, b, c, d) from rfl, (whole_cancel k).2]

end Verif.Serpent
