import Verif.Checksum.AdlerProofs

/-! # C37: CRC-32, CRC-32C and Adler-32 equal their definitions for every chunking -/
namespace Verif.Checksum
open Verif.Poly2 Verif.Poly2.P2

theorem crc32_poly : crc32Poly = X ^ 32 + refl 0xEDB88320 := by rw [X_pow]; decide +kernel
theorem crc32c_poly : crc32cPoly = X ^ 32 + refl 0x82F63B78 := by rw [X_pow]; decide +kernel
theorem all_lt {P : Nat → Prop} [DecidablePred P] (n : Nat) (h : (List.range n).all fun i => decide (P i)) : ∀ i, i < n → P i := fun i hi => by
  have := List.all_eq_true.mp h i (List.mem_range.mpr hi); simpa using this

theorem crc32_table : TabOk 0xEDB88320 (crc32Tab .little) := all_lt 256 (by decide +kernel)
theorem crc32c_table : TabOk 0x82F63B78 (crc32cTab .little) := all_lt 256 (by decide +kernel)
theorem crc32_swap : TabSwap (crc32Tab .big) (crc32Tab .little) := all_lt 256 (by decide +kernel)
theorem crc32c_swap : TabSwap (crc32cTab .big) (crc32cTab .little) := all_lt 256 (by decide +kernel)

/-- **C37 (CRC-32).** On a machine of either byte order, for every sequence of `Update` calls (any split, any buffer alignment),
`TruncatedFinal` and `Restart`, each digest is the polynomial-division checksum of the message since the last `TruncatedFinal` or
`Restart`, and sizes above 4 are refused. -/
theorem crc32_history (o : ByteOrder) : ∃ H : List Byte → List Byte, (∀ m, IsCrc crc32Poly m (H m)) ∧
    ∀ ops, run (crc32 o) ops (crc32 o).init = specRun H ops [] := by
  obtain ⟨H, Rep, hc, hH⟩ := crc_computes crc32_table crc32_swap crc32Poly crc32_poly o
  exact ⟨H, hH, fun ops => run_spec hc ops _ [] hc.init⟩

/-- **C37 (CRC-32C).** -/
theorem crc32c_history (o : ByteOrder) : ∃ H : List Byte → List Byte, (∀ m, IsCrc crc32cPoly m (H m)) ∧
    ∀ ops, run (crc32c o) ops (crc32c o).init = specRun H ops [] := by
  obtain ⟨H, Rep, hc, hH⟩ := crc_computes crc32c_table crc32c_swap crc32cPoly crc32c_poly o
  exact ⟨H, hH, fun ops => run_spec hc ops _ [] hc.init⟩

theorem polyOf_lt (l : List Bool) : (polyOf l).bits < 2 ^ l.length := by
  induction l with
  | nil => simp [polyOf]
  | cons b l ih =>
    rw [polyOf_cons]
    apply Nat.xor_lt_two_pow
    · cases b
      · simp [coef]
      · show (1 * X ^ l.length : P2).bits < _
        rw [one_mul, X_pow]
        show 2 ^ l.length < _
        rw [List.length_cons, Nat.pow_succ]; have := Nat.two_pow_pos l.length; omega
    · exact Nat.lt_of_lt_of_le ih (Nat.pow_le_pow_right (by omega) (by simp))

theorem polyOf_inj (l k : List Bool) (hl : l.length = k.length) (h : polyOf l = polyOf k) : l = k := by
  induction l generalizing k with
  | nil => cases k with
    | nil => rfl
    | cons _ _ => simp at hl
  | cons b l ih => cases k with
    | nil => simp at hl
    | cons c k =>
      simp only [List.length_cons, Nat.add_right_cancel_iff] at hl
      have top : ∀ (b : Bool) (l : List Bool), (polyOf (b :: l)).bits.testBit l.length = b := by
        intro b l
        rw [polyOf_cons, add_bits, Nat.testBit_xor, Nat.testBit_lt_two_pow (polyOf_lt l)]
        cases b
        · simp [coef]
        · show (((1 * X ^ l.length : P2).bits.testBit l.length) ^^ false) = true
          rw [one_mul, X_pow]; simp
      have hb : b = c := by rw [← top b l, ← top c k, h, hl]
      subst hb
      rw [polyOf_cons, polyOf_cons, hl] at h
      rw [ih k hl (by linear_combination h)]

theorem messageBits_inj (a b : List Byte) (hl : a.length = b.length) (h : messageBits a = messageBits b) : a = b := by
  induction a generalizing b with
  | nil => cases b with
    | nil => rfl
    | cons _ _ => simp at hl
  | cons x a ih => cases b with
    | nil => simp at hl
    | cons y b =>
      simp only [List.length_cons, Nat.add_right_cancel_iff] at hl
      have e : ∀ (x : Byte) a, messageBits (x :: a) = (List.range 8).map x.getLsbD ++ messageBits a := by intro x a; simp [messageBits]
      rw [e, e] at h
      obtain ⟨h1, h2⟩ := List.append_inj h (by simp)
      rw [ih b hl h2]
      congr 1
      apply BitVec.eq_of_getLsbD_eq
      intro i hi
      have := congrArg (fun l => l[i]?) h1
      simpa [hi] using this

/-- The definition determines the checksum. -/
theorem isCrc_unique (p : P2) (hp : 2 ^ 32 ≤ p.bits ∧ p.bits < 2 ^ 33) (m d e : List Byte) (h1 : IsCrc p m d) (h2 : IsCrc p m e) : d = e := by
  have h := IsRem.unique hp h1.2 h2.2
  have hm := polyOf_inj _ _ (by simp [messageBits_length, h1.1, h2.1]) h
  apply messageBits_inj _ _ (by rw [h1.1, h2.1])
  have := congrArg (List.map (!·)) hm
  simpa [List.map_map, Function.comp_def] using this

/-- **C37 (Adler-32).** With `unsigned long` of 32 bits or more, for every sequence of calls each digest is the two sums modulo
65521 of the message since the last `TruncatedFinal` or `Restart`: no intermediate sum overflows, whatever the length. -/
theorem adler32_history (W : Nat) (hW : 32 ≤ W) (ops : List Op) : run (adler32 W) ops (adler32 W).init = specRun adlerDigest ops [] :=
  run_spec (adler_computes W hW) ops _ [] (adler_computes W hW).init

/-! ## Concrete cases -/

/-- "123456789". -/
def check : List Byte := [0x31, 0x32, 0x33, 0x34, 0x35, 0x36, 0x37, 0x38, 0x39]

-- The check value CBF43926, the message given in two parts at odd and even addresses.
example : run (crc32 .little) [.update 3 (check.take 4), .update 8 (check.drop 4), .final 4] 0xffffffff = [.ok [0x26, 0x39, 0xf4, 0xcb]] := by decide +kernel
example : run (crc32 .big) [.update 2 check, .final 4, .update 1 check, .restart, .update 0 check, .final 2, .final 5] 0xffffffff =
    [.ok [0x26, 0x39, 0xf4, 0xcb], .ok [0x26, 0x39], .error .invalidArgument] := by decide +kernel
example : run (crc32c .little) [.update 0 check, .final 4] 0xffffffff = [.ok [0x83, 0x92, 0x06, 0xe3]] := by decide +kernel
example : (2 : Nat) ^ 32 ≤ crc32Poly.bits ∧ crc32Poly.bits < 2 ^ 33 := by decide
-- Adler-32 of "Wikipedia" is 11E60398.
example : run (adler32 32) [.update 0 [0x57, 0x69, 0x6b], .update 0 [0x69, 0x70, 0x65, 0x64, 0x69, 0x61], .final 4] (1, 0) = [.ok [0x11, 0xe6, 0x03, 0x98]] := by
  decide +kernel
example : (32 : Nat) ≤ 32 := by decide

end Verif.Checksum
