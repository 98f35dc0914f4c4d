import Verif.Gf.Proofs

/-! # C38: GF(2^8) and GF(2^32) arithmetic -/
namespace Verif.Gf
open Verif.Poly2 Verif.Poly2.P2

/-- **C38 (GF(2^8) multiplication).** For every modulus byte, `Multiply` is multiplication of polynomials over GF(2) followed by
remainder by `x^8 + modulus`. -/
theorem gf256_multiply (w : Nat) (hw : 9 ≤ w) (m a b : Byte) : IsRem (X ^ 8 + poly m) 8 (poly a * poly b) (poly (mul256 w m a b)) := by
  rw [mul256_spec hw]; exact pmod_spec (M8 m) _

theorem inv256_mul (w : Nat) (hw : 9 ≤ w) (m : Byte) (hm : IsPrime (M8 m)) (a : Byte) (ha : a ≠ 0) : mul256 w m a (inv256 w m a) = 1 := by
  apply r8_inj (m := m)
  rw [r8_mul hw, inv256_spec hw, ← pow_succ']
  exact Res.pow_card_sub_one hm (r8 m a) (fun h => ha (poly_inj (congrArg Res.val h)))

/-- **C38 (GF(2^8) is a field).** With an irreducible modulus the operations satisfy the field laws, `Divide` undoes `Multiply`, and
the inverse of 0 is 0. -/
theorem gf256_field (w : Nat) (hw : 9 ≤ w) (m : Byte) (hm : IsPrime (modOf 8 (by decide) m)) :
    IsField (0 : Byte) 1 add256 (mul256 w m) (inv256 w m) ∧ inv256 w m 0 = 0 ∧
      ∀ a b, b ≠ 0 → mul256 w m (div256 w m a b) b = a := by
  have assoc : ∀ a b c, mul256 w m (mul256 w m a b) c = mul256 w m a (mul256 w m b c) := fun a b c => by
    apply r8_inj (m := m); simp only [r8_mul hw]; ring
  have comm : ∀ a b, mul256 w m a b = mul256 w m b a := fun a b => by
    apply r8_inj (m := m); simp only [r8_mul hw]; ring
  have mulone : ∀ a, mul256 w m a 1 = a := fun a => by
    apply r8_inj (m := m); rw [r8_mul hw]; exact mul_one (r8 m a)
  refine ⟨⟨?_, ?_, ?_, ?_, assoc, comm, mulone, ?_, inv256_mul w hw m hm, by decide⟩, ?_, ?_⟩
  · exact fun a b c => BitVec.xor_assoc a b c
  · exact fun a b => BitVec.xor_comm a b
  · exact fun a => BitVec.xor_zero
  · exact fun a => BitVec.xor_self
  · intro a b c
    apply poly_inj
    unfold add256
    rw [poly_xor, mul256_spec hw, mul256_spec hw, mul256_spec hw, poly_xor, mul_add, pmod_add]
  · apply r8_inj (m := m)
    rw [inv256_spec hw]
    exact zero_pow (by decide)
  · intro a b hb
    unfold div256
    rw [assoc, comm (inv256 w m b) b, inv256_mul w hw m hm b hb, mulone]

/-- The modulus of SHARK and Square (shark.cpp:29, square.cpp:32) is irreducible. -/
theorem gf256_shark_modulus : IsPrime (modOf 8 (by decide) 0xf5#8) :=
  Certificate.isPrime (t := [92, 0, 2, 36, 6, 198, 44, 164]) ⟨by decide +kernel, by show ∀ i, i < 8 → _; decide +kernel⟩

-- The hypotheses of `gf256_field` are met, and the operations do something.
example : mul256 64 0xf5#8 0x57#8 0x83#8 ≠ 0 ∧ mul256 64 0xf5#8 0x57#8 (inv256 64 0xf5#8 0x57#8) = 1 := by decide +kernel

/-- **C38 (GF(2^32) multiplication).** With or without fast rotations, for every modulus word, `Multiply` is multiplication of
polynomials over GF(2) followed by remainder by `x^32 + modulus`. -/
theorem gf2_32_multiply (fastRotate : Bool) (m a b : BitVec 32) :
    IsRem (X ^ 32 + poly m) 32 (poly a * poly b) (poly (mul32 fastRotate m a b)) := by
  rw [mul32_spec]; exact pmod_spec (M32 m) _

/-- **C38 (GF(2^32) inversion).** With an irreducible modulus, `MultiplicativeInverse` terminates (no loop runs more than 64 rounds)
and returns the inverse; the inverse of 0 is 0. -/
theorem gf2_32_inverse (fastRotate : Bool) (m : BitVec 32) (hm : IsPrime (modOf 32 (by decide) m)) :
    ∃ inv : BitVec 32 → BitVec 32, (∀ fuel, 64 ≤ fuel → ∀ a, inv32 fuel m a = .ok (inv a)) ∧
      IsField (0 : BitVec 32) 1 add32 (mul32 fastRotate m) inv ∧ inv 0 = 0 ∧
      ∀ fuel, 64 ≤ fuel → ∀ a b, b ≠ 0 → ∃ q, div32 fastRotate fuel m a b = .ok q ∧ mul32 fastRotate m q b = a := by
  have ex : ∀ a : BitVec 32, ∃ r, (∀ fuel, 64 ≤ fuel → inv32 fuel m a = .ok r) ∧ (a = 0 → r = 0) ∧
      (a ≠ 0 → pmod (M32 m) (poly r * poly a) = 1) := by
    intro a
    by_cases ha : a = 0
    · subst ha
      exact ⟨0, fun fuel _ => by unfold inv32; rw [if_pos (by decide)], fun _ => rfl, fun h => absurd rfl h⟩
    · obtain ⟨r, e, h⟩ := inv32_spec m hm 64 (Nat.le_refl _) a ha
      refine ⟨r, ?_, fun h => absurd h ha, fun _ => h⟩
      intro fuel hf
      obtain ⟨r', e', h'⟩ := inv32_spec m hm fuel hf a ha
      rw [e']
      have : poly r' = poly r := by
        have t1 : pmod (M32 m) (poly r' * poly a * poly r) = poly r := by
          rw [← pmod_mul_left, h', one_mul, pmod_self _ (poly_lt r)]
        have t2 : pmod (M32 m) (poly r' * poly a * poly r) = poly r' := by
          have : poly r' * poly a * poly r = poly r' * (poly r * poly a) := by ring
          rw [this, ← pmod_mul_right, h, mul_one, pmod_self _ (poly_lt r')]
        rw [← t1, t2]
      rw [poly_inj this]
  choose inv h1 h2 h3 using ex
  have assoc : ∀ a b c, mul32 fastRotate m (mul32 fastRotate m a b) c = mul32 fastRotate m a (mul32 fastRotate m b c) := fun a b c => by
    apply poly_inj; simp only [mul32_spec, pmod_mul_left, pmod_mul_right]; congr 1; ring
  have comm : ∀ a b, mul32 fastRotate m a b = mul32 fastRotate m b a := fun a b => by
    apply poly_inj; simp only [mul32_spec]; congr 1; ring
  have mulone : ∀ a, mul32 fastRotate m a 1 = a := fun a => by
    apply poly_inj; rw [mul32_spec]
    have : poly (1 : BitVec 32) = 1 := rfl
    rw [this, mul_one, pmod_self _ (poly_lt a)]
  have mulinv : ∀ a, a ≠ 0 → mul32 fastRotate m a (inv a) = 1 := fun a ha => by
    apply poly_inj; rw [mul32_spec, mul_comm, h3 a ha]; rfl
  refine ⟨inv, fun fuel hf a => h1 a fuel hf, ⟨?_, ?_, ?_, ?_, assoc, comm, mulone, ?_, mulinv, by decide⟩, h2 0 rfl, ?_⟩
  · exact fun a b c => BitVec.xor_assoc a b c
  · exact fun a b => BitVec.xor_comm a b
  · exact fun a => BitVec.xor_zero
  · exact fun a => BitVec.xor_self
  · intro a b c
    apply poly_inj
    unfold add32
    rw [poly_xor, mul32_spec, mul32_spec, mul32_spec, poly_xor, mul_add, pmod_add]
  · intro fuel hf a b hb
    refine ⟨mul32 fastRotate m a (inv b), ?_, ?_⟩
    · unfold div32; rw [h1 b fuel hf]
    · rw [assoc, comm (inv b) b, mulinv b hb, mulone]

/-- The default modulus (gf2_32.h:20), `x^32 + x^7 + x^3 + x^2 + 1`, is irreducible. -/
theorem gf2_32_default_modulus : IsPrime (modOf 32 (by decide) 0x8D#32) :=
  Certificate.isPrime (t := [1425871460, 3262106980, 3262106982, 596276322, 3262106978, 2537278634, 596276330, 2004248338, 3262106994, 3250443606, 2537278602, 1462372684, 596276266, 3063135876, 2004248466, 2505424958, 3262106738, 1451497976, 3250444118, 2529415882, 2537277578, 1418076124, 1462370636, 3080433092, 596272170, 0, 3063127684, 3306814086, 2004232082, 3115950048, 2505392190, 930490298])
    ⟨by decide +kernel, by show ∀ i, i < 32 → _; decide +kernel⟩

example : inv32 64 0x8D#32 0xDEADBEEF#32 = .ok 0x236CD880#32 := by decide +kernel

/-- The constructor accepts a modulus that is not irreducible; `MultiplicativeInverse` of a zero divisor then never returns. -/
theorem inverse_of_zero_divisor_diverges : ∃ m a : BitVec 32, a ≠ 0 ∧ ∀ fuel, inv32 fuel m a = .error .diverges := by
  refine ⟨0, 2, by decide, ?_⟩
  have hz : ∀ f (v : BitVec 32), alignTo 2#32 f 0#32 v = .error .diverges := by
    intro f
    induction f with
    | zero => exact fun _ => rfl
    | succ f ih => intro v; rw [alignTo, if_pos (by decide)]; exact ih _
  have small : ∀ f, f < 31 → alignTop f 2#32 1#32 = .error .diverges := by decide +kernel
  have big : ∀ f, alignTop (f + 31) 2#32 1#32 = .ok (0x80000000#32, 0x40000000#32) := by
    intro f
    simp [alignTop]
  intro fuel
  unfold inv32
  rw [if_neg (by decide)]
  by_cases h : fuel < 31
  · rw [show (2 : BitVec 32) = 2#32 from rfl, small fuel h]
  · obtain ⟨f, rfl⟩ : ∃ f, fuel = f + 31 := ⟨fuel - 31, by omega⟩
    rw [show (2 : BitVec 32) = 2#32 from rfl, big f]
    simp only
    have : euStep (f + 31) ⟨(0 : BitVec 32) ^^^ 0x80000000#32 <<< 1, 2#32, 0#32 ^^^ 0x40000000#32 <<< 1, 1#32⟩ = .error .diverges := by
      unfold euStep
      rw [if_neg (by decide)]
      have e : (0 : BitVec 32) ^^^ 0x80000000#32 <<< 1 = 0#32 := by decide
      simp only [e, hz]
    rw [show f + 31 = (f + 30) + 1 from rfl, euLoop, if_neg (by decide)]
    rw [show f + 30 + 1 = f + 31 from rfl, this]

end Verif.Gf
