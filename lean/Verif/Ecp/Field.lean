import Mathlib.Algebra.Field.ZMod
import Mathlib.Data.ZMod.Basic
import Verif.Dl.Proofs
import Verif.Ecp.Proofs

/-! # `ModularArithmetic` and `MontgomeryRepresentation` are the field of integers modulo a prime -/
namespace Verif.Ecp

variable {p : Nat} [hp : Fact p.Prime]

theorem invMod_range (a m : Int) (hm : 0 < m) : 0 ≤ Dl.invMod a m ∧ Dl.invMod a m < m := by
  unfold Dl.invMod
  split
  · exact ⟨Int.emod_nonneg _ (by omega), Int.emod_lt_of_pos _ hm⟩
  · omega

theorem cast_invMod (a : Int) : ((Dl.invMod a p : Int) : ZMod p) = (a : ZMod p)⁻¹ := by
  have h0 : (0 : Int) < p := by exact_mod_cast hp.out.pos
  by_cases h : a % p = 0
  · have h1 : (a : ZMod p) = 0 := (ZMod.intCast_zmod_eq_zero_iff_dvd a p).2 (Int.dvd_of_emod_eq_zero h)
    have h2 : Int.gcd a p ≠ 1 := by
      intro e
      have h3 : (p : Int) ∣ (Int.gcd a p : Int) := Int.dvd_coe_gcd (Int.dvd_of_emod_eq_zero h) (dvd_refl _)
      rw [e] at h3
      have h4 : p ∣ 1 := by exact_mod_cast h3
      exact hp.out.one_lt.ne' (Nat.dvd_one.1 h4)
    unfold Dl.invMod
    rw [if_neg h2, h1, inv_zero, Int.cast_zero]
  · have h1 := Dl.mul_invMod a p h0 (Dl.gcd_prime' p hp.out a h)
    have h2 : ((a * Dl.invMod a p : Int) : ZMod p) = ((1 : Int) : ZMod p) := (ZMod.intCast_eq_intCast_iff _ _ p).2 h1
    rw [Int.cast_mul, Int.cast_one] at h2
    exact (inv_eq_of_mul_eq_one_right h2).symm

theorem cast_mod (a : Int) : ((a % (p : Int) : Int) : ZMod p) = a := by
  rw [ZMod.intCast_eq_intCast_iff]; exact Int.mod_modEq a p

theorem cast_inj {x y : Int} (hx : 0 ≤ x ∧ x < p) (hy : 0 ≤ y ∧ y < p) (h : (x : ZMod p) = y) : x = y := by
  rw [ZMod.intCast_eq_intCast_iff] at h
  have : x % p = y % p := h
  rwa [Int.emod_eq_of_lt hx.1 hx.2, Int.emod_eq_of_lt hy.1 hy.2] at this

theorem two_ne (h2 : p ≠ 2) : (2 : ZMod p) ≠ 0 := by
  intro h
  have : ((2 : Nat) : ZMod p) = 0 := by exact_mod_cast h
  rw [ZMod.natCast_eq_zero_iff] at this
  exact h2 ((Nat.prime_dvd_prime_iff_eq hp.out Nat.prime_two).1 this)

theorem half_spec (h2 : p ≠ 2) {x : Int} (hx : 0 ≤ x ∧ x < p) : (0 ≤ halfMod p x ∧ halfMod p x < p) ∧ 2 * ((halfMod p x : Int) : ZMod p) = x := by
  have hodd : (p : Int) % 2 = 1 := by
    have := hp.out.eq_two_or_odd
    omega
  unfold halfMod
  split
  · refine ⟨by omega, ?_⟩
    have : 2 * (x / 2) = x := by omega
    calc 2 * ((x / 2 : Int) : ZMod p) = ((2 * (x / 2) : Int) : ZMod p) := by push_cast; rfl
      _ = x := by rw [this]
  · refine ⟨by omega, ?_⟩
    have : 2 * ((x + p) / 2) = x + p := by omega
    calc 2 * (((x + p) / 2 : Int) : ZMod p) = ((2 * ((x + p) / 2) : Int) : ZMod p) := by push_cast; rfl
      _ = x := by rw [this]; simp

/-- A residue stands for its class. -/
theorem plain_ok (h2 : p ≠ 2) : FOk (plain p) (fun x => (x : ZMod p)) := by
  have h0 : (0 : Int) < p := by exact_mod_cast hp.out.pos
  have hr : ∀ z : Int, 0 ≤ z % (p : Int) ∧ z % (p : Int) < p := fun z => ⟨Int.emod_nonneg _ (by omega), Int.emod_lt_of_pos _ h0⟩
  have h1 : (1 : Int) < p := by exact_mod_cast hp.out.one_lt
  exact {
    pos := h0
    inj := fun hx hy h => cast_inj hx hy h
    zero := Int.cast_zero
    two := two_ne h2
    add := fun {x y} _ _ => ⟨hr (x + y), by show ((((x + y) % (p : Int) : Int)) : ZMod p) = _; rw [cast_mod]; push_cast; rfl⟩
    sub := fun {x y} _ _ => ⟨hr (x - y), by show ((((x - y) % (p : Int) : Int)) : ZMod p) = _; rw [cast_mod]; push_cast; rfl⟩
    mul := fun {x y} _ _ => ⟨hr (x * y), by show ((((x * y) % (p : Int) : Int)) : ZMod p) = _; rw [cast_mod]; push_cast; rfl⟩
    sq := fun {x} _ => ⟨hr (x * x), by show ((((x * x) % (p : Int) : Int)) : ZMod p) = _; rw [cast_mod]; push_cast; ring⟩
    dbl := fun {x} _ => ⟨hr (x + x), by show ((((x + x) % (p : Int) : Int)) : ZMod p) = _; rw [cast_mod]; push_cast; ring⟩
    neg := fun {x} _ => ⟨hr (-x), by show ((((-x) % (p : Int) : Int)) : ZMod p) = _; rw [cast_mod]; push_cast; rfl⟩
    half := fun hx => half_spec h2 hx
    inv := fun {x} _ => ⟨invMod_range x p h0, cast_invMod x⟩
    one := ⟨⟨Int.one_nonneg, h1⟩, Int.cast_one⟩ }

/-- A residue in Montgomery representation stands for its class divided by `R`. -/
theorem mont_ok (h2 : p ≠ 2) {R : Int} (hR : (R : ZMod p) ≠ 0) : FOk (mont R p) (fun x => (x : ZMod p) * (R : ZMod p)⁻¹) := by
  have h0 : (0 : Int) < p := by exact_mod_cast hp.out.pos
  have hr : ∀ z : Int, 0 ≤ z % (p : Int) ∧ z % (p : Int) < p := fun z => ⟨Int.emod_nonneg _ (by omega), Int.emod_lt_of_pos _ h0⟩
  have hRi : (R : ZMod p)⁻¹ ≠ 0 := inv_ne_zero hR
  exact {
    pos := h0
    inj := fun hx hy h => cast_inj hx hy (mul_right_cancel₀ hRi h)
    zero := by simp
    two := two_ne h2
    add := fun {x y} _ _ => ⟨hr (x + y), by show ((((x + y) % (p : Int) : Int)) : ZMod p) * _ = _; rw [cast_mod]; push_cast; ring⟩
    sub := fun {x y} _ _ => ⟨hr (x - y), by show ((((x - y) % (p : Int) : Int)) : ZMod p) * _ = _; rw [cast_mod]; push_cast; ring⟩
    mul := fun {x y} _ _ => ⟨hr _, by
      show (((x * y * Dl.invMod R p % (p : Int) : Int)) : ZMod p) * _ = _; rw [cast_mod]; push_cast; rw [cast_invMod]; ring⟩
    sq := fun {x} _ => ⟨hr _, by
      show (((x * x * Dl.invMod R p % (p : Int) : Int)) : ZMod p) * _ = _; rw [cast_mod]; push_cast; rw [cast_invMod]; ring⟩
    dbl := fun {x} _ => ⟨hr (x + x), by show ((((x + x) % (p : Int) : Int)) : ZMod p) * _ = _; rw [cast_mod]; push_cast; ring⟩
    neg := fun {x} _ => ⟨hr (-x), by show ((((-x) % (p : Int) : Int)) : ZMod p) * _ = _; rw [cast_mod]; push_cast; ring⟩
    half := fun hx => ⟨(half_spec h2 hx).1, by rw [← mul_assoc]; exact congrArg (· * (R : ZMod p)⁻¹) (half_spec h2 hx).2⟩
    inv := fun {x} _ => ⟨hr _, by
      show (((Dl.invMod x p * R * R % (p : Int) : Int)) : ZMod p) * _ = _
      rw [cast_mod]; push_cast; rw [cast_invMod, mul_inv, inv_inv]
      field_simp⟩
    one := ⟨hr R, by show (((R % (p : Int) : Int)) : ZMod p) * _ = 1; rw [cast_mod]; exact mul_inv_cancel₀ hR⟩ }

theorem convertIn_spec {R : Int} (hR : (R : ZMod p) ≠ 0) (x : Int) :
    (0 ≤ convertIn R p x ∧ convertIn R p x < p) ∧ ((convertIn R p x : Int) : ZMod p) * (R : ZMod p)⁻¹ = x := by
  have h0 : (0 : Int) < p := by exact_mod_cast hp.out.pos
  refine ⟨⟨Int.emod_nonneg _ (by omega), Int.emod_lt_of_pos _ h0⟩, ?_⟩
  unfold convertIn
  rw [cast_mod]; push_cast
  rw [mul_assoc, mul_inv_cancel₀ hR, mul_one]

theorem convertOut_spec {R : Int} (x : Int) :
    (0 ≤ convertOut R p x ∧ convertOut R p x < p) ∧ ((convertOut R p x : Int) : ZMod p) = (x : ZMod p) * (R : ZMod p)⁻¹ := by
  have h0 : (0 : Int) < p := by exact_mod_cast hp.out.pos
  refine ⟨⟨Int.emod_nonneg _ (by omega), Int.emod_lt_of_pos _ h0⟩, ?_⟩
  unfold convertOut
  rw [cast_mod]; push_cast
  rw [cast_invMod]

end Verif.Ecp
