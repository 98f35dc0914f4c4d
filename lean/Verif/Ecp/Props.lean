import Mathlib.Tactic.NormNum.Prime
import Verif.Ecp.Proofs4

/-! # Elliptic curves over prime fields: the claims -/
namespace Verif.Ecp
open Verif.Algebra

variable {p : Nat} [hp : Fact p.Prime] {C : Ec}

/-! ## Points -/

/-- `VerifyPoint` accepts exactly the point at infinity and reduced coordinates satisfying the equation. -/
theorem verify_point_exact (h : IsCurve p C) (P : Pt) :
    verifyPoint C P = true ↔
      P.identity = true ∨ (0 ≤ P.x ∧ P.x < p) ∧ (0 ≤ P.y ∧ P.y < p) ∧ (P.y : ZMod p) ^ 2 = (P.x : ZMod p) ^ 3 + C.a * P.x + C.b :=
  verifyPoint_spec h.field P

/-- On a curve without singular points, `VerifyPoint` accepts exactly what stands for an element of the group, which is then determined. -/
theorem verify_point_group (h : IsCurve p C) (hd : 4 * (C.a : ZMod p) ^ 3 + 27 * (C.b : ZMod p) ^ 2 ≠ 0) (P : Pt) :
    verifyPoint C P = true ↔ ∃! g : Points p C, Stands P g := by
  rw [verifyPoint_rep h.odd h.field hd]
  exact ⟨fun ⟨g, hg⟩ => ⟨g, hg, fun k hk => hk.unique hg⟩, fun ⟨g, hg, _⟩ => ⟨g, hg⟩⟩

/-- Every element of the group has a point standing for it, which `VerifyPoint` accepts. -/
theorem group_point_verifies (h : IsCurve p C) (g : Points p C) : ∃ P, Stands P g ∧ verifyPoint C P = true := by
  have hp0 : (0 : Int) < p := by exact_mod_cast hp.out.pos
  cases g with
  | zero => exact ⟨.zero, rfl, rfl⟩
  | some x y hns =>
    have hv : ∀ z : ZMod p, (0 ≤ (z.val : Int) ∧ (z.val : Int) < p) ∧ (((z.val : Int)) : ZMod p) = z := fun z =>
      ⟨⟨by omega, by exact_mod_cast ZMod.val_lt z⟩, by rw [Int.cast_natCast, ZMod.natCast_zmod_val]⟩
    refine ⟨⟨false, x.val, y.val⟩, ⟨rfl, (hv x).1, (hv y).1, (hv x).2, (hv y).2⟩, ?_⟩
    rw [verify_point_exact h]
    refine Or.inr ⟨(hv x).1, (hv y).1, ?_⟩
    rw [(hv x).2, (hv y).2]
    exact equation_curve.1 hns.1

/-- `ValidateParameters` at level 1 or more accepts exactly reduced coefficients of a curve without singular points over a field of odd size (and at
level 2 or more a modulus that passes the primality test). -/
theorem validate_parameters_exact (C : Ec) (hF : C.F = plain p) (level : Nat) (hl : 1 ≤ level) (prime : Bool) :
    validate C level prime = true ↔
      p % 2 = 1 ∧ (0 ≤ C.a ∧ C.a < p) ∧ (0 ≤ C.b ∧ C.b < p) ∧ 4 * (C.a : ZMod p) ^ 3 + 27 * (C.b : ZMod p) ^ 2 ≠ 0 ∧ (2 ≤ level → prime = true) := by
  have hm : C.F.modulus = p := by rw [hF]; rfl
  have hp0 : (0 : Int) < p := by exact_mod_cast hp.out.pos
  unfold validate
  rw [hm]
  simp only [ge_iff_le, hl, if_true]
  have key : 0 < (4 * C.a * C.a * C.a + 27 * C.b * C.b) % (p : Int) ↔ 4 * (C.a : ZMod p) ^ 3 + 27 * (C.b : ZMod p) ^ 2 ≠ 0 := by
    have h1 := Int.emod_nonneg (4 * C.a * C.a * C.a + 27 * C.b * C.b) (by omega : (p : Int) ≠ 0)
    have h2 : (4 * C.a * C.a * C.a + 27 * C.b * C.b) % (p : Int) = 0 ↔ 4 * (C.a : ZMod p) ^ 3 + 27 * (C.b : ZMod p) ^ 2 = 0 := by
      rw [← Int.dvd_iff_emod_eq_zero, ← ZMod.intCast_zmod_eq_zero_iff_dvd]
      push_cast
      constructor
      · intro h; linear_combination h
      · intro h; linear_combination h
    rw [Ne, ← h2]; omega
  have hodd : ((p : Int) % 2 = 1) ↔ p % 2 = 1 := by omega
  by_cases h2 : 2 ≤ level
  · rw [if_pos h2]
    simp only [Bool.and_eq_true, decide_eq_true_eq, key, hodd]
    tauto
  · rw [if_neg h2]
    simp only [Bool.and_eq_true, decide_eq_true_eq, key, hodd]
    tauto

/-! ## The group operations -/

/-- `Add` is the addition of the curve, for all pairs of points (distinct, equal, opposite, at infinity). -/
theorem add_exact (h : IsCurve p C) {P Q : Pt} {g k : Points p C} (hP : Stands P g) (hQ : Stands Q k) : Stands (add C P Q) (g + k) := by
  have ho : FOk C.F (fun x => (x : ZMod p)) := by rw [h.field]; exact plain_ok h.odd
  have := add_spec ho (by rw [h.field]; exact h.a) (b := (C.b : ZMod p)) (P := P) (Q := Q) (g := g) (k := k) (by rw [h.field]; exact hP) (by rw [h.field]; exact hQ)
  rw [h.field] at this; exact this

/-- `Double`. -/
theorem double_exact (h : IsCurve p C) {P : Pt} {g : Points p C} (hP : Stands P g) : Stands (double C P) (g + g) := by
  have ho : FOk C.F (fun x => (x : ZMod p)) := by rw [h.field]; exact plain_ok h.odd
  have := double_spec ho (by rw [h.field]; exact h.a) (b := (C.b : ZMod p)) (P := P) (g := g) (by rw [h.field]; exact hP)
  rw [h.field] at this; exact this

/-- `Inverse`. -/
theorem inverse_exact (h : IsCurve p C) {P : Pt} {g : Points p C} (hP : Stands P g) : Stands (inverse C P) (-g) := by
  have ho : FOk C.F (fun x => (x : ZMod p)) := by rw [h.field]; exact plain_ok h.odd
  have := inverse_spec ho (P := P) (g := g) (by rw [h.field]; exact hP)
  rw [h.field] at this; exact this

/-- `Equal` decides equality in the group. -/
theorem equal_exact (h : IsCurve p C) {P Q : Pt} {g k : Points p C} (hP : Stands P g) (hQ : Stands Q k) : equal P Q = true ↔ g = k :=
  PtRep.inj (plain_ok h.odd) hP hQ

/-- The same when an argument is the reference an earlier operation returned, which the operation overwrites. -/
theorem add_alias_exact (h : IsCurve p C) {R : Pt} {P Q : Arg} {g k : Points p C} (hP : Stands (P.get R) g) (hQ : Stands (Q.get R) k) :
    Stands ((addRef C R P Q).1.get (addRef C R P Q).2) (g + k) := by
  rw [addRef_spec]; exact add_exact h hP hQ

theorem double_alias_exact (h : IsCurve p C) {R : Pt} {P : Arg} {g : Points p C} (hP : Stands (P.get R) g) :
    Stands ((doubleRef C R P).1.get (doubleRef C R P).2) (g + g) := by
  rw [doubleRef_spec]; exact double_exact h hP

theorem inverse_alias_exact (h : IsCurve p C) {R : Pt} {P : Arg} {g : Points p C} (hP : Stands (P.get R) g) :
    Stands ((inverseRef C R P).1.get (inverseRef C R P).2) (-g) := by
  rw [inverseRef_spec]; exact inverse_exact h hP

/-- `Subtract`. -/
theorem subtract_exact (h : IsCurve p C) {R : Pt} {P Q : Arg} {g k : Points p C} (hP : Stands (P.get R) g) (hQ : Stands (Q.get R) k) :
    Stands ((subRef C R P Q).1.get (subRef C R P Q).2) (g - k) := by
  unfold subRef
  simp only
  rw [addRef_spec, inverseRef_spec, sub_eq_add_neg]
  exact add_exact h hP (inverse_exact h hQ)

/-! ## Multiples -/

section
variable (h : IsCurve p C) {R : Int} (hR : R % p ≠ 0) {wb : Nat} (hwb : 0 < wb) {heap0 heap : List (Pt × Nat) → List (Pt × Nat)} (hh : HeapOk heap0 heap)
include h hR hwb hh

omit h hwb hh in
theorem R_ne : (R : ZMod p) ≠ 0 := fun e => hR (Int.emod_eq_zero_of_dvd ((ZMod.intCast_zmod_eq_zero_iff_dvd R p).1 e))

/-- `ScalarMultiply(P, k)`, for every `k`: by way of Montgomery representation, repeated doubling in Jacobian coordinates, one inversion for all
windows, and a cascade of the windows. -/
theorem scalar_multiply_exact {P : Pt} {g : Points p C} (hP : Stands P g) (k : Nat) :
    Post (fun _ => True) ((plainMuls R C wb heap0 heap 1).smul P k) (fun r => Stands r (k • g)) :=
  (plainMuls_ok h.odd (R_ne hR) h.field (by rw [h.field]; exact h.a) hwb hh 0).smul hP trivial

/-- `CascadeScalarMultiply(P, k1, Q, k2)`. -/
theorem cascade_multiply_exact {P Q : Pt} {g k : Points p C} (hP : Stands P g) (hQ : Stands Q k) (k1 k2 : Nat) :
    Post (fun _ => True) ((plainMuls R C wb heap0 heap 1).casc P k1 Q k2) (fun r => Stands r (k1 • g + k2 • k)) :=
  (plainMuls_ok h.odd (R_ne hR) h.field (by rw [h.field]; exact h.a) hwb hh 0).casc hP hQ trivial trivial

/-- `SimultaneousMultiply`, for every list of exponents other than zero. -/
theorem simultaneous_multiply_exact {P : Pt} {g : Points p C} (hP : Stands P g) (ks : List Nat) (hk : ∀ k ∈ ks, k ≠ 0) :
    Post (fun _ => True) (simPlain R C wb heap0 heap 1 P ks) (fun rs => List.Forall₂ (fun k r => Stands r (k • g)) ks rs) :=
  simPlain_spec h.odd (R_ne hR) h.field hwb hh 0 hP hk

/-- Fixed-base precomputation: any announced exponent length, any storage but zero, any exponent. -/
theorem fixed_base_exact {P : Pt} {g : Points p C} (hP : Stands P g) (maxExpBits : Nat) {storage : Nat} (hs : 0 < storage) (k : Nat) :
    Post (fun _ => True) (fixedBase R C wb heap0 heap 2 P maxExpBits storage k) (fun r => Stands r (k • g)) :=
  fixedBase_spec h.odd (R_ne hR) h.field hwb hh 0 hP maxExpBits hs k

/-- Two precomputations, as in signature verification. -/
theorem fixed_base_cascade_exact {P Q : Pt} {g k : Points p C} (hP : Stands P g) (hQ : Stands Q k) (max1 max2 : Nat) {st1 st2 : Nat} (h1 : 0 < st1)
    (h2 : 0 < st2) (k1 k2 : Nat) :
    Post (fun _ => True) (fixedBaseCascade R C wb heap0 heap 2 P Q max1 max2 st1 st2 k1 k2) (fun r => Stands r (k1 • g + k2 • k)) :=
  fixedBaseCascade_spec h.odd (R_ne hR) h.field hwb hh 0 hP hQ max1 max2 h1 h2 k1 k2

end

/-- `SimultaneousMultiply` with the exponent zero has no window to start from, and hands an empty range to `GeneralCascadeMultiplication`, which
reads before its beginning.  (`ScalarMultiply` avoids this: it leaves small exponents to `AbstractGroup`.) -/
theorem simultaneous_multiply_zero_undefined (R : Int) (C : Ec) (wb : Nat) (hwb : 0 < wb) (heap0 heap : List (Pt × Nat) → List (Pt × Nat)) (depth : Nat) (P : Pt) :
    simPlain R C wb heap0 heap depth P [0] () = .error .undefinedBehaviour := by
  have hs : (slider 0).next wb = { slider 0 with firstTime := false, finished := true } := by
    unfold Slider.next
    have : skipZeros (slider 0).exp ((Misc.bitLen (slider 0).exp + wb - 1) / wb * wb) (if (slider 0).firstTime then 0 else (slider 0).windowSize) = none := by
      show skipZeros 0 ((0 + wb - 1) / wb * wb) 0 = none
      rw [skipZeros, if_neg (by simp), if_pos]
      have : (0 + wb - 1) / wb = 0 := Nat.div_eq_of_lt (by omega)
      rw [this]; omega
    simp only [this]
  unfold simPlain simMont
  simp only [List.map_cons, List.map_nil, hs]
  rfl

/-! ## A concrete curve: `y² = x³ + 2x + 3` modulo 97 -/

instance : Fact (Nat.Prime 97) := ⟨by norm_num⟩

def c97 : Ec := mk' 97 (-95) 3

theorem c97_ok : IsCurve 97 c97 := ⟨rfl, by decide, by decide⟩

theorem c97_disc : 4 * (c97.a : ZMod 97) ^ 3 + 27 * (c97.b : ZMod 97) ^ 2 ≠ 0 := by decide

example : verifyPoint c97 ⟨false, 3, 6⟩ = true := by decide +kernel
example : verifyPoint c97 ⟨false, 3, 7⟩ = false := by decide +kernel
example : validate c97 3 true = true := by decide +kernel
example : ∃ g : Points 97 c97, Stands ⟨false, 3, 6⟩ g := ((verify_point_group c97_ok c97_disc _).1 (by decide +kernel)).exists
example : add c97 ⟨false, 3, 6⟩ ⟨false, 3, 91⟩ = .zero := by decide +kernel
example : add c97 ⟨false, 3, 6⟩ ⟨false, 80, 10⟩ = ⟨false, 80, 87⟩ := by decide +kernel
example : double c97 ⟨false, 3, 6⟩ = ⟨false, 80, 10⟩ := by decide +kernel
example : (addRef c97 ⟨false, 3, 6⟩ .mR .mR).2 = ⟨false, 80, 10⟩ := by decide +kernel
example (g : Points 97 c97) (hg : Stands ⟨false, 3, 6⟩ g) (k : Nat) :
    Post (fun _ => True) ((plainMuls (2 ^ 64) c97 64 heapS heapS 1).smul ⟨false, 3, 6⟩ k) (fun r => Stands r (k • g)) :=
  scalar_multiply_exact c97_ok (by decide +kernel) (by decide) heapS_ok hg k
example (g : Points 97 c97) (hg : Stands ⟨false, 3, 6⟩ g) (k : Nat) :
    Post (fun _ => True) (fixedBase (2 ^ 64) c97 64 heapS heapS 2 ⟨false, 3, 6⟩ 256 16 k) (fun r => Stands r (k • g)) :=
  fixed_base_exact c97_ok (by decide +kernel) (by decide) heapS_ok hg 256 (by decide) k

end Verif.Ecp
