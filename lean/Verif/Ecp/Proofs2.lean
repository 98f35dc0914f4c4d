import Mathlib.Tactic.Abel
import Verif.Ecp.Proofs

set_option linter.unusedSectionVars false

namespace Verif.Ecp
open WeierstrassCurve.Affine Verif.Algebra
open Verif.Misc (bitLen)

variable {K : Type} [Field K] [DecidableEq K] {F : Fld} {φ : Int → K}

/-! ## Jacobian coordinates -/

/-- Jacobian coordinates of a point: `x = X / Z²`, `y = Y / Z³`; `Z = 0` at infinity. -/
def JPt (φ : Int → K) {W : WeierstrassCurve.Affine K} (P : PPt) : W.Point → Prop
  | .zero => φ P.z = 0
  | .some x y _ => φ P.z ≠ 0 ∧ φ P.x = x * φ P.z ^ 2 ∧ φ P.y = y * φ P.z ^ 3

/-- The same, with reduced residues. -/
def JRep (F : Fld) (φ : Int → K) {W : WeierstrassCurve.Affine K} (P : PPt) (g : W.Point) : Prop :=
  El F P.x ∧ El F P.y ∧ El F P.z ∧ JPt φ P g

/-- The state of the repeated doubling. -/
def DRep (F : Fld) (φ : Int → K) {W : WeierstrassCurve.Affine K} (a : K) (d : PD) (g : W.Point) : Prop :=
  JRep F φ d.P g ∧ El F d.sixteenY4 ∧ El F d.aZ4 ∧ φ d.aZ4 * φ d.sixteenY4 = a * φ d.P.z ^ 4

theorem PD.mk_spec {C : Ec} (h : FOk C.F φ) (ha : El C.F C.a) {b : K} {P : Pt} {g : (curve (φ C.a) b).Point} (hP : PtRep C.F φ P g) :
    DRep C.F φ (φ C.a) (PD.mk' C P) g := by
  obtain ⟨o1, o2⟩ := h.one
  unfold PD.mk'
  cases g with
  | zero =>
    have : P.identity = true := hP
    rw [if_pos this]
    exact ⟨⟨o1, o1, .zero h, h.zero⟩, o1, .zero h, by show φ 0 * _ = _ * φ 0 ^ 4; rw [h.zero]; ring⟩
  | some x y hns =>
    obtain ⟨h1, h2, h3, rfl, rfl⟩ := hP
    rw [h1, if_neg (by decide)]
    exact ⟨⟨h2, h3, o1, by show φ C.F.one ≠ 0; rw [o2]; exact one_ne_zero, by show _ = _ * φ C.F.one ^ 2; rw [o2]; ring,
      by show _ = _ * φ C.F.one ^ 3; rw [o2]; ring⟩, o1, ha, by show _ * φ C.F.one = _ * φ C.F.one ^ 4; rw [o2]; ring⟩

theorem PD.double_spec {C : Ec} (h : FOk C.F φ) {b : K} {d : PD} {g : (curve (φ C.a) b).Point} (hd : DRep C.F φ (φ C.a) d g) :
    DRep C.F φ (φ C.a) (d.double C.F) (g + g) := by
  obtain ⟨⟨hx, hy, hz, hg⟩, h16, h4, hprod⟩ := hd
  obtain ⟨a1, b1⟩ := h.dbl hy
  obtain ⟨a2, b2⟩ := h.mul hz a1
  obtain ⟨a3, b3⟩ := h.sq a1
  obtain ⟨a4, b4⟩ := h.mul a3 hx
  obtain ⟨a5, b5⟩ := h.mul h4 h16
  obtain ⟨a6, b6⟩ := h.sq hx
  obtain ⟨a7, b7⟩ := h.dbl a6
  obtain ⟨a8, b8⟩ := h.add a7 a6
  obtain ⟨a9, b9⟩ := h.add a8 a5
  obtain ⟨a10, b10⟩ := h.sq a9
  obtain ⟨a11, b11⟩ := h.sub a10 a4
  obtain ⟨a12, b12⟩ := h.sub a11 a4
  obtain ⟨a13, b13⟩ := h.sub a4 a12
  obtain ⟨a14, b14⟩ := h.mul a9 a13
  obtain ⟨a15, b15⟩ := h.sq a3
  obtain ⟨a16, b16⟩ := h.half a15
  obtain ⟨a17, b17⟩ := h.sub a14 a16
  have hzz : φ (d.double C.F).P.z = 2 * φ d.P.y * φ d.P.z := by
    show φ (C.F.mul d.P.z (C.F.dbl d.P.y)) = _
    rw [b2, b1]; ring
  have hhalf : φ (C.F.half (C.F.sq (C.F.sq (C.F.dbl d.P.y)))) = 8 * φ d.P.y ^ 4 := by
    have : 2 * φ (C.F.half (C.F.sq (C.F.sq (C.F.dbl d.P.y)))) = 2 * (8 * φ d.P.y ^ 4) := by rw [b16, b15, b3, b1]; ring
    exact mul_left_cancel₀ h.two this
  have hM : φ (C.F.add (C.F.add (C.F.dbl (C.F.sq d.P.x)) (C.F.sq d.P.x)) (C.F.mul d.aZ4 d.sixteenY4)) = 3 * φ d.P.x ^ 2 + φ C.a * φ d.P.z ^ 4 := by
    rw [b9, b8, b7, b6, b5, hprod]; ring
  have hxx : φ (d.double C.F).P.x = (3 * φ d.P.x ^ 2 + φ C.a * φ d.P.z ^ 4) ^ 2 - 8 * φ d.P.y ^ 2 * φ d.P.x := by
    show φ (C.F.sub (C.F.sub (C.F.sq _) _) _) = _
    rw [b12, b11, b10, hM, b4, b3, b1]; ring
  have hyy : φ (d.double C.F).P.y = (3 * φ d.P.x ^ 2 + φ C.a * φ d.P.z ^ 4) * (4 * φ d.P.y ^ 2 * φ d.P.x - φ (d.double C.F).P.x) - 8 * φ d.P.y ^ 4 := by
    show φ (C.F.sub (C.F.mul _ (C.F.sub _ (d.double C.F).P.x)) _) = _
    refine b17.trans ?_
    rw [b14, hM, b13, hhalf, b4, b3, b1]
    show _ * (_ - φ (d.double C.F).P.x) - _ = _
    ring
  refine ⟨⟨a12, a17, a2, ?_⟩, a15, a5, ?_⟩
  · cases g with
    | zero =>
      show JPt φ _ ((0 : (curve (φ C.a) b).Point) + 0)
      rw [add_zero]
      show φ (d.double C.F).P.z = 0
      rw [hzz, show φ d.P.z = 0 from hg, mul_zero]
    | some x y hns =>
      obtain ⟨g1, g2, g3⟩ := hg
      by_cases hy0 : y = 0
      · rw [Point.add_self_of_Y_eq ((two_y h.two).2 hy0)]
        show φ (d.double C.F).P.z = 0
        rw [hzz, g3, hy0]; ring
      · have hne : y ≠ (curve (φ C.a) b).negY x y := fun e => hy0 ((two_y h.two).1 e)
        rw [Point.add_self_of_Y_ne hne]
        show φ (d.double C.F).P.z ≠ 0 ∧ _ ∧ _
        set l := (curve (φ C.a) b).slope x x y y with hl
        have hl2 : l * (2 * y) = 3 * x ^ 2 + φ C.a := by
          rw [hl, WeierstrassCurve.Affine.slope_of_Y_ne rfl hne, negY_curve]
          have : (y - -y) = 2 * y := by ring
          rw [this, div_mul_cancel₀ _ (mul_ne_zero h.two hy0)]
          simp [curve]
        have hxn : φ (d.double C.F).P.x = (l ^ 2 - x - x) * φ (d.double C.F).P.z ^ 2 := by
          rw [hxx, hzz, g2, g3]
          have : 3 * (x * φ d.P.z ^ 2) ^ 2 + φ C.a * φ d.P.z ^ 4 = l * (2 * y) * φ d.P.z ^ 4 := by rw [hl2]; ring
          rw [this]; ring
        refine ⟨?_, ?_, ?_⟩
        · rw [hzz, g3]
          exact mul_ne_zero (mul_ne_zero h.two (mul_ne_zero hy0 (pow_ne_zero _ g1))) g1
        · rw [addX_curve]; exact hxn
        · rw [addY_curve, hyy, hxn, hzz, g2, g3]
          have : 3 * (x * φ d.P.z ^ 2) ^ 2 + φ C.a * φ d.P.z ^ 4 = l * (2 * y) * φ d.P.z ^ 4 := by rw [hl2]; ring
          rw [this]; ring
  · show φ (C.F.mul d.aZ4 d.sixteenY4) * φ (C.F.sq (C.F.sq (C.F.dbl d.P.y))) = φ C.a * φ (d.double C.F).P.z ^ 4
    rw [b5, hprod, b15, b3, b1, hzz]; ring

/-! ## `ParallelInvert` -/

theorem pairUp_el (h : FOk F φ) : ∀ (l : List Int), (∀ x ∈ l, El F x) → ∀ x ∈ pairUp F l, El F x
  | [], _, x, hx => by simp [pairUp] at hx
  | [a], ha, x, hx => by simp only [pairUp, List.mem_singleton] at hx; rw [hx]; exact ha a (by simp)
  | a :: b :: l, ha, x, hx => by
    simp only [pairUp, List.mem_cons] at hx
    rcases hx with rfl | hx
    · exact (h.mul (ha a (by simp)) (ha b (by simp))).1
    · exact pairUp_el h l (fun y hy => ha y (by simp [hy])) x hx

theorem pairUp_length : ∀ (l : List Int), (pairUp F l).length = (l.length + 1) / 2
  | [] => rfl
  | [a] => by simp [pairUp]
  | a :: b :: l => by
    simp only [pairUp, List.length_cons, pairUp_length l]; omega

theorem unpair_spec (h : FOk F φ) : ∀ (l : List Int), (∀ x ∈ l, El F x) → unpair F l ((pairUp F l).map F.inv) = l.map F.inv
  | [], _ => rfl
  | [a], _ => rfl
  | a :: b :: l, hl => by
    have ha := hl a (by simp)
    have hb := hl b (by simp)
    simp only [pairUp, List.map_cons, unpair, unpair_spec h l (fun y hy => hl y (by simp [hy]))]
    obtain ⟨m1, m2⟩ := h.mul ha hb
    obtain ⟨i1, i2⟩ := h.inv m1
    obtain ⟨j1, j2⟩ := h.inv ha
    obtain ⟨k1, k2⟩ := h.inv hb
    split
    · rfl
    · rename_i hv
      have hv' : φ (F.inv (F.mul a b)) ≠ 0 := fun e => hv ((h.eq_zero i1).1 e)
      rw [i2, m2] at hv'
      have hab : φ a * φ b ≠ 0 := fun e => hv' (by rw [e, inv_zero])
      obtain ⟨ha0, hb0⟩ := mul_ne_zero_iff.1 hab
      have e1 : F.mul b (F.inv (F.mul a b)) = F.inv a := by
        obtain ⟨q1, q2⟩ := h.mul hb i1
        apply h.inj q1 j1
        rw [q2, i2, m2, j2]; field_simp
      have e2 : F.mul a (F.inv (F.mul a b)) = F.inv b := by
        obtain ⟨q1, q2⟩ := h.mul ha i1
        apply h.inj q1 k1
        rw [q2, i2, m2, k2]; field_simp
      rw [e1, e2]; rfl

theorem parallelInvert_spec (h : FOk F φ) : ∀ (n : Nat) (l : List Int), l.length ≤ n + 1 → (∀ x ∈ l, El F x) → parallelInvert F n l = l.map F.inv
  | _, [], _, _ => by unfold parallelInvert; rfl
  | _, [a], _, _ => by unfold parallelInvert; rfl
  | 0, a :: b :: l, hn, _ => by simp at hn
  | n + 1, a :: b :: l, hn, hl => by
    unfold parallelInvert
    rw [parallelInvert_spec h n _ ?_ (pairUp_el h _ hl), unpair_spec h _ hl]
    rw [pairUp_length]
    simp only [List.length_cons] at hn ⊢; omega

theorem affine_spec (h : FOk F φ) {W : WeierstrassCurve.Affine K} {P : PPt} {g : W.Point} (hP : JRep F φ P g) :
    (g = 0 ↔ (affine F P (F.inv P.z)).z = 0) ∧
    (g ≠ 0 → PtRep F φ ⟨false, (affine F P (F.inv P.z)).x, (affine F P (F.inv P.z)).y⟩ g) := by
  obtain ⟨hx, hy, hz, hg⟩ := hP
  obtain ⟨i1, i2⟩ := h.inv hz
  unfold affine
  cases g with
  | zero =>
    have hz0 : φ P.z = 0 := hg
    have : F.inv P.z = 0 := (h.eq_zero i1).1 (by rw [i2, hz0, inv_zero])
    rw [if_neg (by simpa using this)]
    exact ⟨⟨fun _ => this, fun _ => rfl⟩, fun hne => absurd rfl hne⟩
  | some x y hns =>
    obtain ⟨g1, g2, g3⟩ := hg
    have hne : φ (F.inv P.z) ≠ 0 := by rw [i2]; exact inv_ne_zero g1
    have : F.inv P.z ≠ 0 := fun e => hne (by rw [e, h.zero])
    rw [if_pos this]
    obtain ⟨s1, s2⟩ := h.sq i1
    obtain ⟨m1, m2⟩ := h.mul hy i1
    obtain ⟨n1, n2⟩ := h.mul m1 s1
    obtain ⟨k1, k2⟩ := h.mul hx s1
    refine ⟨⟨fun e => absurd e (Point.some_ne_zero hns), fun e => ?_⟩, fun _ => ⟨rfl, k1, n1, ?_, ?_⟩⟩
    · exfalso
      have e' : F.sq (F.inv P.z) = 0 := e
      rw [e', h.zero] at s2
      exact pow_ne_zero 2 hne s2.symm
    · show φ (F.mul P.x (F.sq (F.inv P.z))) = x
      rw [k2, s2, i2, g2]; field_simp
    · show φ (F.mul (F.mul P.y (F.inv P.z)) (F.sq (F.inv P.z))) = y
      rw [n2, m2, s2, i2, g3]; field_simp

end Verif.Ecp
