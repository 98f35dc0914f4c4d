import Mathlib.Tactic.LinearCombination
import Mathlib.Tactic.FieldSimp
import Verif.Algebra.Proofs3
import Verif.Ecp.Spec

set_option linter.unusedSectionVars false

namespace Verif.Ecp
open WeierstrassCurve.Affine Verif.Algebra

variable {K : Type} [Field K] [DecidableEq K] {F : Fld} {φ : Int → K}

/-! ## The group operations -/

theorem El.zero (h : FOk F φ) : El F 0 := ⟨Int.le_refl _, h.pos⟩

theorem FOk.eq_zero (h : FOk F φ) {x : Int} (hx : El F x) : φ x = 0 ↔ x = 0 :=
  ⟨fun e => h.inj hx (.zero h) (by rw [e, h.zero]), fun e => by rw [e, h.zero]⟩

theorem FOk.div (h : FOk F φ) {x y : Int} (hx : El F x) (hy : El F y) : El F (F.div x y) ∧ φ (F.div x y) = φ x / φ y := by
  obtain ⟨h1, h2⟩ := h.inv hy
  obtain ⟨h3, h4⟩ := h.mul hx h1
  exact ⟨h3, by rw [div_eq_mul_inv, ← h2]; exact h4⟩

theorem negY_curve (a b x y : K) : (curve a b).negY x y = -y := by
  simp [WeierstrassCurve.Affine.negY, curve]

theorem addX_curve (a b x1 x2 l : K) : (curve a b).addX x1 x2 l = l ^ 2 - x1 - x2 := by
  simp [WeierstrassCurve.Affine.addX, curve]

theorem addY_curve (a b x1 x2 y1 l : K) : (curve a b).addY x1 x2 y1 l = l * (x1 - (l ^ 2 - x1 - x2)) - y1 := by
  simp only [WeierstrassCurve.Affine.addY, WeierstrassCurve.Affine.negAddY, negY_curve, addX_curve]; ring

theorem PtRep.ident {W : WeierstrassCurve.Affine K} {P : Pt} : PtRep F φ P (0 : W.Point) ↔ P.identity = true := Iff.rfl

theorem inverse_spec {C : Ec} (h : FOk C.F φ) {a b : K} {P : Pt} {g : (curve a b).Point} (hP : PtRep C.F φ P g) : PtRep C.F φ (inverse C P) (-g) := by
  cases g with
  | zero =>
    have : P.identity = true := hP
    show PtRep C.F φ _ (0 : (curve a b).Point)
    unfold inverse; rw [if_pos this]; exact this
  | some x y hns =>
    obtain ⟨h1, h2, h3, h4, h5⟩ := hP
    unfold inverse
    rw [h1, if_neg (by decide)]
    rw [Point.neg_some]
    obtain ⟨h6, h7⟩ := h.neg h3
    exact ⟨rfl, h2, h6, h4, by rw [negY_curve, ← h5]; exact h7⟩

theorem two_y {a b : K} (h2 : (2 : K) ≠ 0) {x y : K} : y = (curve a b).negY x y ↔ y = 0 := by
  rw [negY_curve]
  constructor
  · intro h
    have : 2 * y = 0 := by linear_combination h
    exact (mul_eq_zero.1 this).resolve_left h2
  · intro h; rw [h, neg_zero]

theorem double_spec {C : Ec} (h : FOk C.F φ) (ha : El C.F C.a) {b : K} {P : Pt} {g : (curve (φ C.a) b).Point} (hP : PtRep C.F φ P g) :
    PtRep C.F φ (double C P) (g + g) := by
  cases g with
  | zero =>
    have : P.identity = true := hP
    show PtRep C.F φ _ ((0 : (curve (φ C.a) b).Point) + 0)
    unfold double; rw [this, Bool.true_or, if_pos rfl, add_zero]; rfl
  | some x y hns =>
    obtain ⟨h1, h2, h3, rfl, rfl⟩ := hP
    unfold double
    rw [h1, Bool.false_or]
    by_cases hy : P.y = 0
    · rw [if_pos (by simpa using hy), Point.add_self_of_Y_eq ((two_y h.two).2 (by rw [hy, h.zero]))]
      rfl
    · rw [if_neg (by simpa using hy)]
      have hy' : ¬ φ P.y = 0 := fun e => hy ((h.eq_zero h3).1 e)
      have hne : φ P.y ≠ (curve (φ C.a) b).negY (φ P.x) (φ P.y) := fun e => hy' ((two_y h.two).1 e)
      rw [Point.add_self_of_Y_ne hne]
      obtain ⟨e1, f1⟩ := h.sq h2
      obtain ⟨e2, f2⟩ := h.dbl e1
      obtain ⟨e3, f3⟩ := h.add e2 e1
      obtain ⟨e4, f4⟩ := h.add e3 ha
      obtain ⟨e5, f5⟩ := h.dbl h3
      obtain ⟨e6, f6⟩ := h.div e4 e5
      obtain ⟨e7, f7⟩ := h.sq e6
      obtain ⟨e8, f8⟩ := h.sub e7 h2
      obtain ⟨e9, f9⟩ := h.sub e8 h2
      obtain ⟨e10, f10⟩ := h.sub h2 e9
      obtain ⟨e11, f11⟩ := h.mul e6 e10
      obtain ⟨e12, f12⟩ := h.sub e11 h3
      have hs : φ (C.F.div (C.F.add (C.F.add (C.F.dbl (C.F.sq P.x)) (C.F.sq P.x)) C.a) (C.F.dbl P.y)) =
          (curve (φ C.a) b).slope (φ P.x) (φ P.x) (φ P.y) (φ P.y) := by
        rw [WeierstrassCurve.Affine.slope_of_Y_ne rfl hne, negY_curve, f6, f4, f3, f2, f1, f5]
        simp only [curve]
        congr 1 <;> ring
      refine ⟨rfl, e9, e12, ?_, ?_⟩
      · rw [addX_curve, ← hs]
        show φ _ = _
        rw [f9, f8, f7]
      · rw [addY_curve, ← hs]
        show φ _ = _
        rw [f12, f11, f10, f9, f8, f7]

theorem y_cases {a b x y1 y2 : K} (h1 : (curve a b).Nonsingular x y1) (h2 : (curve a b).Nonsingular x y2) : y1 = y2 ∨ y1 = (curve a b).negY x y2 :=
  WeierstrassCurve.Affine.Y_eq_of_X_eq h1.1 h2.1 rfl

theorem add_spec {C : Ec} (h : FOk C.F φ) (ha : El C.F C.a) {b : K} {P Q : Pt} {g k : (curve (φ C.a) b).Point} (hP : PtRep C.F φ P g)
    (hQ : PtRep C.F φ Q k) : PtRep C.F φ (add C P Q) (g + k) := by
  unfold add
  cases g with
  | zero =>
    have : P.identity = true := hP
    show PtRep C.F φ _ ((0 : (curve (φ C.a) b).Point) + k)
    rw [if_pos this, zero_add]; exact hQ
  | some x y hns =>
    have hP' := hP
    obtain ⟨h1, h2, h3, rfl, rfl⟩ := hP
    rw [h1, if_neg (by decide)]
    cases k with
    | zero =>
      have : Q.identity = true := hQ
      show PtRep C.F φ _ (_ + (0 : (curve (φ C.a) b).Point))
      rw [if_pos this, add_zero]; exact hP'
    | some x' y' hns' =>
      obtain ⟨k1, k2, k3, rfl, rfl⟩ := hQ
      rw [k1, if_neg (by decide)]
      by_cases hx : P.x = Q.x
      · rw [if_pos hx]
        by_cases hy : P.y = Q.y
        · rw [if_pos hy]
          have := double_spec h ha hP'
          simp only [← hx, ← hy]
          exact this
        · rw [if_neg hy]
          have hx' : φ P.x = φ Q.x := by rw [hx]
          rcases WeierstrassCurve.Affine.Y_eq_of_X_eq hns.1 hns'.1 hx' with e | e
          · exact absurd (h.inj h3 k3 e) hy
          · rw [Point.add_of_Y_eq hx' e]; rfl
      · rw [if_neg hx]
        have hx' : φ P.x ≠ φ Q.x := fun e => hx (h.inj h2 k2 e)
        rw [Point.add_of_X_ne hx']
        obtain ⟨e1, f1⟩ := h.sub k3 h3
        obtain ⟨e2, f2⟩ := h.sub k2 h2
        obtain ⟨e6, f6⟩ := h.div e1 e2
        obtain ⟨e7, f7⟩ := h.sq e6
        obtain ⟨e8, f8⟩ := h.sub e7 h2
        obtain ⟨e9, f9⟩ := h.sub e8 k2
        obtain ⟨e10, f10⟩ := h.sub h2 e9
        obtain ⟨e11, f11⟩ := h.mul e6 e10
        obtain ⟨e12, f12⟩ := h.sub e11 h3
        have hs : φ (C.F.div (C.F.sub Q.y P.y) (C.F.sub Q.x P.x)) = (curve (φ C.a) b).slope (φ P.x) (φ Q.x) (φ P.y) (φ Q.y) := by
          rw [WeierstrassCurve.Affine.slope_of_X_ne hx', f6, f1, f2, ← neg_sub (φ Q.y), ← neg_sub (φ Q.x), neg_div_neg_eq]
        refine ⟨rfl, e9, e12, ?_, ?_⟩
        · rw [addX_curve, ← hs]
          show φ _ = _
          rw [f9, f8, f7]
        · rw [addY_curve, ← hs]
          show φ _ = _
          rw [f12, f11, f10, f9, f8, f7]

theorem laws {C : Ec} (h : FOk C.F φ) (ha : El C.F C.a) (b : K) :
    Laws (G := (curve (φ C.a) b).Point) (grp C) (fun _ => True) (PtRep C.F φ) (PtRep C.F φ) (PtRep C.F φ) where
  toRef := id
  toSrc := id
  cp := id
  cpSrc := id
  ident := Post.pure rfl
  add := fun hx hy => Post.pure (add_spec h ha hx hy)
  acc := fun hx hy => Post.pure (add_spec h ha hx hy)
  dbl := fun hx => Post.pure (double_spec h ha hx)
  inv := fun _ _ x hx => ⟨-x, add_neg_cancel x, Post.pure (inverse_spec h hx)⟩

theorem PtRep.inj (h : FOk F φ) {W : WeierstrassCurve.Affine K} {P Q : Pt} {g k : W.Point} (hP : PtRep F φ P g) (hQ : PtRep F φ Q k) : equal P Q = true ↔ g = k := by
  unfold equal
  cases g with
  | zero =>
    have h1 : P.identity = true := hP
    cases k with
    | zero =>
      have h2 : Q.identity = true := hQ
      simp [h1, h2]
    | some x y hk =>
      obtain ⟨h2, _⟩ := hQ
      simp [h1, h2]
  | some x y hg =>
    obtain ⟨h1, e1, e2, rfl, rfl⟩ := hP
    cases k with
    | zero =>
      have h2 : Q.identity = true := hQ
      simp [h1, h2]
    | some x' y' hk =>
      obtain ⟨h2, e3, e4, rfl, rfl⟩ := hQ
      simp only [h1, h2, Bool.and_false, Bool.false_and, Bool.false_eq_true, if_false, Bool.not_false, Bool.and_eq_true, decide_eq_true_eq,
        Point.some.injEq]
      exact ⟨fun ⟨a, b⟩ => ⟨by rw [a], by rw [b]⟩, fun ⟨a, b⟩ => ⟨h.inj e1 e3 a, h.inj e2 e4 b⟩⟩

end Verif.Ecp
