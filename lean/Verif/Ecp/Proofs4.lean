import Verif.Ecp.Proofs3
import Verif.Algebra.Props

set_option linter.unusedSectionVars false

namespace Verif.Ecp
open WeierstrassCurve.Affine Verif.Algebra
open Verif.Misc (bitLen)

/-! ## Plain curves: convert, compute, convert back -/

variable {p : Nat} [hp : Fact p.Prime]

theorem ptIn_spec {R : Int} (hR : (R : ZMod p) ≠ 0) {W : WeierstrassCurve.Affine (ZMod p)} {P : Pt} {g : W.Point}
    (hP : PtRep (plain p) (fun x => (x : ZMod p)) P g) : PtRep (mont R p) (fun x => (x : ZMod p) * (R : ZMod p)⁻¹) (ptIn R p P) g := by
  unfold ptIn
  cases g with
  | zero =>
    have : P.identity = true := hP
    rw [if_pos this]; exact this
  | some x y hns =>
    obtain ⟨h1, h2, h3, rfl, rfl⟩ := hP
    rw [h1, if_neg (by decide)]
    have hx := convertIn_spec hR P.x
    have hy := convertIn_spec hR P.y
    exact ⟨rfl, hx.1, hy.1, hx.2, hy.2⟩

theorem ptOut_spec {R : Int} {W : WeierstrassCurve.Affine (ZMod p)} {P : Pt} {g : W.Point}
    (hP : PtRep (mont R p) (fun x => (x : ZMod p) * (R : ZMod p)⁻¹) P g) : PtRep (plain p) (fun x => (x : ZMod p)) (ptOut R p P) g := by
  unfold ptOut
  cases g with
  | zero =>
    have : P.identity = true := hP
    rw [if_pos this]; exact this
  | some x y hns =>
    obtain ⟨h1, h2, h3, rfl, rfl⟩ := hP
    rw [h1, if_neg (by decide)]
    have hx := convertOut_spec (p := p) (R := R) P.x
    have hy := convertOut_spec (p := p) (R := R) P.y
    exact ⟨rfl, hx.1, hy.1, hx.2, hy.2⟩

variable {K : Type} [Field K] [DecidableEq K] {φ : Int → K}

theorem montMuls_ok' {C : Ec} (h : FOk C.F φ) (ha : El C.F C.a) {a b : K} (hae : φ C.a = a) {wb : Nat} (hwb : 0 < wb)
    {heap0 heap : List (Pt × Nat) → List (Pt × Nat)} (hh : HeapOk heap0 heap) (depth : Nat) :
    MulsOk (G := (curve a b).Point) (montMuls C wb heap0 heap (depth + 2)) (fun _ => True) (PtRep C.F φ) (PtRep C.F φ) (fun _ => True) := by
  subst hae; exact montMuls_ok h ha hwb hh depth

theorem laws' {C : Ec} (h : FOk C.F φ) (ha : El C.F C.a) {a : K} (hae : φ C.a = a) (b : K) :
    Laws (G := (curve a b).Point) (grp C) (fun _ => True) (PtRep C.F φ) (PtRep C.F φ) (PtRep C.F φ) := by
  subst hae; exact laws h ha b

theorem simMont_spec' {C : Ec} (h : FOk C.F φ) (ha : El C.F C.a) {a b : K} (hae : φ C.a = a) {wb : Nat} (hwb : 0 < wb)
    {heap0 heap : List (Pt × Nat) → List (Pt × Nat)} (hh : HeapOk heap0 heap) (depth : Nat) {P : Pt} {x : (curve a b).Point} (hP : PtRep C.F φ P x)
    {es : List Nat} (hne : ∀ e ∈ es, e ≠ 0) :
    Post (fun _ : Unit => True) (simMont C wb heap0 heap (montMuls C wb heap0 heap (depth + 1)) P es) (fun rs => List.Forall₂ (fun e r => PtRep C.F φ r (e • x)) es rs) := by
  subst hae
  exact simMont_spec h ha hwb (montMuls_small h ha hwb depth) hh hP hne

/-- The curve in a plain field, and what the conversion to Montgomery representation makes of it. -/
theorem toMont_ok (h2 : p ≠ 2) {R : Int} (hR : (R : ZMod p) ≠ 0) {C : Ec} (hF : C.F = plain p) :
    (toMont R C).F = mont R p ∧ FOk (toMont R C).F (fun x => (x : ZMod p) * (R : ZMod p)⁻¹) ∧ El (toMont R C).F (toMont R C).a ∧
    (fun x : Int => (x : ZMod p) * (R : ZMod p)⁻¹) (toMont R C).a = C.a := by
  have hm : C.F.modulus = p := by rw [hF]; rfl
  have hF' : (toMont R C).F = mont R p := by unfold toMont; rw [hm]
  have ha := convertIn_spec hR C.a
  have hae : (toMont R C).a = convertIn R p C.a := by unfold toMont; rw [hm]
  refine ⟨hF', by rw [hF']; exact mont_ok h2 hR, ?_, ?_⟩
  · rw [hF', hae]; exact ha.1
  · rw [hae]; exact ha.2

theorem simPlain_spec (h2 : p ≠ 2) {R : Int} (hR : (R : ZMod p) ≠ 0) {C : Ec} (hF : C.F = plain p) {b : ZMod p} {wb : Nat} (hwb : 0 < wb)
    {heap0 heap : List (Pt × Nat) → List (Pt × Nat)} (hh : HeapOk heap0 heap) (depth : Nat) {P : Pt} {x : (curve (C.a : ZMod p) b).Point}
    (hP : PtRep (plain p) (fun x => (x : ZMod p)) P x) {es : List Nat} (hne : ∀ e ∈ es, e ≠ 0) :
    Post (fun _ : Unit => True) (simPlain R C wb heap0 heap (depth + 1) P es)
      (fun rs => List.Forall₂ (fun e r => PtRep (plain p) (fun x => (x : ZMod p)) r (e • x)) es rs) := by
  obtain ⟨hF', hok, ha, hae⟩ := toMont_ok h2 hR hF
  have hm : C.F.modulus = p := by rw [hF]; rfl
  have hin := ptIn_spec hR hP
  rw [← hF'] at hin
  unfold simPlain
  rw [hm]
  refine Post.bind (simMont_spec' hok ha hae hwb hh depth hin hne) fun rs hrs => Post.pure ?_
  rw [hF'] at hrs
  clear hne
  induction hrs with
  | nil => exact .nil
  | cons h1 _ ih => exact .cons (ptOut_spec h1) ih

theorem plainMuls_ok (h2 : p ≠ 2) {R : Int} (hR : (R : ZMod p) ≠ 0) {C : Ec} (hF : C.F = plain p) (ha : El C.F C.a) {b : ZMod p} {wb : Nat} (hwb : 0 < wb)
    {heap0 heap : List (Pt × Nat) → List (Pt × Nat)} (hh : HeapOk heap0 heap) (depth : Nat) :
    MulsOk (G := (curve (C.a : ZMod p) b).Point) (plainMuls R C wb heap0 heap (depth + 1)) (fun _ => True) (PtRep (plain p) fun x => (x : ZMod p))
      (PtRep (plain p) fun x => (x : ZMod p)) (fun _ => True) := by
  have hm : C.F.modulus = p := by rw [hF]; rfl
  obtain ⟨hF', hok, ham, hae⟩ := toMont_ok h2 hR hF
  have hokp : FOk C.F (fun x => (x : ZMod p)) := by rw [hF]; exact plain_ok h2
  have hL := laws hokp ha b
  rw [hF] at hL
  refine ⟨fun _ _ => trivial, fun {P x} hP {e} _ => ?_, fun {P Q x y} hP hQ {e1 e2} _ _ => ?_⟩
  · show Post _ (if bitLen e ≤ 5 then _ else _) _
    by_cases he : bitLen e ≤ 5
    · rw [if_pos he]
      exact scalarMultiply_spec hwb hL hP e
    · rw [if_neg he]
      have he0 : e ≠ 0 := fun h0 => he (bitLen_le5.2 (by omega))
      refine Post.bind (simPlain_spec h2 hR hF hwb hh depth hP (es := [e]) (by simpa using he0)) fun rs hrs => ?_
      exact one'_spec hrs fun _ => id
  · have h1 := ptIn_spec hR hP
    have h3 := ptIn_spec hR hQ
    rw [← hF'] at h1 h3
    show Post _ (do let r ← cascadeScalarMultiply (grp (toMont R C)) (ptIn R C.F.modulus P) e1 (ptIn R C.F.modulus Q) e2; pure (ptOut R C.F.modulus r)) _
    rw [hm]
    refine Post.bind (cascadeScalarMultiply_spec (laws' hok ham hae b) h1 h3 e1 e2) fun r hr => Post.pure ?_
    rw [hF'] at hr
    exact ptOut_spec hr

theorem fixedBase_spec (h2 : p ≠ 2) {R : Int} (hR : (R : ZMod p) ≠ 0) {C : Ec} (hF : C.F = plain p) {b : ZMod p} {wb : Nat} (hwb : 0 < wb)
    {heap0 heap : List (Pt × Nat) → List (Pt × Nat)} (hh : HeapOk heap0 heap) (depth : Nat) {P : Pt} {x : (curve (C.a : ZMod p) b).Point}
    (hP : PtRep (plain p) (fun x => (x : ZMod p)) P x) (maxExpBits : Nat) {storage : Nat} (hs : 0 < storage) (e : Nat) :
    Post (fun _ : Unit => True) (fixedBase R C wb heap0 heap (depth + 2) P maxExpBits storage e)
      (fun r => PtRep (plain p) (fun x => (x : ZMod p)) r (e • x)) := by
  obtain ⟨hF', hok, ha, hae⟩ := toMont_ok h2 hR hF
  have hm : C.F.modulus = p := by rw [hF]; rfl
  have hin := ptIn_spec hR hP
  rw [← hF'] at hin
  have := fixed_base_correct (montMuls_ok' hok ha hae hwb hh depth) (laws' hok ha hae b) hh hin maxExpBits hs e
  unfold fixedBase
  rw [hm]
  have h3 := this.bind (f := fun r => pure (ptOut R p r)) (Q := fun r => PtRep (plain p) (fun x => (x : ZMod p)) r (e • x))
    fun r hr => Post.pure (by rw [hF'] at hr; exact ptOut_spec hr)
  simpa [bind_assoc] using h3

theorem fixedBaseCascade_spec (h2 : p ≠ 2) {R : Int} (hR : (R : ZMod p) ≠ 0) {C : Ec} (hF : C.F = plain p) {b : ZMod p} {wb : Nat} (hwb : 0 < wb)
    {heap0 heap : List (Pt × Nat) → List (Pt × Nat)} (hh : HeapOk heap0 heap) (depth : Nat) {P Q : Pt} {x y : (curve (C.a : ZMod p) b).Point}
    (hP : PtRep (plain p) (fun x => (x : ZMod p)) P x) (hQ : PtRep (plain p) (fun x => (x : ZMod p)) Q y) (max1 max2 : Nat) {st1 st2 : Nat}
    (hs1 : 0 < st1) (hs2 : 0 < st2) (e1 e2 : Nat) :
    Post (fun _ : Unit => True) (fixedBaseCascade R C wb heap0 heap (depth + 2) P Q max1 max2 st1 st2 e1 e2)
      (fun r => PtRep (plain p) (fun x => (x : ZMod p)) r (e1 • x + e2 • y)) := by
  obtain ⟨hF', hok, ha, hae⟩ := toMont_ok h2 hR hF
  have hm : C.F.modulus = p := by rw [hF]; rfl
  have hin := ptIn_spec hR hP
  have hin2 := ptIn_spec hR hQ
  rw [← hF'] at hin hin2
  have := fixed_base_cascade_correct (montMuls_ok' hok ha hae hwb hh depth) (laws' hok ha hae b) hh hin hin2 max1 max2 hs1 hs2 e1 e2
  unfold fixedBaseCascade
  rw [hm]
  have h3 := this.bind (f := fun r => pure (ptOut R p r)) (Q := fun r => PtRep (plain p) (fun x => (x : ZMod p)) r (e1 • x + e2 • y))
    fun r hr => Post.pure (by rw [hF'] at hr; exact ptOut_spec hr)
  simpa [bind_assoc] using h3

/-! ## `VerifyPoint` -/

theorem curve_elliptic {a b : K} (h2 : (2 : K) ≠ 0) (hd : 4 * a ^ 3 + 27 * b ^ 2 ≠ 0) : (curve a b).IsElliptic := by
  refine ⟨?_⟩
  have : (curve a b).Δ = -2 ^ 4 * (4 * a ^ 3 + 27 * b ^ 2) := by
    simp only [WeierstrassCurve.Δ, WeierstrassCurve.b₂, WeierstrassCurve.b₄, WeierstrassCurve.b₆, WeierstrassCurve.b₈, curve]; ring
  rw [this]
  exact (mul_ne_zero (neg_ne_zero.2 (pow_ne_zero _ h2)) hd).isUnit

theorem equation_curve {a b x y : K} : (curve a b).Equation x y ↔ y ^ 2 = x ^ 3 + a * x + b := by
  rw [WeierstrassCurve.Affine.equation_iff]
  simp [curve]

theorem verifyPoint_spec {C : Ec} (hF : C.F = plain p) (P : Pt) :
    verifyPoint C P = true ↔ P.identity = true ∨ ((0 ≤ P.x ∧ P.x < p) ∧ (0 ≤ P.y ∧ P.y < p) ∧ (P.y : ZMod p) ^ 2 = (P.x : ZMod p) ^ 3 + C.a * P.x + C.b) := by
  have hm : C.F.modulus = p := by rw [hF]; rfl
  unfold verifyPoint
  rw [hm]
  have key : ((P.x * P.x + C.a) * P.x + C.b - P.y * P.y) % (p : Int) = 0 ↔ (P.y : ZMod p) ^ 2 = (P.x : ZMod p) ^ 3 + C.a * P.x + C.b := by
    rw [← Int.dvd_iff_emod_eq_zero, ← ZMod.intCast_zmod_eq_zero_iff_dvd]
    push_cast
    constructor
    · intro h; linear_combination -h
    · intro h; linear_combination -h
  simp only [Bool.or_eq_true, Bool.and_eq_true, decide_eq_true_eq, key]
  tauto

theorem verifyPoint_rep {C : Ec} (h2 : p ≠ 2) (hF : C.F = plain p) (hd : 4 * (C.a : ZMod p) ^ 3 + 27 * (C.b : ZMod p) ^ 2 ≠ 0) (P : Pt) :
    verifyPoint C P = true ↔ ∃ g : (curve (C.a : ZMod p) C.b).Point, PtRep (plain p) (fun x => (x : ZMod p)) P g := by
  rw [verifyPoint_spec hF]
  haveI := curve_elliptic (two_ne h2) hd
  constructor
  · rintro (h | ⟨h1, h3, h4⟩)
    · exact ⟨0, h⟩
    · by_cases hi : P.identity = true
      · exact ⟨0, hi⟩
      · exact ⟨.some _ _ (WeierstrassCurve.Affine.equation_iff_nonsingular.1 (equation_curve.2 h4)), by simpa using hi, h1, h3, rfl, rfl⟩
  · rintro ⟨g, hg⟩
    cases g with
    | zero => exact Or.inl hg
    | some x y hns =>
      obtain ⟨_, h1, h3, rfl, rfl⟩ := hg
      exact Or.inr ⟨h1, h3, equation_curve.1 hns.1⟩

theorem PtRep.unique {F : Fld} {W : WeierstrassCurve.Affine K} {P : Pt} {g k : W.Point} (h1 : PtRep F φ P g) (h2 : PtRep F φ P k) : g = k := by
  cases g with
  | zero =>
    have e1 : P.identity = true := h1
    cases k with
    | zero => rfl
    | some x y h => rw [h2.1] at e1; cases e1
  | some x y h =>
    obtain ⟨a1, _, _, rfl, rfl⟩ := h1
    cases k with
    | zero => rw [show P.identity = true from h2] at a1; cases a1
    | some x' y' h' =>
      obtain ⟨_, _, _, rfl, rfl⟩ := h2
      rfl

/-! ## Aliasing -/

theorem inverseRef_spec (C : Ec) (R : Pt) (P : Arg) : (inverseRef C R P).1.get (inverseRef C R P).2 = inverse C (P.get R) := by
  unfold inverseRef inverse
  split
  · rfl
  · cases P <;> rfl

theorem doubleRef_spec (C : Ec) (R : Pt) (P : Arg) : (doubleRef C R P).1.get (doubleRef C R P).2 = double C (P.get R) := by
  unfold doubleRef double
  split <;> rfl

theorem addRef_spec (C : Ec) (R : Pt) (P Q : Arg) : (addRef C R P Q).1.get (addRef C R P Q).2 = add C (P.get R) (Q.get R) := by
  unfold addRef add
  split
  · rfl
  · split
    · rfl
    · split
      · split
        · exact doubleRef_spec C R P
        · rfl
      · rfl

end Verif.Ecp
