import Verif.Integer.MulInsProofs

/-!
# Squares, schedules of the literal programs, and the base cases
-/
namespace Verif.Integer

/-- Schedule of a squaring program.  `dbl` tells whether the column accumulated so far has been doubled. -/
def planSq (n K : Nat) : Bool → Nat → Nat → List MulIns → Option (Nat × List (Nat × Nat))
  | false, k, cnt, .sqAcc i j :: r =>
    if i + j = k ∧ i < n ∧ j < n ∧ cnt < 15 then
      (planSq n K false k (cnt + 1) r).map fun x => (x.1, (i, j) :: (j, i) :: x.2) else none
  | false, k, cnt, .sqNonDiag :: r => planSq n K true k cnt r
  | false, k, cnt, .sqDiag i :: r =>
    if i + i = k ∧ i < n then (planSq n K true k cnt r).map fun x => (x.1, (i, i) :: x.2) else none
  | true, k, _, .sqSave k' i j :: r =>
    if k' = k ∧ i + j = k + 1 ∧ i < n ∧ j < n ∧ k < K then
      (planSq n K false (k + 1) 1 r).map fun x => (x.1, (i, j) :: (j, i) :: x.2) else none
  | true, k, _, [.sqEnd n'] =>
    if 2 * n' - 3 = k ∧ 2 ≤ n' ∧ n' ≤ n ∧ k + 3 ≤ K then some (k + 3, [(n' - 1, n' - 1)]) else none
  | _, _, _, _ => none

section
variable {B R A Bp L : Nat} (hB : 256 ≤ B) (hev : B % 2 = 0) {m0 : WMem} {n K : Nat}
  (hA : R + K ≤ A ∨ A + n ≤ R) (hm0 : AllW B m0)
include hB hev hA hm0

theorem runPlanSq (prog : List MulIns) : ∀ (dbl : Bool) (k cnt kf : Nat) (ps : List (Nat × Nat)) (s : MulSt) (W : Nat),
    planSq n K dbl k cnt prog = some (kf, ps) → AllW B s.m → Same m0 s.m R k → k ≤ K →
    s.c < B → s.d.1 < B → s.d.2 < B → s.e.1 < B → s.e.2 < B → cnt ≤ 15 → s.e.1 + B * s.e.2 ≤ 32 * B →
    (dbl = false → acc3 B s.c s.d ≤ cnt * ((B - 1) * (B - 1))) →
    (dbl = true → acc3 B s.c s.d ≤ (2 * cnt + 1) * ((B - 1) * (B - 1))) →
    mval B s.m R k + B ^ k * ((if dbl then 1 else 2) * acc3 B s.c s.d + (s.e.1 + B * s.e.2)) = W →
    AllW B (prog.foldl (step B R A Bp L) s).m ∧ Same m0 (prog.foldl (step B R A Bp L) s).m R kf ∧ kf ≤ K ∧
      mval B (prog.foldl (step B R A Bp L) s).m R kf
        = (W + psum B 0 (fun i => m0 (A + i)) (fun j => m0 (A + j)) ps) % B ^ kf := by
  have hB1 : 1 < B := by omega
  have hsq := pred_sq hB1
  have h3 : B ^ 3 = B * (B * B) := by ring
  have hBB : 256 * (B * B) ≤ B ^ 3 := by rw [h3]; exact Nat.mul_le_mul_right _ hB
  have hBB2 : 256 * B ≤ B * B := Nat.mul_le_mul_right _ hB
  induction prog with
  | nil => intro dbl k cnt kf ps s W h; cases dbl <;> simp [planSq] at h
  | cons x r ih =>
    intro dbl k cnt kf ps s W h hall hsame hk hc hd1 hd2 he1 he2 hcnt hE hV hV' hW
    have hcq : cnt * ((B - 1) * (B - 1)) ≤ 15 * ((B - 1) * (B - 1)) := Nat.mul_le_mul_right _ hcnt
    have hcq2 : (2 * cnt + 1) * ((B - 1) * (B - 1)) ≤ 31 * ((B - 1) * (B - 1)) := Nat.mul_le_mul_right _ (by omega)
    have hcd : (2 * cnt + 1) * ((B - 1) * (B - 1)) = 2 * (cnt * ((B - 1) * (B - 1))) + (B - 1) * (B - 1) := by ring
    cases x with
    | sqAcc i j =>
      cases dbl with
      | true => simp [planSq] at h
      | false =>
      simp only [planSq] at h
      split at h
      · rename_i hcond
        obtain ⟨h1, h2, h3', h4⟩ := hcond
        cases hp : planSq n K false k (cnt + 1) r with
        | none => rw [hp] at h; cases h
        | some y =>
          rw [hp] at h
          obtain ⟨kf', ps'⟩ := y
          simp only [Option.map_some, Option.some.injEq, Prod.mk.injEq] at h
          obtain ⟨rfl, rfl⟩ := h
          have hV0 := hV rfl
          have ea : s.m (A + i) = m0 (A + i) := hsame _ (by omega)
          have eb : s.m (A + j) = m0 (A + j) := hsame _ (by omega)
          have hab := mul_le_pred (hm0 (A + i)) (hm0 (A + j))
          obtain ⟨f1, f2, f3, f4⟩ := mulAcc_spec (c := s.c) (d := s.d) hB1 hc hd1 hd2 (hm0 (A + i)) (hm0 (A + j))
          have f4' := f4 (by omega)
          rw [List.foldl_cons]
          have := ih false k (cnt + 1) kf' ps' (step B R A Bp L s (.sqAcc i j))
            (W + 2 * (m0 (A + i) * m0 (A + j)) * B ^ k) hp hall
            hsame hk (by simp only [step]; rw [ea, eb]; exact f1) (by simp only [step]; rw [ea, eb]; exact f2)
            (by simp only [step]; rw [ea, eb]; exact f3) he1 he2 (by omega) hE
            (by intro _; simp only [step]; rw [ea, eb, f4', Nat.succ_mul]; omega)
            (by intro hh; cases hh)
            (by simp only [step]; rw [ea, eb, f4', ← hW]; simp; ring)
          obtain ⟨g1, g2, g3, g4⟩ := this
          refine ⟨g1, g2, g3, ?_⟩
          rw [g4]
          simp only [psum]
          rw [show i + j - 0 = k by omega, show j + i - 0 = k by omega]
          congr 1; ring
      · cases h
    | sqNonDiag =>
      cases dbl with
      | true => simp [planSq] at h
      | false =>
      simp only [planSq] at h
      have hV0 := hV rfl
      obtain ⟨f1, f2, f3, f4⟩ := double3_spec (c := s.c) (d := s.d) hB1 hc hd1 hd2 hev
      have f4' := f4 (by omega)
      rw [List.foldl_cons]
      exact ih true k cnt kf ps (step B R A Bp L s .sqNonDiag) W h hall hsame hk f1 f2 f3 he1 he2 hcnt hE
        (by intro hh; cases hh) (by intro _; simp only [step]; rw [f4', hcd]; omega)
        (by simp only [step]; rw [f4', ← hW]; simp)
    | sqDiag i =>
      cases dbl with
      | true => simp [planSq] at h
      | false =>
      simp only [planSq] at h
      split at h
      · rename_i hcond
        obtain ⟨h1, h2⟩ := hcond
        cases hp : planSq n K true k cnt r with
        | none => rw [hp] at h; cases h
        | some y =>
          rw [hp] at h
          obtain ⟨kf', ps'⟩ := y
          simp only [Option.map_some, Option.some.injEq, Prod.mk.injEq] at h
          obtain ⟨rfl, rfl⟩ := h
          have hV0 := hV rfl
          have ea : s.m (A + i) = m0 (A + i) := hsame _ (by omega)
          have hab := mul_le_pred (hm0 (A + i)) (hm0 (A + i))
          obtain ⟨f1, f2, f3, f4⟩ := double3_spec (c := s.c) (d := s.d) hB1 hc hd1 hd2 hev
          have f4' := f4 (by omega)
          obtain ⟨q1, q2, q3, q4⟩ := mulAcc_spec (c := (double3 B s.c s.d).1) (d := (double3 B s.c s.d).2) hB1 f1 f2 f3
            (hm0 (A + i)) (hm0 (A + i))
          have q4' := q4 (by omega)
          rw [List.foldl_cons]
          have := ih true k cnt kf' ps' (step B R A Bp L s (.sqDiag i)) (W + m0 (A + i) * m0 (A + i) * B ^ k) hp hall
            hsame hk (by simp only [step]; rw [ea]; exact q1) (by simp only [step]; rw [ea]; exact q2)
            (by simp only [step]; rw [ea]; exact q3) he1 he2 (by omega) hE
            (by intro hh; cases hh)
            (by intro _; simp only [step]; rw [ea, q4', f4', hcd]; omega)
            (by simp only [step]; rw [ea, q4', f4', ← hW]; simp; ring)
          obtain ⟨g1, g2, g3, g4⟩ := this
          refine ⟨g1, g2, g3, ?_⟩
          rw [g4]
          simp only [psum]
          rw [show i + i - 0 = k by omega]
          congr 1; ring
      · cases h
    | sqSave k' i j =>
      cases dbl with
      | false => simp [planSq] at h
      | true =>
      simp only [planSq] at h
      split at h
      · rename_i hcond
        obtain ⟨rfl, h1, h2, h3', h4⟩ := hcond
        cases hp : planSq n K false (k' + 1) 1 r with
        | none => rw [hp] at h; cases h
        | some y =>
          rw [hp] at h
          obtain ⟨kf', ps'⟩ := y
          simp only [Option.map_some, Option.some.injEq, Prod.mk.injEq] at h
          obtain ⟨rfl, rfl⟩ := h
          have hV0 := hV' rfl
          obtain ⟨f1, f2, f3, f4⟩ := acc3by2_spec (c := s.c) (d := s.d) (e := s.e) hB1 hc hd1 hd2 he1 he2 (by omega) (by omega)
          have hsame' := same_setW hsame (acc3by2 B s.c s.d s.e).1
          have ea : setW s.m (R + k') (acc3by2 B s.c s.d s.e).1 (A + i) = m0 (A + i) := hsame' _ (by omega)
          have eb : setW s.m (R + k') (acc3by2 B s.c s.d s.e).1 (A + j) = m0 (A + j) := hsame' _ (by omega)
          obtain ⟨p1, p2, p3⟩ := mulWords_spec (hm0 (A + i)) (hm0 (A + j))
          have hab := mul_le_pred (hm0 (A + i)) (hm0 (A + j))
          have hcar : (acc3by2 B s.c s.d s.e).2.1 + B * (acc3by2 B s.c s.d s.e).2.2 ≤ 32 * B := by
            have : B * ((acc3by2 B s.c s.d s.e).2.1 + B * (acc3by2 B s.c s.d s.e).2.2) ≤ B * (32 * B) := by
              have e : B * (32 * B) = 32 * (B * B) := by ring
              unfold acc3 at f4 hV0
              omega
            exact Nat.le_of_mul_le_mul_left this (by omega)
          have eV : acc3 B (mulWords B (m0 (A + i)) (m0 (A + j))).1 ((mulWords B (m0 (A + i)) (m0 (A + j))).2, 0)
              = m0 (A + i) * m0 (A + j) := by
            rw [← p3]; simp [acc3]
          rw [List.foldl_cons]
          have := ih false (k' + 1) 1 kf' ps' (step B R A Bp L s (.sqSave k' i j))
            (W + 2 * (m0 (A + i) * m0 (A + j)) * B ^ (k' + 1))
            hp (setW_allW hall _ f1)
            hsame' (by omega) (by simp only [step]; rw [ea, eb]; exact p1) (by simp only [step]; rw [ea, eb]; exact p2)
            (by simp only [step]; omega) f2 f3 (by omega) hcar
            (by intro _; simp only [step]; rw [ea, eb, eV]; omega)
            (by intro hh; cases hh)
            (by
              simp only [step]; rw [ea, eb, eV, mval_setW_top, ← hW]
              unfold acc3 at f4 ⊢
              simp only [if_true, Bool.false_eq_true, if_false, Nat.one_mul]
              rw [← f4]; ring)
          obtain ⟨g1, g2, g3, g4⟩ := this
          refine ⟨g1, g2, g3, ?_⟩
          rw [g4]
          simp only [psum]
          rw [show i + j - 0 = k' + 1 by omega, show j + i - 0 = k' + 1 by omega]
          congr 1; ring
      · cases h
    | sqEnd n' =>
      cases dbl with
      | false => simp [planSq] at h
      | true =>
      cases r with
      | cons y r' => simp [planSq] at h
      | nil =>
        simp only [planSq] at h
        split at h
        · rename_i hcond
          obtain ⟨h1, h2, h3', h4⟩ := hcond
          simp only [Option.some.injEq, Prod.mk.injEq] at h
          obtain ⟨rfl, rfl⟩ := h
          have hV0 := hV' rfl
          obtain ⟨f1, f2, f3, f4⟩ := acc3by2_spec (c := s.c) (d := s.d) (e := s.e) hB1 hc hd1 hd2 he1 he2 (by omega) (by omega)
          have hsame' := same_setW hsame (acc3by2 B s.c s.d s.e).1
          have ea : setW s.m (R + k) (acc3by2 B s.c s.d s.e).1 (A + (n' - 1)) = m0 (A + (n' - 1)) := hsame' _ (by omega)
          obtain ⟨p1, p2, p3⟩ := mulWords_spec (hm0 (A + (n' - 1))) (hm0 (A + (n' - 1)))
          obtain ⟨q1, q2, q3⟩ := acc2by2_spec hB1 (mulWords B (m0 (A + (n' - 1))) (m0 (A + (n' - 1))))
            (acc3by2 B s.c s.d s.e).2 p1 f2
          simp only [List.foldl_cons, List.foldl_nil, step, psum]
          rw [h1, show 2 * n' - 2 = k + 1 by omega, show 2 * n' - 1 = k + 2 by omega, ea]
          have hall1 := setW_allW (B := B) hall (R + k) f1
          have hall2 := setW_allW (B := B) hall1 (R + (k + 1)) q1
          have hall3 := setW_allW (B := B) hall2 (R + (k + 2)) q2
          refine ⟨hall3, same_setW (same_setW hsame' _) _, h4, ?_⟩
          rw [show k + 3 = k + 2 + 1 by omega, mval_setW_top, show k + 2 = k + 1 + 1 by omega, mval_setW_top,
            mval_setW_top]
          generalize m0 (A + (n' - 1)) = a at *
          have e0 : mval B s.m R k + B ^ k * (acc3by2 B s.c s.d s.e).1
              + B ^ (k + 1) * (acc2by2 B (mulWords B a a) (acc3by2 B s.c s.d s.e).2).1
              + B ^ (k + 1 + 1) * (acc2by2 B (mulWords B a a) (acc3by2 B s.c s.d s.e).2).2
            = (mval B s.m R k + B ^ k * (acc3by2 B s.c s.d s.e).1) + B ^ (k + 1) *
                ((a * a + ((acc3by2 B s.c s.d s.e).2.1 + B * (acc3by2 B s.c s.d s.e).2.2)) % (B * B)) := by
            rw [← p3, ← q3]; ring
          rw [e0]
          have e1 : W + (a * a * B ^ (n' - 1 + (n' - 1) - 0) + 0)
            = (mval B s.m R k + B ^ k * (acc3by2 B s.c s.d s.e).1) + B ^ (k + 1) *
                (a * a + ((acc3by2 B s.c s.d s.e).2.1 + B * (acc3by2 B s.c s.d s.e).2.2)) := by
            rw [← hW, show n' - 1 + (n' - 1) - 0 = k + 1 by omega]
            simp only [if_true, Nat.one_mul]
            rw [← f4]; unfold acc3; ring
          rw [e1]
          have hlow : mval B s.m R k + B ^ k * (acc3by2 B s.c s.d s.e).1 < B ^ (k + 1) := by
            rw [← mval_setW_top]; exact mval_lt hall1 _ _
          have e2 : B ^ (k + 1 + 1 + 1) = B ^ (k + 1) * (B * B) := by ring
          rw [e2]
          generalize B * B = D
          rw [Nat.mod_mul, Nat.add_mul_mod_self_left, Nat.mod_eq_of_lt hlow,
            Nat.add_mul_div_left _ _ (Nat.pos_of_ne_zero (by positivity)), Nat.div_eq_of_lt hlow, Nat.zero_add]
        · cases h
    | _ => cases dbl <;> simp [planSq] at h

end

/-! ## Sums over index grids -/

theorem psum_append (B o : Nat) (a b : Nat → Nat) (xs ys : List (Nat × Nat)) :
    psum B o a b (xs ++ ys) = psum B o a b xs + psum B o a b ys := by
  induction xs with
  | nil => simp [psum]
  | cons x r ih => obtain ⟨i, j⟩ := x; simp only [List.cons_append, psum, ih]; omega

theorem psum_perm {B o : Nat} {a b : Nat → Nat} {xs ys : List (Nat × Nat)} (h : xs.Perm ys) :
    psum B o a b xs = psum B o a b ys := by
  induction h with
  | nil => rfl
  | cons x _ ih => obtain ⟨i, j⟩ := x; simp only [psum, ih]
  | swap x y l => obtain ⟨i, j⟩ := x; obtain ⟨i', j'⟩ := y; simp only [psum]; omega
  | trans _ _ ih1 ih2 => rw [ih1, ih2]

/-- All index pairs `(i, j)` with `i < p`, `j < q`. -/
def grid (p q : Nat) : List (Nat × Nat) := (List.range p).flatMap fun i => (List.range q).map fun j => (i, j)

theorem psum_row (B : Nat) (m : WMem) (A Bp i q : Nat) :
    psum B 0 (fun i => m (A + i)) (fun j => m (Bp + j)) ((List.range q).map fun j => (i, j))
      = m (A + i) * B ^ i * mval B m Bp q := by
  induction q with
  | zero => simp [psum]
  | succ q ih =>
    rw [List.range_succ, List.map_append, psum_append, ih, mval_succ]
    simp only [List.map_cons, List.map_nil, psum]
    rw [show i + q - 0 = i + q by omega, pow_add]; ring

theorem psum_grid (B : Nat) (m : WMem) (A Bp p q : Nat) :
    psum B 0 (fun i => m (A + i)) (fun j => m (Bp + j)) (grid p q) = mval B m A p * mval B m Bp q := by
  induction p with
  | zero => simp [grid, psum]
  | succ p ih =>
    unfold grid at ih ⊢
    rw [List.range_succ, List.flatMap_append, psum_append, ih, mval_succ]
    simp only [List.flatMap_cons, List.flatMap_nil, List.append_nil]
    rw [psum_row]; ring

/-- Does a schedule come out with the given number of words and, up to order, the given products? -/
def okPlan (r : Option (Nat × List (Nat × Nat))) (kf : Nat) (g : List (Nat × Nat)) : Bool :=
  match r with
  | some (k, ps) => k == kf && ps.isPerm g
  | none => false

theorem okPlan_iff {r : Option (Nat × List (Nat × Nat))} {kf : Nat} {g : List (Nat × Nat)} (h : okPlan r kf g = true) :
    ∃ ps, r = some (kf, ps) ∧ ps.Perm g := by
  cases r with
  | none => simp [okPlan] at h
  | some x =>
    obtain ⟨k, ps⟩ := x
    simp only [okPlan, Bool.and_eq_true, beq_iff_eq] at h
    exact ⟨ps, by rw [h.1], List.isPerm_iff.mp h.2⟩

end Verif.Integer
