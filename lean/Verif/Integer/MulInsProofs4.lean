import Verif.Integer.MulInsProofs3

/-!
# The base cases of top-half multiplication

`Baseline_MultiplyTop*` never computes the columns below `n - 2`.  It starts from the high words of column `n - 2`, adds
column `n - 1`, and uses the known word `n - 1` of the product to decide whether the missing part carries.
-/
namespace Verif.Integer

/-- Schedule of the column `n - 1` and of everything after it. -/
def planT1 (n : Nat) : Nat → List MulIns → Option (List (Nat × Nat) × Nat × List (Nat × Nat))
  | cnt, .acc i j :: r =>
    if i + j + 1 = n ∧ i < n ∧ j < n ∧ cnt < 32 then
      (planT1 n (cnt + 1) r).map fun x => ((i, j) :: x.1, x.2.1, x.2.2) else none
  | _, .topSave1 i j :: r =>
    if i + j = n ∧ i < n ∧ j < n then (plan n n n 0 1 r).map fun x => ([], x.1, (i, j) :: x.2) else none
  | _, _ => none

/-- Schedule of the column `n - 2` and of everything after it. -/
def planT0 (n : Nat) :
    Nat → List MulIns → Option (List (Nat × Nat) × List (Nat × Nat) × Nat × List (Nat × Nat))
  | cnt, .topAcc i j :: r =>
    if i + j + 2 = n ∧ i < n ∧ j < n ∧ cnt < 32 then
      (planT0 n (cnt + 1) r).map fun x => ((i, j) :: x.1, x.2.1, x.2.2.1, x.2.2.2) else none
  | _, .topSave0 i j :: r =>
    if i + j + 1 = n ∧ i < n ∧ j < n then (planT1 n 1 r).map fun x => ([], (i, j) :: x.1, x.2.1, x.2.2) else none
  | _, _ => none

/-- Sum of the high words of products. -/
def hsum (B : Nat) (a b : Nat → Nat) : List (Nat × Nat) → Nat
  | [] => 0
  | (i, j) :: r => a i * b j / B + hsum B a b r

theorem psum_hsum (B n : Nat) (hB : 0 < B) (a b : Nat → Nat) (ps : List (Nat × Nat)) (h : ∀ p ∈ ps, p.1 + p.2 ≤ n) :
    B * hsum B a b ps ≤ psum B n a b ps ∧ psum B n a b ps ≤ B * hsum B a b ps + ps.length * B := by
  induction ps with
  | nil => simp [hsum, psum]
  | cons x r ih =>
    obtain ⟨i, j⟩ := x
    have h1 : i + j ≤ n := h _ (List.mem_cons_self ..)
    obtain ⟨g1, g2⟩ := ih (fun p hp => h p (List.mem_cons_of_mem _ hp))
    simp only [hsum, psum, List.length_cons]
    rw [show i + j - n = 0 by omega, pow_zero, Nat.mul_one, Nat.mul_add, Nat.succ_mul]
    have e := Nat.mod_add_div (a i * b j) B
    have l := Nat.mod_lt (a i * b j) hB
    omega

theorem psum_col (B k o : Nat) (a b : Nat → Nat) (hk : k ≤ o) (ps : List (Nat × Nat)) (h : ∀ p ∈ ps, p.1 + p.2 = k) :
    psum B 0 a b ps = B ^ k * psum B o a b ps := by
  induction ps with
  | nil => simp [psum]
  | cons x r ih =>
    obtain ⟨i, j⟩ := x
    have h1 : i + j = k := h _ (List.mem_cons_self ..)
    simp only [psum]
    rw [ih (fun p hp => h p (List.mem_cons_of_mem _ hp)), Nat.mul_add, show i + j - o = 0 by omega,
      show i + j - 0 = k by omega]
    ring

/-- The pairs with `i + j < q`. -/
def tri (q p : Nat) : List (Nat × Nat) := (List.range p).flatMap fun i => (List.range (q - i)).map fun j => (i, j)

theorem psum_tri {B : Nat} {m : WMem} (hm : AllW B m) (A Bp q p : Nat) (hp : p ≤ q) :
    psum B 0 (fun i => m (A + i)) (fun j => m (Bp + j)) (tri q p) ≤ p * B ^ (q + 1) := by
  induction p with
  | zero => simp [tri, psum]
  | succ p ih =>
    have ih' := ih (by omega)
    unfold tri at ih' ⊢
    rw [List.range_succ, List.flatMap_append, psum_append]
    simp only [List.flatMap_cons, List.flatMap_nil, List.append_nil]
    rw [psum_row, Nat.succ_mul]
    have h1 : m (A + p) * B ^ p * mval B m Bp (q - p) ≤ B * B ^ p * B ^ (q - p) :=
      Nat.mul_le_mul (Nat.mul_le_mul_right _ (Nat.le_of_lt (hm _))) (Nat.le_of_lt (mval_lt hm _ _))
    have h2 : B * B ^ p * B ^ (q - p) = B ^ (q + 1) := by
      rw [Nat.mul_assoc, ← pow_add, show p + (q - p) = q by omega, pow_succ]; ring
    omega

/-- `a < b` as a word. -/
def ltW (a b : Nat) : Nat := if a < b then 1 else 0

theorem ltW_le (a b : Nat) : ltW a b ≤ 1 := by unfold ltW; split <;> omega

section
variable {B R A Bp L : Nat} (hB : 256 ≤ B) {m0 : WMem} {n : Nat}
  (hA : R + n ≤ A ∨ A + n ≤ R) (hBp : R + n ≤ Bp ∨ Bp + n ≤ R) (hm0 : AllW B m0)
include hB hA hBp hm0

theorem runT1 (prog : List MulIns) : ∀ (cnt kf : Nat) (ps1 ps : List (Nat × Nat)) (s : MulSt),
    planT1 n cnt prog = some (ps1, kf, ps) → s.m = m0 → s.c < B → s.d.1 < B → s.d.2 < B → cnt ≤ 32 →
    acc3 B s.c s.d ≤ cnt * ((B - 1) * (B - 1)) + 32 * B →
    ∀ V, V = acc3 B s.c s.d + psum B n (fun i => m0 (A + i)) (fun j => m0 (Bp + j)) ps1 →
    AllW B (prog.foldl (step B R A Bp L) s).m ∧ Same m0 (prog.foldl (step B R A Bp L) s).m R kf ∧ kf ≤ n ∧
      (∀ p ∈ ps1, p.1 + p.2 + 1 = n) ∧
      mval B (prog.foldl (step B R A Bp L) s).m R kf
        = (V / B + ltW L (V % B) + psum B n (fun i => m0 (A + i)) (fun j => m0 (Bp + j)) ps) % B ^ kf := by
  have hB1 : 1 < B := by omega
  have hsq := pred_sq hB1
  have h3 : B ^ 3 = B * (B * B) := by ring
  have hBB : 256 * (B * B) ≤ B ^ 3 := by rw [h3]; exact Nat.mul_le_mul_right _ hB
  have hBB2 : 256 * B ≤ B * B := Nat.mul_le_mul_right _ hB
  induction prog with
  | nil => intro cnt kf ps1 ps s h; simp [planT1] at h
  | cons x r ih =>
    intro cnt kf ps1 ps s h hsm hc hd1 hd2 hcnt hV V hVeq
    have hcq : cnt * ((B - 1) * (B - 1)) ≤ 32 * ((B - 1) * (B - 1)) := Nat.mul_le_mul_right _ hcnt
    cases x with
    | acc i j =>
      simp only [planT1] at h
      split at h
      · rename_i hcond
        obtain ⟨h1, h2, h3', h4⟩ := hcond
        cases hp : planT1 n (cnt + 1) r with
        | none => rw [hp] at h; cases h
        | some y =>
          rw [hp] at h
          obtain ⟨ps1', kf', ps'⟩ := y
          simp only [Option.map_some, Option.some.injEq, Prod.mk.injEq] at h
          obtain ⟨rfl, rfl, rfl⟩ := h
          have hab := mul_le_pred (hm0 (A + i)) (hm0 (Bp + j))
          obtain ⟨f1, f2, f3, f4⟩ := mulAcc_spec (c := s.c) (d := s.d) hB1 hc hd1 hd2 (hm0 (A + i)) (hm0 (Bp + j))
          have f4' := f4 (by omega)
          rw [List.foldl_cons]
          have eV : acc3 B (step B R A Bp L s (.acc i j)).c (step B R A Bp L s (.acc i j)).d
              = acc3 B s.c s.d + m0 (A + i) * m0 (Bp + j) := by simp only [step]; rw [hsm, f4']
          have := ih (cnt + 1) kf' ps1' ps' (step B R A Bp L s (.acc i j)) hp hsm
            (by simp only [step]; rw [hsm]; exact f1) (by simp only [step]; rw [hsm]; exact f2)
            (by simp only [step]; rw [hsm]; exact f3) (by omega)
            (by simp only [step]; rw [hsm, f4', Nat.succ_mul]; omega) V (by
              rw [hVeq, eV]; simp only [psum]
              rw [show i + j - n = 0 by omega, pow_zero, Nat.mul_one, Nat.add_assoc])
          obtain ⟨g1, g2, g3, g5, g4⟩ := this
          refine ⟨g1, g2, g3, ?_, g4⟩
          intro p hp
          rcases List.mem_cons.mp hp with rfl | hp
          · exact h1
          · exact g5 p hp
      · cases h
    | topSave1 i j =>
      simp only [planT1] at h
      split at h
      · rename_i hcond
        obtain ⟨h1, h2, h3'⟩ := hcond
        cases hp : plan n n n 0 1 r with
        | none => rw [hp] at h; cases h
        | some y =>
          rw [hp] at h
          obtain ⟨kf', ps'⟩ := y
          simp only [Option.map_some, Option.some.injEq, Prod.mk.injEq] at h
          obtain ⟨rfl, rfl, rfl⟩ := h
          have hcar : s.d.1 + B * s.d.2 + 1 ≤ 32 * B := by
            have : B * (s.d.1 + B * s.d.2 + 1) ≤ B * (32 * B) := by
              have e : B * (32 * B) = 32 * (B * B) := by ring
              have e' : B * (s.d.1 + B * s.d.2 + 1) = B * (s.d.1 + B * s.d.2) + B := by ring
              unfold acc3 at hV
              omega
            exact Nat.le_of_mul_le_mul_left this (by omega)
          simp only [psum, Nat.add_zero] at hVeq
          have hVm : V % B = s.c := by
            rw [hVeq]; unfold acc3; rw [Nat.add_mul_mod_self_left, Nat.mod_eq_of_lt hc]
          have hVd : V / B = s.d.1 + B * s.d.2 := by
            rw [hVeq]; unfold acc3; rw [Nat.add_mul_div_left _ _ (by omega), Nat.div_eq_of_lt hc, Nat.zero_add]
          rw [hVm, hVd]
          have hx := ltW_le L s.c
          have hxx : step B R A Bp L s (.topSave1 i j) =
            { s with
              c := (mulAcc B (add2by1 B s.d (ltW L s.c)).1
                ((add2by1 B s.d (ltW L s.c)).2, 0) (s.m (A + i)) (s.m (Bp + j))).1,
              d := (mulAcc B (add2by1 B s.d (ltW L s.c)).1
                ((add2by1 B s.d (ltW L s.c)).2, 0) (s.m (A + i)) (s.m (Bp + j))).2 } := rfl
          rw [List.foldl_cons, hxx, hsm]
          generalize ltW L s.c = x at *
          obtain ⟨a1, a2, a3⟩ := add2by1_spec hB1 s.d x hd1 hd2 (by omega)
          have a3' := a3 (by omega)
          have hab := mul_le_pred (hm0 (A + i)) (hm0 (Bp + j))
          obtain ⟨f1, f2, f3, f4⟩ := mulAcc_spec (c := (add2by1 B s.d x).1) (d := ((add2by1 B s.d x).2, 0)) hB1 a1 a2
            (by simp; omega) (hm0 (A + i)) (hm0 (Bp + j))
          have eV : acc3 B (add2by1 B s.d x).1 ((add2by1 B s.d x).2, 0) = s.d.1 + B * s.d.2 + x := by
            rw [← a3']; simp [acc3]
          rw [eV] at f4
          have f4' := f4 (by omega)
          have := runPlan (L := L) hB hA hBp hm0 r n 0 1 kf' ps' ⟨m0, (mulAcc B (add2by1 B s.d x).1
                ((add2by1 B s.d x).2, 0) (m0 (A + i)) (m0 (Bp + j))).1, (mulAcc B (add2by1 B s.d x).1
                ((add2by1 B s.d x).2, 0) (m0 (A + i)) (m0 (Bp + j))).2, s.e⟩
            (s.d.1 + B * s.d.2 + x + m0 (A + i) * m0 (Bp + j)) hp hm0 (fun _ _ => rfl) (by omega) f1 f2 f3 (by omega)
            (by simp only; rw [f4']; omega) (by simp only; rw [f4']; simp)
          obtain ⟨g1, g2, g3, g4⟩ := this
          refine ⟨g1, g2, g3, (by intro p hp; cases hp), ?_⟩
          rw [g4]
          simp only [psum]
          rw [show i + j - n = 0 by omega, pow_zero, Nat.mul_one, Nat.add_assoc _ (m0 (A + i) * m0 (Bp + j))]
      · cases h
    | _ => simp [planT1] at h

theorem runT0 (prog : List MulIns) : ∀ (cnt kf : Nat) (ps2 ps1 ps : List (Nat × Nat)) (s : MulSt),
    planT0 n cnt prog = some (ps2, ps1, kf, ps) → s.m = m0 → s.d.1 < B → s.d.2 < B → cnt ≤ 32 →
    s.d.1 + B * s.d.2 ≤ cnt * B →
    ∀ V, V = s.d.1 + B * s.d.2 + hsum B (fun i => m0 (A + i)) (fun j => m0 (Bp + j)) ps2
      + psum B n (fun i => m0 (A + i)) (fun j => m0 (Bp + j)) ps1 →
    AllW B (prog.foldl (step B R A Bp L) s).m ∧ Same m0 (prog.foldl (step B R A Bp L) s).m R kf ∧ kf ≤ n ∧
      (∀ p ∈ ps1, p.1 + p.2 + 1 = n) ∧ (∀ p ∈ ps2, p.1 + p.2 + 2 = n) ∧ cnt + ps2.length ≤ 32 ∧
      mval B (prog.foldl (step B R A Bp L) s).m R kf
        = (V / B + ltW L (V % B) + psum B n (fun i => m0 (A + i)) (fun j => m0 (Bp + j)) ps) % B ^ kf := by
  have hB1 : 1 < B := by omega
  have hsq := pred_sq hB1
  have h3 : B ^ 3 = B * (B * B) := by ring
  have hBB : 256 * (B * B) ≤ B ^ 3 := by rw [h3]; exact Nat.mul_le_mul_right _ hB
  have hBB2 : 256 * B ≤ B * B := Nat.mul_le_mul_right _ hB
  induction prog with
  | nil => intro cnt kf ps2 ps1 ps s h; simp [planT0] at h
  | cons x r ih =>
    intro cnt kf ps2 ps1 ps s h hsm hd1 hd2 hcnt hV V hVeq
    have hcq : cnt * B ≤ 32 * B := Nat.mul_le_mul_right _ hcnt
    cases x with
    | topAcc i j =>
      simp only [planT0] at h
      split at h
      · rename_i hcond
        obtain ⟨h1, h2, h3', h4⟩ := hcond
        cases hp : planT0 n (cnt + 1) r with
        | none => rw [hp] at h; cases h
        | some y =>
          rw [hp] at h
          obtain ⟨ps2', ps1', kf', ps'⟩ := y
          simp only [Option.map_some, Option.some.injEq, Prod.mk.injEq] at h
          obtain ⟨rfl, rfl, rfl, rfl⟩ := h
          obtain ⟨p1, p2, p3⟩ := mulWords_spec (hm0 (A + i)) (hm0 (Bp + j))
          obtain ⟨a1, a2, a3⟩ := add2by1_spec hB1 s.d (mulWords B (m0 (A + i)) (m0 (Bp + j))).2 hd1 hd2 p2
          have a3' := a3 (by omega)
          rw [List.foldl_cons]
          have := ih (cnt + 1) kf' ps2' ps1' ps' (step B R A Bp L s (.topAcc i j)) hp hsm
            (by simp only [step]; rw [hsm]; exact a1) (by simp only [step]; rw [hsm]; exact a2) (by omega)
            (by simp only [step]; rw [hsm, a3', Nat.succ_mul]; omega) V (by
              rw [hVeq]; simp only [step]; rw [hsm, a3']; simp only [hsum, mulWords]; ring)
          obtain ⟨g1, g2, g3, g5, g6, g7, g4⟩ := this
          refine ⟨g1, g2, g3, g5, ?_, by simp only [List.length_cons]; omega, g4⟩
          intro p hp
          rcases List.mem_cons.mp hp with rfl | hp
          · exact h1
          · exact g6 p hp
      · cases h
    | topSave0 i j =>
      simp only [planT0] at h
      split at h
      · rename_i hcond
        obtain ⟨h1, h2, h3'⟩ := hcond
        cases hp : planT1 n 1 r with
        | none => rw [hp] at h; cases h
        | some y =>
          rw [hp] at h
          obtain ⟨ps1', kf', ps'⟩ := y
          simp only [Option.map_some, Option.some.injEq, Prod.mk.injEq] at h
          obtain ⟨rfl, rfl, rfl, rfl⟩ := h
          have hab := mul_le_pred (hm0 (A + i)) (hm0 (Bp + j))
          obtain ⟨f1, f2, f3, f4⟩ := mulAcc_spec (c := s.d.1) (d := (s.d.2, 0)) hB1 hd1 hd2
            (by simp; omega) (hm0 (A + i)) (hm0 (Bp + j))
          have eV : acc3 B s.d.1 (s.d.2, 0) = s.d.1 + B * s.d.2 := by simp [acc3]
          rw [eV] at f4
          have f4' := f4 (by omega)
          rw [List.foldl_cons]
          have := runT1 (L := L) hB hA hBp hm0 r 1 kf' ps1' ps' (step B R A Bp L s (.topSave0 i j)) hp hsm
            (by simp only [step]; rw [hsm]; exact f1) (by simp only [step]; rw [hsm]; exact f2)
            (by simp only [step]; rw [hsm]; exact f3) (by omega)
            (by simp only [step]; rw [hsm, f4']; omega) V (by
              rw [hVeq]; simp only [step]; rw [hsm, f4']; simp only [hsum, psum]
              rw [show i + j - n = 0 by omega]; ring)
          obtain ⟨g1, g2, g3, g5, g4⟩ := this
          refine ⟨g1, g2, g3, ?_, (by intro p hp; cases hp), by simp; omega, g4⟩
          intro p hp
          rcases List.mem_cons.mp hp with rfl | hp
          · exact h1
          · exact g5 p hp
      · cases h
    | _ => simp [planT0] at h

end

/-- Check of a top-half schedule: `n` result words, and the multiplied pairs together with the skipped ones form the grid. -/
def okTop (n : Nat) (r : Option (List (Nat × Nat) × List (Nat × Nat) × Nat × List (Nat × Nat))) : Bool :=
  match r with
  | some (ps2, ps1, kf, ps) => kf == n && (tri (n - 2) (n - 2) ++ ((0, n - 2) :: ps2) ++ ps1 ++ ps).isPerm (grid n n)
    && ps.all fun p => decide (n ≤ p.1 + p.2)
  | none => false

/-- The arithmetic of the carry correction: `lo` is the unknown lower part, of which only `D` and the result word are
known. -/
theorem top_carry {B X lo D C1 : Nat} (hB : 1 < B) (hX : 0 < X) (h1 : X * D ≤ lo) (h2 : lo < X * (D + B)) :
    (C1 + D) / B + ltW ((C1 + lo / X) % B) ((C1 + D) % B) = (C1 + lo / X) / B := by
  have e1 : D ≤ lo / X := by rw [Nat.le_div_iff_mul_le hX]; rw [Nat.mul_comm]; exact h1
  have e2 : lo / X < D + B := by rw [Nat.div_lt_iff_lt_mul hX]; rw [Nat.mul_comm]; exact h2
  generalize lo / X = S at *
  obtain ⟨E, rfl⟩ := Nat.exists_eq_add_of_le e1
  have hE : E < B := by omega
  have hd := Nat.mod_add_div (C1 + D) B
  have hlt := Nat.mod_lt (C1 + D) (show 0 < B by omega)
  generalize hq : (C1 + D) / B = q at *
  generalize hr : (C1 + D) % B = r at *
  have e : C1 + (D + E) = (r + E) + B * q := by omega
  rw [e, Nat.add_mul_mod_self_left, Nat.add_mul_div_left _ _ (by omega)]
  rcases Nat.lt_or_ge (r + E) B with h | h
  · rw [Nat.mod_eq_of_lt h, Nat.div_eq_of_lt h]; unfold ltW; rw [if_neg (by omega)]; omega
  · have h3 : (r + E) % B = r + E - B := by rw [Nat.mod_eq_sub_mod h, Nat.mod_eq_of_lt (by omega)]
    have h4 : (r + E) / B = 1 := by
      have := Nat.div_add_mod (r + E) B
      rw [h3] at this
      have h5 : B * ((r + E) / B) = B * 1 := by omega
      exact Nat.eq_of_mul_eq_mul_left (by omega) h5
    rw [h3, h4]; unfold ltW; rw [if_pos (by omega)]; omega

/-- A top-half program whose schedule checks computes the upper half of the product, given word `n - 1` of the product. -/
theorem base_top {B : Nat} (hB : 256 ≤ B) {m : WMem} (hm : AllW B m) {R A Bp L n : Nat} (hn : 4 ≤ n) (hn' : n ≤ 64)
    (rest : List MulIns) (hplan : okTop n (planT0 n 1 rest) = true)
    (hA : R + n ≤ A ∨ A + n ≤ R) (hBp : R + n ≤ Bp ∨ Bp + n ≤ R)
    (hL : L = mval B m A n * mval B m Bp n / B ^ (n - 1) % B) :
    AllW B (runIns B R A Bp L m (.topBegin n :: rest)) ∧ Same m (runIns B R A Bp L m (.topBegin n :: rest)) R n ∧
      mval B (runIns B R A Bp L m (.topBegin n :: rest)) R n = mval B m A n * mval B m Bp n / B ^ n := by
  cases hp : planT0 n 1 rest with
  | none => rw [hp] at hplan; simp [okTop] at hplan
  | some y =>
    obtain ⟨ps2, ps1, kf, ps⟩ := y
    rw [hp] at hplan
    simp only [okTop, Bool.and_eq_true, beq_iff_eq] at hplan
    obtain ⟨⟨rfl, hperm⟩, hall⟩ := hplan
    have hperm := List.isPerm_iff.mp hperm
    have hB1 : 1 < B := by omega
    obtain ⟨p1, p2, p3⟩ := mulWords_spec (hm A) (hm (Bp + (kf - 2)))
    have := runT0 (R := R) (L := L) hB hA hBp hm rest 1 kf ps2 ps1 ps
      (step B R A Bp L ⟨m, 0, (0, 0), (0, 0)⟩ (.topBegin kf)) hp rfl
      (by simp only [step]; exact p2) (by simp only [step]; omega) (by omega) (by simp only [step]; omega) _ rfl
    obtain ⟨g1, g2, g3, g5, g6, g7, g4⟩ := this
    unfold runIns
    rw [List.foldl_cons]
    refine ⟨g1, g2, ?_⟩
    rw [g4]
    clear g4 g1 g2
    -- names for the parts of the product
    have hP : mval B m A kf * mval B m Bp kf =
        psum B 0 (fun i => m (A + i)) (fun j => m (Bp + j)) (tri (kf - 2) (kf - 2))
        + B ^ (kf - 2) * psum B kf (fun i => m (A + i)) (fun j => m (Bp + j)) ((0, kf - 2) :: ps2)
        + B ^ (kf - 1) * psum B kf (fun i => m (A + i)) (fun j => m (Bp + j)) ps1
        + B ^ kf * psum B kf (fun i => m (A + i)) (fun j => m (Bp + j)) ps := by
      rw [← psum_grid, ← psum_perm hperm, psum_append, psum_append, psum_append]
      congr 1
      · congr 1
        · congr 1
          apply psum_col _ _ _ _ _ (by omega)
          intro p hp
          rcases List.mem_cons.mp hp with rfl | hp
          · simp
          · have := g6 p hp; omega
        · apply psum_col _ _ _ _ _ (by omega)
          intro p hp; have := g5 p hp; omega
      · apply psum_high
        intro p hp
        simpa using List.all_eq_true.mp hall p hp
    have hX : 0 < B ^ (kf - 1) := by positivity
    have hXs : B ^ (kf - 1) = B ^ (kf - 2) * B := by rw [← pow_succ, show kf - 2 + 1 = kf - 1 by omega]
    have hBn : B ^ kf = B ^ (kf - 1) * B := by rw [← pow_succ, show kf - 1 + 1 = kf by omega]
    have hT := psum_tri hm A Bp (kf - 2) (kf - 2) (Nat.le_refl _)
    rw [show kf - 2 + 1 = kf - 1 by omega] at hT
    obtain ⟨hC1, hC2⟩ := psum_hsum B kf (by omega) (fun i => m (A + i)) (fun j => m (Bp + j)) ((0, kf - 2) :: ps2) (by
      intro p hp
      rcases List.mem_cons.mp hp with rfl | hp
      · simp
      · have := g6 p hp; omega)
    have hD : (step B R A Bp L ⟨m, 0, (0, 0), (0, 0)⟩ (.topBegin kf)).d.1
        + B * (step B R A Bp L ⟨m, 0, (0, 0), (0, 0)⟩ (.topBegin kf)).d.2
        + hsum B (fun i => m (A + i)) (fun j => m (Bp + j)) ps2
        = hsum B (fun i => m (A + i)) (fun j => m (Bp + j)) ((0, kf - 2) :: ps2) := by
      simp [step, hsum, mulWords]
    rw [hD]
    have hlt : mval B m A kf * mval B m Bp kf / B ^ kf < B ^ kf := by
      rw [Nat.div_lt_iff_lt_mul (by positivity), ← pow_add, ← Nat.two_mul]
      exact mval_mul_lt hm A Bp kf
    generalize mval B m A kf * mval B m Bp kf = P at *
    have hlen : ((0, kf - 2) :: ps2).length ≤ 32 := by simp only [List.length_cons]; omega
    generalize hsum B (fun i => m (A + i)) (fun j => m (Bp + j)) ((0, kf - 2) :: ps2) = D at *
    generalize psum B 0 (fun i => m (A + i)) (fun j => m (Bp + j)) (tri (kf - 2) (kf - 2)) = T at *
    generalize psum B kf (fun i => m (A + i)) (fun j => m (Bp + j)) ((0, kf - 2) :: ps2) = C2 at *
    generalize psum B kf (fun i => m (A + i)) (fun j => m (Bp + j)) ps1 = C1 at *
    generalize psum B kf (fun i => m (A + i)) (fun j => m (Bp + j)) ps = H at *
    have h1 : B ^ (kf - 1) * D ≤ T + B ^ (kf - 2) * C2 := by
      have : B ^ (kf - 2) * (B * D) ≤ B ^ (kf - 2) * C2 := Nat.mul_le_mul_left _ hC1
      rw [hXs, Nat.mul_assoc]; omega
    have h2 : T + B ^ (kf - 2) * C2 < B ^ (kf - 1) * (D + B) := by
      have e1 : B ^ (kf - 2) * C2 ≤ B ^ (kf - 2) * (B * D + 32 * B) :=
        Nat.mul_le_mul_left _ (by
          have := Nat.mul_le_mul_right B hlen
          omega)
      have e2 : B ^ (kf - 2) * (B * D + 32 * B) = B ^ (kf - 1) * D + 32 * B ^ (kf - 1) := by rw [hXs]; ring
      have e3 : (kf - 2) * B ^ (kf - 1) ≤ 62 * B ^ (kf - 1) := Nat.mul_le_mul_right _ (by omega)
      have e4 : B ^ (kf - 1) * (D + B) = B ^ (kf - 1) * D + B * B ^ (kf - 1) := by ring
      have e5 : 256 * B ^ (kf - 1) ≤ B * B ^ (kf - 1) := Nat.mul_le_mul_right _ hB
      omega
    have hc := top_carry (C1 := C1) hB1 hX h1 h2
    have hPX : P / B ^ (kf - 1) = C1 + (T + B ^ (kf - 2) * C2) / B ^ (kf - 1) + B * H := by
      rw [hP, show T + B ^ (kf - 2) * C2 + B ^ (kf - 1) * C1 + B ^ kf * H
        = (T + B ^ (kf - 2) * C2) + B ^ (kf - 1) * (C1 + B * H) by rw [hBn]; ring, Nat.add_mul_div_left _ _ hX]
      omega
    have hPn : P / B ^ kf = (C1 + (T + B ^ (kf - 2) * C2) / B ^ (kf - 1)) / B + H := by
      rw [hBn, ← Nat.div_div_eq_div_mul, hPX, Nat.add_mul_div_left _ _ (by omega)]
    rw [hL, hPX, Nat.add_mul_mod_self_left, Nat.add_comm D C1, hc, ← hPn, Nat.mod_eq_of_lt hlt]

theorem top4_plan : okTop 4 (planT0 4 1 top4.tail) = true := by decide +kernel
theorem top8_plan : okTop 8 (planT0 8 1 top8.tail) = true := by decide +kernel
theorem top16_plan : okTop 16 (planT0 16 1 top16.tail) = true := by decide +kernel

end Verif.Integer
