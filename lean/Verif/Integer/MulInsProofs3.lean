import Verif.Integer.MulInsProofs2

/-!
# The base cases of multiplication, squaring and bottom-half multiplication
-/
namespace Verif.Integer

theorem psum_high (B n : Nat) (a b : Nat → Nat) (ps : List (Nat × Nat)) (h : ∀ p ∈ ps, n ≤ p.1 + p.2) :
    psum B 0 a b ps = B ^ n * psum B n a b ps := by
  induction ps with
  | nil => simp [psum]
  | cons x r ih =>
    obtain ⟨i, j⟩ := x
    have h1 : n ≤ i + j := h _ (List.mem_cons_self ..)
    simp only [psum]
    rw [ih (fun p hp => h p (List.mem_cons_of_mem _ hp)), Nat.mul_add]
    congr 1
    rw [show i + j - 0 = n + (i + j - n) by omega, pow_add]; ring

/-- Pairs of column below `n`. -/
def lowGrid (n : Nat) : List (Nat × Nat) := (grid n n).filter fun p => decide (p.1 + p.2 < n)

/-- Pairs of column at least `n`. -/
def highGrid (n : Nat) : List (Nat × Nat) := (grid n n).filter fun p => !decide (p.1 + p.2 < n)

theorem psum_split (B : Nat) (m : WMem) (A Bp n : Nat) :
    mval B m A n * mval B m Bp n = psum B 0 (fun i => m (A + i)) (fun j => m (Bp + j)) (lowGrid n)
      + B ^ n * psum B n (fun i => m (A + i)) (fun j => m (Bp + j)) (highGrid n) := by
  rw [← psum_grid, ← psum_perm (List.filter_append_perm (fun p => decide (p.1 + p.2 < n)) (grid n n)), psum_append]
  congr 1
  apply psum_high
  intro p hp
  have := (List.mem_filter.mp hp).2
  simpa using this

theorem mval_mul_lt {B : Nat} {m : WMem} (h : AllW B m) (A Bp n : Nat) : mval B m A n * mval B m Bp n < B ^ (2 * n) := by
  rw [show 2 * n = n + n by omega, pow_add]
  exact Nat.mul_lt_mul'' (mval_lt h A n) (mval_lt h Bp n)

section
variable {B : Nat} (hB : 256 ≤ B) {m : WMem} (hm : AllW B m)
include hB hm

theorem begin_inv (R A Bp L : Nat) :
    let s := step B R A Bp L ⟨m, 0, (0, 0), (0, 0)⟩ .begin
    s.m = m ∧ s.c < B ∧ s.d.1 < B ∧ s.d.2 < B ∧ acc3 B s.c s.d = m A * m Bp := by
  obtain ⟨p1, p2, p3⟩ := mulWords_spec (hm A) (hm Bp)
  refine ⟨rfl, p1, p2, by simp only [step]; omega, ?_⟩
  simp only [step]; rw [← p3]; simp [acc3]

/-- A multiplication program whose schedule covers the whole grid computes the product. -/
theorem base_mul {R A Bp n : Nat} (rest : List MulIns)
    (hplan : okPlan ((plan n (2 * n) 0 0 1 rest).map fun x => (x.1, (0, 0) :: x.2)) (2 * n) (grid n n) = true)
    (hA : R + 2 * n ≤ A ∨ A + n ≤ R) (hBp : R + 2 * n ≤ Bp ∨ Bp + n ≤ R) :
    AllW B (runIns B R A Bp 0 m (.begin :: rest)) ∧ Same m (runIns B R A Bp 0 m (.begin :: rest)) R (2 * n) ∧
      mval B (runIns B R A Bp 0 m (.begin :: rest)) R (2 * n) = mval B m A n * mval B m Bp n := by
  obtain ⟨ps, h1, h2⟩ := okPlan_iff hplan
  cases hp : plan n (2 * n) 0 0 1 rest with
  | none => rw [hp] at h1; cases h1
  | some y =>
    obtain ⟨kf, ps'⟩ := y
    rw [hp] at h1
    simp only [Option.map_some, Option.some.injEq, Prod.mk.injEq] at h1
    obtain ⟨rfl, rfl⟩ := h1
    obtain ⟨b1, b2, b3, b4, b5⟩ := begin_inv hB hm R A Bp 0
    have hab := mul_le_pred (hm A) (hm Bp)
    have := runPlan (L := 0) hB hA hBp hm rest 0 0 1 _ ps' (step B R A Bp 0 ⟨m, 0, (0, 0), (0, 0)⟩ .begin) (m A * m Bp) hp
      (by rw [b1]; exact hm) (by rw [b1]; intro x _; rfl) (by omega) b2 b3 b4 (by omega) (by rw [b5]; omega)
      (by rw [b5]; simp)
    obtain ⟨g1, g2, g3, g4⟩ := this
    unfold runIns
    rw [List.foldl_cons]
    refine ⟨g1, g2, ?_⟩
    rw [g4]
    have e : m A * m Bp + psum B 0 (fun i => m (A + i)) (fun j => m (Bp + j)) ps'
        = psum B 0 (fun i => m (A + i)) (fun j => m (Bp + j)) ((0, 0) :: ps') := by simp [psum]
    rw [e, psum_perm h2, psum_grid, Nat.mod_eq_of_lt (mval_mul_lt hm A Bp n)]

/-- A bottom-half program whose schedule covers the columns below `n` computes the product modulo `B^n`. -/
theorem base_bot {R A Bp n : Nat} (rest : List MulIns)
    (hplan : okPlan ((plan n n 0 0 1 rest).map fun x => (x.1, (0, 0) :: x.2)) n (lowGrid n) = true)
    (hA : R + n ≤ A ∨ A + n ≤ R) (hBp : R + n ≤ Bp ∨ Bp + n ≤ R) :
    AllW B (runIns B R A Bp 0 m (.begin :: rest)) ∧ Same m (runIns B R A Bp 0 m (.begin :: rest)) R n ∧
      mval B (runIns B R A Bp 0 m (.begin :: rest)) R n = mval B m A n * mval B m Bp n % B ^ n := by
  obtain ⟨ps, h1, h2⟩ := okPlan_iff hplan
  cases hp : plan n n 0 0 1 rest with
  | none => rw [hp] at h1; cases h1
  | some y =>
    obtain ⟨kf, ps'⟩ := y
    rw [hp] at h1
    simp only [Option.map_some, Option.some.injEq, Prod.mk.injEq] at h1
    obtain ⟨rfl, rfl⟩ := h1
    obtain ⟨b1, b2, b3, b4, b5⟩ := begin_inv hB hm R A Bp 0
    have hab := mul_le_pred (hm A) (hm Bp)
    have := runPlan (L := 0) hB hA hBp hm rest 0 0 1 _ ps' (step B R A Bp 0 ⟨m, 0, (0, 0), (0, 0)⟩ .begin) (m A * m Bp) hp
      (by rw [b1]; exact hm) (by rw [b1]; intro x _; rfl) (by omega) b2 b3 b4 (by omega) (by rw [b5]; omega)
      (by rw [b5]; simp)
    obtain ⟨g1, g2, g3, g4⟩ := this
    unfold runIns
    rw [List.foldl_cons]
    refine ⟨g1, g2, ?_⟩
    rw [g4]
    have e : m A * m Bp + psum B 0 (fun i => m (A + i)) (fun j => m (Bp + j)) ps'
        = psum B 0 (fun i => m (A + i)) (fun j => m (Bp + j)) ((0, 0) :: ps') := by simp [psum]
    rw [e, psum_perm h2, psum_split, Nat.add_mul_mod_self_left]

/-- A squaring program whose schedule covers the whole grid computes the square. -/
theorem base_squ {R A n : Nat} (hev : B % 2 = 0) (hn : 2 ≤ n) (rest : List MulIns)
    (hplan : okPlan ((planSq n (2 * n) true 1 1 rest).map fun x => (x.1, (0, 0) :: (0, 1) :: (1, 0) :: x.2)) (2 * n)
      (grid n n) = true)
    (hA : R + 2 * n ≤ A ∨ A + n ≤ R) :
    AllW B (runIns B R A A 0 m (.sqBegin :: rest)) ∧ Same m (runIns B R A A 0 m (.sqBegin :: rest)) R (2 * n) ∧
      mval B (runIns B R A A 0 m (.sqBegin :: rest)) R (2 * n) = mval B m A n * mval B m A n := by
  obtain ⟨ps, h1, h2⟩ := okPlan_iff hplan
  cases hp : planSq n (2 * n) true 1 1 rest with
  | none => rw [hp] at h1; cases h1
  | some y =>
    obtain ⟨kf, ps'⟩ := y
    rw [hp] at h1
    simp only [Option.map_some, Option.some.injEq, Prod.mk.injEq] at h1
    obtain ⟨rfl, rfl⟩ := h1
    have hB1 : 1 < B := by omega
    have hsq := pred_sq hB1
    have h3 : B ^ 3 = B * (B * B) := by ring
    have hBB : 256 * (B * B) ≤ B ^ 3 := by rw [h3]; exact Nat.mul_le_mul_right _ hB
    have hBB2 : 256 * B ≤ B * B := Nat.mul_le_mul_right _ hB
    obtain ⟨p1, p2, p3⟩ := mulWords_spec (hm A) (hm A)
    obtain ⟨q1, q2, q3⟩ := mulWords_spec (hm A) (hm (A + 1))
    have hab := mul_le_pred (hm A) (hm (A + 1))
    have hsame : Same m (setW m R (mulWords B (m A) (m A)).1) R 1 := setW_sameR _ _ _
    have ea : setW m R (mulWords B (m A) (m A)).1 A = m A := hsame _ (by omega)
    have eb : setW m R (mulWords B (m A) (m A)).1 (A + 1) = m (A + 1) := hsame _ (by omega)
    obtain ⟨f1, f2, f3, f4⟩ := double3_spec (c := (mulWords B (m A) (m (A + 1))).1)
      (d := ((mulWords B (m A) (m (A + 1))).2, 0)) hB1 q1 q2 (by simp; omega) hev
    have eV : acc3 B (mulWords B (m A) (m (A + 1))).1 ((mulWords B (m A) (m (A + 1))).2, 0) = m A * m (A + 1) := by
      rw [← q3]; simp [acc3]
    rw [eV] at f4
    have f4' := f4 (by omega)
    have := runPlanSq (L := 0) (Bp := A) hB hev hA hm rest true 1 1 _ ps'
      (step B R A A 0 ⟨m, 0, (0, 0), (0, 0)⟩ .sqBegin) (m A * m A + 2 * (m A * m (A + 1)) * B) hp
      (by simp only [step]; exact setW_allW hm _ p1) (by simp only [step]; exact hsame) (by omega)
      (by simp only [step]; rw [ea, eb]; exact f1) (by simp only [step]; rw [ea, eb]; exact f2)
      (by simp only [step]; rw [ea, eb]; exact f3) (by simp only [step]; exact p2) (by simp only [step]; omega) (by omega)
      (by simp only [step]; omega) (by intro h; cases h)
      (by intro _; simp only [step]; rw [ea, eb, f4']; omega)
      (by simp only [step]; rw [ea, eb, f4', mval_one, setW_same, ← p3]; simp; ring)
    obtain ⟨g1, g2, g3, g4⟩ := this
    unfold runIns
    rw [List.foldl_cons]
    refine ⟨g1, g2, ?_⟩
    rw [g4]
    have e : m A * m A + 2 * (m A * m (A + 1)) * B + psum B 0 (fun i => m (A + i)) (fun j => m (A + j)) ps'
        = psum B 0 (fun i => m (A + i)) (fun j => m (A + j)) ((0, 0) :: (0, 1) :: (1, 0) :: ps') := by
      simp [psum]; ring
    rw [e, psum_perm h2, psum_grid, Nat.mod_eq_of_lt (mval_mul_lt hm A A n)]

end

/-! ## The literal programs -/

theorem mul2_plan : okPlan ((plan 2 (2 * 2) 0 0 1 mul2.tail).map fun x => (x.1, (0, 0) :: x.2)) (2 * 2) (grid 2 2) = true := by
  decide +kernel
theorem mul4_plan : okPlan ((plan 4 (2 * 4) 0 0 1 mul4.tail).map fun x => (x.1, (0, 0) :: x.2)) (2 * 4) (grid 4 4) = true := by
  decide +kernel
theorem mul8_plan : okPlan ((plan 8 (2 * 8) 0 0 1 mul8.tail).map fun x => (x.1, (0, 0) :: x.2)) (2 * 8) (grid 8 8) = true := by
  decide +kernel
theorem mul16_plan :
    okPlan ((plan 16 (2 * 16) 0 0 1 mul16.tail).map fun x => (x.1, (0, 0) :: x.2)) (2 * 16) (grid 16 16) = true := by
  decide +kernel
theorem bot2_plan : okPlan ((plan 2 2 0 0 1 bot2.tail).map fun x => (x.1, (0, 0) :: x.2)) 2 (lowGrid 2) = true := by
  decide +kernel
theorem bot4_plan : okPlan ((plan 4 4 0 0 1 bot4.tail).map fun x => (x.1, (0, 0) :: x.2)) 4 (lowGrid 4) = true := by
  decide +kernel
theorem bot8_plan : okPlan ((plan 8 8 0 0 1 bot8.tail).map fun x => (x.1, (0, 0) :: x.2)) 8 (lowGrid 8) = true := by
  decide +kernel
theorem bot16_plan : okPlan ((plan 16 16 0 0 1 bot16.tail).map fun x => (x.1, (0, 0) :: x.2)) 16 (lowGrid 16) = true := by
  decide +kernel
theorem squ2_plan : okPlan ((planSq 2 (2 * 2) true 1 1 squ2.tail).map fun x => (x.1, (0, 0) :: (0, 1) :: (1, 0) :: x.2))
    (2 * 2) (grid 2 2) = true := by decide +kernel
theorem squ4_plan : okPlan ((planSq 4 (2 * 4) true 1 1 squ4.tail).map fun x => (x.1, (0, 0) :: (0, 1) :: (1, 0) :: x.2))
    (2 * 4) (grid 4 4) = true := by decide +kernel
theorem squ8_plan : okPlan ((planSq 8 (2 * 8) true 1 1 squ8.tail).map fun x => (x.1, (0, 0) :: (0, 1) :: (1, 0) :: x.2))
    (2 * 8) (grid 8 8) = true := by decide +kernel
theorem squ16_plan : okPlan ((planSq 16 (2 * 16) true 1 1 squ16.tail).map fun x => (x.1, (0, 0) :: (0, 1) :: (1, 0) :: x.2))
    (2 * 16) (grid 16 16) = true := by decide +kernel

end Verif.Integer
