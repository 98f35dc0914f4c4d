import Verif.Integer.MulPrograms

/-!
# Correctness of the macro programs
-/
namespace Verif.Integer

theorem add2by1_spec {B : Nat} (hB : 1 < B) (b : Nat × Nat) (c : Nat) (h0 : b.1 < B) (h1 : b.2 < B) (hc : c < B) :
    (add2by1 B b c).1 < B ∧ (add2by1 B b c).2 < B ∧
      (b.1 + B * b.2 + c < B * B → (add2by1 B b c).1 + B * (add2by1 B b c).2 = b.1 + B * b.2 + c) := by
  unfold add2by1
  refine ⟨Nat.mod_lt _ (by omega), Nat.mod_lt _ (by omega), ?_⟩
  simp only
  intro hlt
  rcases Nat.lt_or_ge (b.1 + c) B with h | h
  · rw [Nat.mod_eq_of_lt h, if_neg (by omega), Nat.add_zero, Nat.mod_eq_of_lt h1]; omega
  · have e : (b.1 + c) % B = b.1 + c - B := by
      rw [Nat.mod_eq_sub_mod h, Nat.mod_eq_of_lt (by omega)]
    rw [e, if_pos (by omega)]
    have h2 : b.2 + 1 < B := by
      by_contra hc'
      have : b.2 + 1 = B := by omega
      have : B * B = B * b.2 + B := by rw [← this]; ring
      omega
    rw [Nat.mod_eq_of_lt h2]
    have : B * (b.2 + 1) = B * b.2 + B := by ring
    omega

theorem acc2by2_spec {B : Nat} (hB : 1 < B) (a b : Nat × Nat) (h0 : a.1 < B) (h2 : b.1 < B) :
    (acc2by2 B a b).1 < B ∧ (acc2by2 B a b).2 < B ∧
      ((acc2by2 B a b).1 + B * (acc2by2 B a b).2) = (a.1 + B * a.2 + (b.1 + B * b.2)) % (B * B) := by
  have key : ∀ s carry : Nat, s < B → a.1 + b.1 = s + B * carry →
      s + B * (((a.2 + carry) % B + b.2) % B) = (a.1 + B * a.2 + (b.1 + B * b.2)) % (B * B) := by
    intro s carry hs he
    have e1 : a.1 + B * a.2 + (b.1 + B * b.2) = s + B * (a.2 + carry + b.2) := by
      have : B * (a.2 + carry + b.2) = B * carry + B * a.2 + B * b.2 := by ring
      omega
    rw [e1, Nat.mod_mul, Nat.add_mul_mod_self_left, Nat.mod_eq_of_lt hs, Nat.add_mul_div_left _ _ (by omega),
      Nat.div_eq_of_lt hs, Nat.zero_add, Nat.mod_add_mod]
  unfold acc2by2
  refine ⟨Nat.mod_lt _ (by omega), Nat.mod_lt _ (by omega), ?_⟩
  simp only
  rcases Nat.lt_or_ge (a.1 + b.1) B with h | h
  · rw [Nat.mod_eq_of_lt h, if_neg (by omega)]
    exact key _ 0 h (by omega)
  · have e : (a.1 + b.1) % B = a.1 + b.1 - B := by
      rw [Nat.mod_eq_sub_mod h, Nat.mod_eq_of_lt (by omega)]
    rw [e, if_pos (by omega)]
    exact key _ 1 (by omega) (by omega)

theorem mulWords_spec {B a b : Nat} (ha : a < B) (hb : b < B) :
    (mulWords B a b).1 < B ∧ (mulWords B a b).2 < B ∧ (mulWords B a b).1 + B * (mulWords B a b).2 = a * b := by
  refine ⟨Nat.mod_lt _ (by omega), ?_, Nat.mod_add_div _ _⟩
  show a * b / B < B
  rw [Nat.div_lt_iff_lt_mul (by omega)]
  exact Nat.mul_lt_mul'' ha hb

theorem mul_le_pred {B a b : Nat} (ha : a < B) (hb : b < B) : a * b ≤ (B - 1) * (B - 1) :=
  Nat.mul_le_mul (by omega) (by omega)

theorem pred_sq {B : Nat} (hB : 1 < B) : (B - 1) * (B - 1) + 2 * B = B * B + 1 := by
  obtain ⟨k, rfl⟩ := Nat.exists_eq_add_of_lt hB
  simp only [show 1 + k + 1 - 1 = k + 1 by omega]
  ring

/-- Value of the three-word accumulator. -/
def acc3 (B c : Nat) (d : Nat × Nat) : Nat := c + B * (d.1 + B * d.2)

theorem mulAcc_spec {B c : Nat} {d : Nat × Nat} {a b : Nat} (hB : 1 < B) (hc : c < B) (h0 : d.1 < B) (h1 : d.2 < B)
    (ha : a < B) (hb : b < B) :
    (mulAcc B c d a b).1 < B ∧ (mulAcc B c d a b).2.1 < B ∧ (mulAcc B c d a b).2.2 < B ∧
      (acc3 B c d + a * b < B ^ 3 → acc3 B (mulAcc B c d a b).1 (mulAcc B c d a b).2 = acc3 B c d + a * b) := by
  obtain ⟨p1, p2, p3⟩ := mulWords_spec ha hb
  obtain ⟨q1, q2, q3⟩ := add2by1_spec hB (mulWords B a b) c p1 p2 hc
  obtain ⟨r1, r2, r3⟩ := add2by1_spec hB d (add2by1 B (mulWords B a b) c).2 h0 h1 q2
  refine ⟨q1, r1, r2, ?_⟩
  intro hlt
  have hm := mul_le_pred ha hb
  have hs := pred_sq hB
  have q3' := q3 (by rw [p3]; omega)
  rw [p3] at q3'
  have hlt2 : d.1 + B * d.2 + (add2by1 B (mulWords B a b) c).2 < B * B := by
    by_contra hcon
    have h5 : B * (B * B) ≤ B * (d.1 + B * d.2 + (add2by1 B (mulWords B a b) c).2) :=
      Nat.mul_le_mul_left _ (Nat.le_of_not_lt hcon)
    have h6 : B * (d.1 + B * d.2 + (add2by1 B (mulWords B a b) c).2)
        = B * (d.1 + B * d.2) + B * (add2by1 B (mulWords B a b) c).2 := by ring
    have h7 : B ^ 3 = B * (B * B) := by ring
    unfold acc3 at hlt
    omega
  have r3' := r3 hlt2
  unfold acc3
  show (add2by1 B (mulWords B a b) c).1 + B * ((add2by1 B d (add2by1 B (mulWords B a b) c).2).1 +
    B * (add2by1 B d (add2by1 B (mulWords B a b) c).2).2) = _
  rw [r3']
  have : B * (d.1 + B * d.2 + (add2by1 B (mulWords B a b) c).2)
        = B * (d.1 + B * d.2) + B * (add2by1 B (mulWords B a b) c).2 := by ring
  omega

theorem double3_spec {B c : Nat} {d : Nat × Nat} (hB : 1 < B) (hc : c < B) (h0 : d.1 < B) (h1 : d.2 < B) (he : B % 2 = 0) :
    (double3 B c d).1 < B ∧ (double3 B c d).2.1 < B ∧ (double3 B c d).2.2 < B ∧
      (2 * acc3 B c d < B ^ 3 → acc3 B (double3 B c d).1 (double3 B c d).2 = 2 * acc3 B c d) := by
  refine ⟨Nat.mod_lt _ (by omega), Nat.mod_lt _ (by omega), Nat.mod_lt _ (by omega), ?_⟩
  intro hlt
  have dbl : ∀ x : Nat, x < B → (2 * x % B) + B * (2 * x / B) = 2 * x ∧ 2 * x / B ≤ 1 ∧ 2 * x % B + 2 ≤ B := by
    intro x hx
    have h2 : 2 * x / B ≤ 1 := by
      have : 2 * x / B < 2 := by rw [Nat.div_lt_iff_lt_mul (by omega)]; omega
      omega
    refine ⟨Nat.mod_add_div _ _, h2, ?_⟩
    rcases Nat.lt_or_ge (2 * x) B with h | h
    · rw [Nat.mod_eq_of_lt h]; omega
    · rw [Nat.mod_eq_sub_mod h, Nat.mod_eq_of_lt (by omega)]; omega
  obtain ⟨c1, c2, c3⟩ := dbl c hc
  obtain ⟨d1, d2, d3⟩ := dbl d.1 h0
  unfold acc3 double3
  simp only
  have hd2 : 2 * d.2 + 2 * d.1 / B < B := by
    by_contra hcon
    have : B * B ≤ B * (2 * d.2 + 2 * d.1 / B) := Nat.mul_le_mul_left _ (Nat.le_of_not_lt hcon)
    have h3 : B * (B * B) ≤ B * (B * (2 * d.2 + 2 * d.1 / B)) := Nat.mul_le_mul_left _ this
    have h4 : B * (B * (2 * d.2 + 2 * d.1 / B)) = 2 * (B * (B * d.2)) + B * (B * (2 * d.1 / B)) := by ring
    have h5 : B * (B * (2 * d.1 / B)) ≤ B * (2 * d.1) := Nat.mul_le_mul_left _ (by omega)
    have h6 : 2 * acc3 B c d = 2 * c + B * (2 * d.1) + 2 * (B * (B * d.2)) := by unfold acc3; ring
    have h7 : B ^ 3 = B * (B * B) := by ring
    omega
  rw [Nat.mod_eq_of_lt (show 2 * d.2 < B from Nat.lt_of_le_of_lt (Nat.le_add_right _ _) hd2), Nat.mod_eq_of_lt hd2,
    Nat.mod_eq_of_lt (show 2 * d.1 % B + 2 * c / B < B by omega)]
  have e1 : B * (2 * d.1 % B + 2 * c / B + B * (2 * d.2 + 2 * d.1 / B))
      = B * (2 * d.1 % B + B * (2 * d.1 / B)) + B * (2 * c / B) + 2 * (B * (B * d.2)) := by ring
  rw [e1, d1]
  have e2 : 2 * (c + B * (d.1 + B * d.2)) = 2 * c + B * (2 * d.1) + 2 * (B * (B * d.2)) := by ring
  omega

theorem acc3by2_spec {B c : Nat} {d e : Nat × Nat} (hB : 1 < B) (hc : c < B) (h0 : d.1 < B) (h1 : d.2 < B)
    (h2 : e.1 < B) (h3 : e.2 < B) (hE : e.1 + B * e.2 + c < B * B) (hlt : acc3 B c d + (e.1 + B * e.2) < B ^ 3) :
    (acc3by2 B c d e).1 < B ∧ (acc3by2 B c d e).2.1 < B ∧ (acc3by2 B c d e).2.2 < B ∧
      acc3 B (acc3by2 B c d e).1 (acc3by2 B c d e).2 = acc3 B c d + (e.1 + B * e.2) := by
  obtain ⟨p1, p2, p3⟩ := add2by1_spec hB e c h2 h3 hc
  obtain ⟨r1, r2, r3⟩ := add2by1_spec hB d (add2by1 B e c).2 h0 h1 p2
  have p3' := p3 hE
  refine ⟨p1, r1, r2, ?_⟩
  have hlt2 : d.1 + B * d.2 + (add2by1 B e c).2 < B * B := by
    by_contra hcon
    have h5 : B * (B * B) ≤ B * (d.1 + B * d.2 + (add2by1 B e c).2) := Nat.mul_le_mul_left _ (Nat.le_of_not_lt hcon)
    have h6 : B * (d.1 + B * d.2 + (add2by1 B e c).2) = B * (d.1 + B * d.2) + B * (add2by1 B e c).2 := by ring
    have h7 : B ^ 3 = B * (B * B) := by ring
    unfold acc3 at hlt
    omega
  have r3' := r3 hlt2
  unfold acc3
  show (add2by1 B e c).1 + B * ((add2by1 B d (add2by1 B e c).2).1 + B * (add2by1 B d (add2by1 B e c).2).2) = _
  rw [r3']
  have : B * (d.1 + B * d.2 + (add2by1 B e c).2) = B * (d.1 + B * d.2) + B * (add2by1 B e c).2 := by ring
  omega

/-! ## Schedules: which products go to which column -/

/-- `Σ a i * b j * B^(i+j-o)` over a list of index pairs. -/
def psum (B o : Nat) (a b : Nat → Nat) : List (Nat × Nat) → Nat
  | [] => 0
  | (i, j) :: r => a i * b j * B ^ (i + j - o) + psum B o a b r

/-- Schedule of the tail of a bottom-half program that works on the last column `k`. -/
def planBot (n K o k : Nat) : List MulIns → Option (Nat × List (Nat × Nat))
  | .botAcc i j :: r =>
    if i + j = k + o ∧ i < n ∧ j < n then (planBot n K o k r).map fun x => (x.1, (i, j) :: x.2) else none
  | [.botEnd n'] => if n' = k + 1 ∧ k + 1 ≤ K then some (k + 1, []) else none
  | _ => none

/-- Schedule of a program that works on column `k` with `cnt` products accumulated so far: the number of words finally
written and the index pairs multiplied.  `none` if a product would go to a column it does not belong to. -/
def plan (n K o : Nat) : Nat → Nat → List MulIns → Option (Nat × List (Nat × Nat))
  | k, cnt, .acc i j :: r =>
    if i + j = k + o ∧ i < n ∧ j < n ∧ cnt < 32 then (plan n K o k (cnt + 1) r).map fun x => (x.1, (i, j) :: x.2) else none
  | k, _, .save k' i j :: r =>
    if k' = k ∧ i + j = k + 1 + o ∧ i < n ∧ j < n ∧ k < K then
      (plan n K o (k + 1) 1 r).map fun x => (x.1, (i, j) :: x.2) else none
  | k, _, .botSave k' i j :: r =>
    if k' = k ∧ i + j = k + 1 + o ∧ i < n ∧ j < n ∧ k < K then
      (planBot n K o (k + 1) r).map fun x => (x.1, (i, j) :: x.2) else none
  | k, _, [.fin k' i] => if k' = k ∧ i + i = k + 1 + o ∧ i < n ∧ k + 3 ≤ K then some (k + 3, [(i, i)]) else none
  | _, _, _ => none

theorem mval_setW_top {B : Nat} (m : WMem) (R k v : Nat) : mval B (setW m (R + k) v) R (k + 1) = mval B m R k + B ^ k * v := by
  rw [mval_succ, setW_same, mval_same (setW_sameR m (R + k) v) (by omega)]

theorem same_setW {m m' : WMem} {R k : Nat} (h : Same m m' R k) (v : Nat) : Same m (setW m' (R + k) v) R (k + 1) := by
  intro x hx
  rw [setW_out _ _ _ _ (by omega)]
  exact h x (by omega)

section
variable {B R A Bp L : Nat} (hB : 256 ≤ B) {m0 : WMem} {n K : Nat}
  (hA : R + K ≤ A ∨ A + n ≤ R) (hBp : R + K ≤ Bp ∨ Bp + n ≤ R) (hm0 : AllW B m0)
include hB hA hBp hm0

theorem runPlanBot (prog : List MulIns) : ∀ (o k kf : Nat) (ps : List (Nat × Nat)) (s : MulSt) (W : Nat),
    planBot n K o k prog = some (kf, ps) → AllW B s.m → Same m0 s.m R k → k ≤ K → s.c < B →
    (mval B s.m R k + B ^ k * s.c) % B ^ (k + 1) = W % B ^ (k + 1) →
    AllW B (prog.foldl (step B R A Bp L) s).m ∧ Same m0 (prog.foldl (step B R A Bp L) s).m R kf ∧ kf ≤ K ∧
      mval B (prog.foldl (step B R A Bp L) s).m R kf
        = (W + psum B o (fun i => m0 (A + i)) (fun j => m0 (Bp + j)) ps) % B ^ kf := by
  induction prog with
  | nil => intro o k kf ps s W h; simp [planBot] at h
  | cons x r ih =>
    intro o k kf ps s W h hall hsame hk hc hW
    cases x with
    | botAcc i j =>
      simp only [planBot] at h
      split at h
      · rename_i hcond
        obtain ⟨h1, h2, h3⟩ := hcond
        cases hp : planBot n K o k r with
        | none => rw [hp] at h; cases h
        | some y =>
          rw [hp] at h
          obtain ⟨kf', ps'⟩ := y
          simp only [Option.map_some, Option.some.injEq, Prod.mk.injEq] at h
          obtain ⟨rfl, rfl⟩ := h
          have ea : s.m (A + i) = m0 (A + i) := hsame _ (by omega)
          have eb : s.m (Bp + j) = m0 (Bp + j) := hsame _ (by omega)
          rw [List.foldl_cons]
          have := ih o k kf' ps' (step B R A Bp L s (.botAcc i j)) (W + m0 (A + i) * m0 (Bp + j) * B ^ k) hp hall hsame hk
            (Nat.mod_lt _ (by omega)) (by
              simp only [step]
              rw [ea, eb]
              rw [Nat.add_mod W, ← hW, ← Nat.add_mod]
              rw [Nat.add_mod_mod]
              have e1 : mval B s.m R k + B ^ k * s.c + m0 (A + i) * m0 (Bp + j) * B ^ k
                = mval B s.m R k + B ^ k * (s.c + m0 (A + i) * m0 (Bp + j)) := by ring
              rw [e1, Nat.add_mod, Nat.add_mod (mval B s.m R k) (B ^ k * (s.c + m0 (A + i) * m0 (Bp + j)))]
              congr 2
              rw [pow_succ, Nat.mul_mod_mul_left, Nat.mul_mod_mul_left, Nat.mod_mod])
          obtain ⟨g1, g2, g3, g4⟩ := this
          refine ⟨g1, g2, g3, ?_⟩
          rw [g4]
          simp only [psum]
          rw [show i + j - o = k by omega, Nat.add_assoc]
      · cases h
    | botEnd n' =>
      cases r with
      | cons y r' => simp [planBot] at h
      | nil =>
        simp only [planBot] at h
        split at h
        · rename_i hcond
          simp only [Option.some.injEq, Prod.mk.injEq] at h
          obtain ⟨rfl, rfl⟩ := h
          simp only [List.foldl_cons, List.foldl_nil, step, psum, Nat.add_zero]
          rw [hcond.1, Nat.add_sub_cancel]
          have hall' : AllW B (setW s.m (R + k) s.c) := setW_allW hall _ hc
          refine ⟨hall', same_setW hsame _, hcond.2, ?_⟩
          rw [← Nat.mod_eq_of_lt (mval_lt hall' R (k + 1)), mval_setW_top, hW]
        · cases h
    | _ => simp [planBot] at h

theorem runPlan (prog : List MulIns) : ∀ (o k cnt kf : Nat) (ps : List (Nat × Nat)) (s : MulSt) (W : Nat),
    plan n K o k cnt prog = some (kf, ps) → AllW B s.m → Same m0 s.m R k → k ≤ K →
    s.c < B → s.d.1 < B → s.d.2 < B → cnt ≤ 32 → acc3 B s.c s.d ≤ cnt * ((B - 1) * (B - 1)) + 32 * B →
    mval B s.m R k + B ^ k * acc3 B s.c s.d = W →
    AllW B (prog.foldl (step B R A Bp L) s).m ∧ Same m0 (prog.foldl (step B R A Bp L) s).m R kf ∧ kf ≤ K ∧
      mval B (prog.foldl (step B R A Bp L) s).m R kf
        = (W + psum B o (fun i => m0 (A + i)) (fun j => m0 (Bp + j)) ps) % B ^ kf := by
  have hB1 : 1 < B := by omega
  have hsq := pred_sq hB1
  have h3 : B ^ 3 = B * (B * B) := by ring
  have hBB : 256 * (B * B) ≤ B ^ 3 := by rw [h3]; exact Nat.mul_le_mul_right _ hB
  have hBB2 : 256 * B ≤ B * B := Nat.mul_le_mul_right _ hB
  -- a full column fits three words and leaves a carry of at most 32 B
  have hcol : ∀ cnt V, cnt ≤ 32 → V ≤ cnt * ((B - 1) * (B - 1)) + 32 * B → V ≤ 32 * (B * B) := by
    intro cnt V h1 h2
    have : cnt * ((B - 1) * (B - 1)) ≤ 32 * ((B - 1) * (B - 1)) := Nat.mul_le_mul_right _ h1
    omega
  have hcarry : ∀ c (d : Nat × Nat), acc3 B c d ≤ 32 * (B * B) → d.1 + B * d.2 ≤ 32 * B := by
    intro c d h
    unfold acc3 at h
    have : B * (d.1 + B * d.2) ≤ B * (32 * B) := by
      have : B * (32 * B) = 32 * (B * B) := by ring
      omega
    exact Nat.le_of_mul_le_mul_left this (by omega)
  induction prog with
  | nil => intro o k cnt kf ps s W h; simp [plan] at h
  | cons x r ih =>
    intro o k cnt kf ps s W h hall hsame hk hc hd1 hd2 hcnt hV hW
    have hV2 := hcol cnt _ hcnt hV
    have hcar := hcarry _ _ hV2
    cases x with
    | acc i j =>
      simp only [plan] at h
      split at h
      · rename_i hcond
        obtain ⟨h1, h2, h3', h4⟩ := hcond
        cases hp : plan n K o k (cnt + 1) r with
        | none => rw [hp] at h; cases h
        | some y =>
          rw [hp] at h
          obtain ⟨kf', ps'⟩ := y
          simp only [Option.map_some, Option.some.injEq, Prod.mk.injEq] at h
          obtain ⟨rfl, rfl⟩ := h
          have ea : s.m (A + i) = m0 (A + i) := hsame _ (by omega)
          have eb : s.m (Bp + j) = m0 (Bp + j) := hsame _ (by omega)
          have hab := mul_le_pred (hm0 (A + i)) (hm0 (Bp + j))
          obtain ⟨f1, f2, f3, f4⟩ := mulAcc_spec (c := s.c) (d := s.d) hB1 hc hd1 hd2 (hm0 (A + i)) (hm0 (Bp + j))
          have f4' := f4 (by omega)
          rw [List.foldl_cons]
          have := ih o k (cnt + 1) kf' ps' (step B R A Bp L s (.acc i j)) (W + m0 (A + i) * m0 (Bp + j) * B ^ k) hp hall
            hsame hk (by simp only [step]; rw [ea, eb]; exact f1) (by simp only [step]; rw [ea, eb]; exact f2)
            (by simp only [step]; rw [ea, eb]; exact f3) (by omega)
            (by simp only [step]; rw [ea, eb, f4', Nat.succ_mul]; omega)
            (by simp only [step]; rw [ea, eb, f4', ← hW]; ring)
          obtain ⟨g1, g2, g3, g4⟩ := this
          refine ⟨g1, g2, g3, ?_⟩
          rw [g4]
          simp only [psum]
          rw [show i + j - o = k by omega, Nat.add_assoc]
      · cases h
    | save k' i j =>
      simp only [plan] at h
      split at h
      · rename_i hcond
        obtain ⟨rfl, h1, h2, h3', h4⟩ := hcond
        cases hp : plan n K o (k' + 1) 1 r with
        | none => rw [hp] at h; cases h
        | some y =>
          rw [hp] at h
          obtain ⟨kf', ps'⟩ := y
          simp only [Option.map_some, Option.some.injEq, Prod.mk.injEq] at h
          obtain ⟨rfl, rfl⟩ := h
          have hsame' := same_setW hsame s.c
          have ea : setW s.m (R + k') s.c (A + i) = m0 (A + i) := hsame' _ (by omega)
          have eb : setW s.m (R + k') s.c (Bp + j) = m0 (Bp + j) := hsame' _ (by omega)
          have hab := mul_le_pred (hm0 (A + i)) (hm0 (Bp + j))
          obtain ⟨f1, f2, f3, f4⟩ := mulAcc_spec (c := s.d.1) (d := (s.d.2, 0)) hB1 hd1 hd2 (by simp; omega)
            (hm0 (A + i)) (hm0 (Bp + j))
          have eV : acc3 B s.d.1 (s.d.2, 0) = s.d.1 + B * s.d.2 := by simp [acc3]
          rw [eV] at f4
          have f4' := f4 (by omega)
          rw [List.foldl_cons]
          have := ih o (k' + 1) 1 kf' ps' (step B R A Bp L s (.save k' i j)) (W + m0 (A + i) * m0 (Bp + j) * B ^ (k' + 1))
            hp (setW_allW hall _ hc)
            hsame' (by omega) (by simp only [step]; rw [ea, eb]; exact f1) (by simp only [step]; rw [ea, eb]; exact f2)
            (by simp only [step]; rw [ea, eb]; exact f3) (by omega)
            (by simp only [step]; rw [ea, eb, f4']; omega)
            (by simp only [step]; rw [ea, eb, f4', mval_setW_top, ← hW]; unfold acc3; ring)
          obtain ⟨g1, g2, g3, g4⟩ := this
          refine ⟨g1, g2, g3, ?_⟩
          rw [g4]
          simp only [psum]
          rw [show i + j - o = k' + 1 by omega, Nat.add_assoc]
      · cases h
    | botSave k' i j =>
      simp only [plan] at h
      split at h
      · rename_i hcond
        obtain ⟨rfl, h1, h2, h3', h4⟩ := hcond
        cases hp : planBot n K o (k' + 1) r with
        | none => rw [hp] at h; cases h
        | some y =>
          rw [hp] at h
          obtain ⟨kf', ps'⟩ := y
          simp only [Option.map_some, Option.some.injEq, Prod.mk.injEq] at h
          obtain ⟨rfl, rfl⟩ := h
          have hsame' := same_setW hsame s.c
          have ea : setW s.m (R + k') s.c (A + i) = m0 (A + i) := hsame' _ (by omega)
          have eb : setW s.m (R + k') s.c (Bp + j) = m0 (Bp + j) := hsame' _ (by omega)
          rw [List.foldl_cons]
          have := runPlanBot (L := L) hB hA hBp hm0 r o (k' + 1) kf' ps' (step B R A Bp L s (.botSave k' i j))
            (W + m0 (A + i) * m0 (Bp + j) * B ^ (k' + 1)) hp (setW_allW hall _ hc) hsame' (by omega)
            (Nat.mod_lt _ (by omega)) (by
              simp only [step]
              rw [ea, eb, mval_setW_top, Nat.add_mod_mod, ← hW]
              have e1 : mval B s.m R k' + B ^ k' * acc3 B s.c s.d + m0 (A + i) * m0 (Bp + j) * B ^ (k' + 1)
                = mval B s.m R k' + B ^ k' * s.c + B ^ (k' + 1) * (s.d.1 + m0 (A + i) * m0 (Bp + j))
                  + B ^ (k' + 1 + 1) * s.d.2 := by unfold acc3; ring
              rw [e1, Nat.add_mul_mod_self_left, Nat.add_mod,
                Nat.add_mod _ (B ^ (k' + 1) * (s.d.1 + m0 (A + i) * m0 (Bp + j)))]
              congr 2
              rw [pow_succ B (k' + 1), Nat.mul_mod_mul_left, Nat.mul_mod_mul_left, Nat.mod_mod])
          obtain ⟨g1, g2, g3, g4⟩ := this
          refine ⟨g1, g2, g3, ?_⟩
          rw [g4]
          simp only [psum]
          rw [show i + j - o = k' + 1 by omega, Nat.add_assoc]
      · cases h
    | fin k' i =>
      cases r with
      | cons y r' => simp [plan] at h
      | nil =>
        simp only [plan] at h
        split at h
        · rename_i hcond
          obtain ⟨rfl, h1, h2, h3'⟩ := hcond
          simp only [Option.some.injEq, Prod.mk.injEq] at h
          obtain ⟨rfl, rfl⟩ := h
          have hsame' := same_setW hsame s.c
          have ea : setW s.m (R + k') s.c (A + i) = m0 (A + i) := hsame' _ (by omega)
          have eb : setW s.m (R + k') s.c (Bp + i) = m0 (Bp + i) := hsame' _ (by omega)
          obtain ⟨p1, p2, p3⟩ := mulWords_spec (hm0 (A + i)) (hm0 (Bp + i))
          obtain ⟨q1, q2, q3⟩ := acc2by2_spec hB1 (mulWords B (m0 (A + i)) (m0 (Bp + i))) s.d p1 hd1
          simp only [List.foldl_cons, List.foldl_nil, step, psum]
          rw [ea, eb]
          have hall1 := setW_allW (B := B) hall (R + k') hc
          have hall2 := setW_allW (B := B) hall1 (R + (k' + 1)) q1
          have hall3 := setW_allW (B := B) hall2 (R + (k' + 2)) q2
          refine ⟨hall3, same_setW (same_setW hsame' _) _, h3', ?_⟩
          rw [show k' + 3 = k' + 2 + 1 by omega, mval_setW_top, show k' + 2 = k' + 1 + 1 by omega, mval_setW_top,
            mval_setW_top]
          have e0 : mval B s.m R k' + B ^ k' * s.c + B ^ (k' + 1) * (acc2by2 B (mulWords B (m0 (A + i)) (m0 (Bp + i))) s.d).1
              + B ^ (k' + 1 + 1) * (acc2by2 B (mulWords B (m0 (A + i)) (m0 (Bp + i))) s.d).2
            = (mval B s.m R k' + B ^ k' * s.c) + B ^ (k' + 1) *
                ((m0 (A + i) * m0 (Bp + i) + (s.d.1 + B * s.d.2)) % (B * B)) := by
            rw [← p3, ← q3]; ring
          rw [e0]
          have e1 : W + (m0 (A + i) * m0 (Bp + i) * B ^ (i + i - o) + 0)
            = (mval B s.m R k' + B ^ k' * s.c) + B ^ (k' + 1) * (m0 (A + i) * m0 (Bp + i) + (s.d.1 + B * s.d.2)) := by
            rw [← hW, show i + i - o = k' + 1 by omega]; unfold acc3; ring
          rw [e1]
          have hlow : mval B s.m R k' + B ^ k' * s.c < B ^ (k' + 1) := by
            rw [← mval_setW_top]; exact mval_lt hall1 _ _
          have e2 : B ^ (k' + 1 + 1 + 1) = B ^ (k' + 1) * (B * B) := by ring
          rw [e2]
          generalize B * B = D
          rw [Nat.mod_mul, Nat.add_mul_mod_self_left, Nat.mod_eq_of_lt hlow,
            Nat.add_mul_div_left _ _ (Nat.pos_of_ne_zero (by positivity)), Nat.div_eq_of_lt hlow, Nat.zero_add]
        · cases h
    | _ => simp [plan] at h

end

end Verif.Integer
