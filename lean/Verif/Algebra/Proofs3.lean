import Verif.Algebra.Proofs2

namespace Verif.Algebra
open Verif.Misc

variable {S E : Type} {Inv : S → Prop} {G : Type} [AddCommMonoid G] {grp : Grp S E} {Rep Ref Src : E → G → Prop}

/-! ## The power table -/

/-- Reading the table of coefficients. -/
def ctab (t : List (Option (Nat × Nat))) (i : Nat) : Option (Nat × Nat) := t[i]?.join

/-- The effect of a step on the coefficients of `x` and `y`. -/
def Step.sym (t : List (Option (Nat × Nat))) : Step → Option (List (Option (Nat × Nat)))
  | .x d => some (t.set d (some (1, 0)))
  | .y d => some (t.set d (some (0, 1)))
  | .dblx d => some (t.set d (some (2, 0)))
  | .dbly d => some (t.set d (some (0, 2)))
  | .addxy d => some (t.set d (some (1, 1)))
  | .add d a b => do
    let p ← ctab t a
    let q ← ctab t b
    some (t.set d (some (p.1 + q.1, p.2 + q.2)))
  | .addx d a => do
    let p ← ctab t a
    some (t.set d (some (p.1 + 1, p.2)))
  | .addy d a => do
    let p ← ctab t a
    some (t.set d (some (p.1, p.2 + 1)))

def runSym : List Step → List (Option (Nat × Nat)) → Option (List (Option (Nat × Nat)))
  | [], t => some t
  | s :: l, t => do
    let t' ← s.sym t
    runSym l t'

/-- The table has what the coefficients say. -/
def Tb (Rep : E → G → Prop) (x y : G) (t : List (Option E)) (ct : List (Option (Nat × Nat))) : Prop :=
  t.length = ct.length ∧ ∀ i c, ctab ct i = some c → ∃ e, t[i]? = some (some e) ∧ Rep e (c.1 • x + c.2 • y)

theorem Tb.set {x y : G} {t : List (Option E)} {ct : List (Option (Nat × Nat))} (h : Tb Rep x y t ct) {d a b : Nat} {e : E}
    (he : Rep e (a • x + b • y)) : Tb Rep x y (t.set d (some e)) (ct.set d (some (a, b))) := by
  refine ⟨by rw [List.length_set, List.length_set, h.1], fun i c hc => ?_⟩
  unfold ctab at hc
  rw [List.getElem?_set] at hc ⊢
  by_cases hd : d = i
  · rw [if_pos hd] at hc ⊢
    subst hd
    by_cases hl : d < ct.length
    · rw [if_pos hl] at hc
      rw [if_pos (by rw [h.1]; exact hl)]
      have hc' : some (a, b) = some c := hc
      injection hc' with hc'
      subst hc'
      exact ⟨e, rfl, he⟩
    · rw [if_neg hl] at hc; cases hc
  · rw [if_neg hd] at hc ⊢
    exact h.2 i c hc

theorem tab_post {x y : G} {t : List (Option E)} {ct : List (Option (Nat × Nat))} (h : Tb Rep x y t ct) {i : Nat} {c : Nat × Nat}
    (hc : ctab ct i = some c) : Post Inv (tab t i : M S E) (fun e => Rep e (c.1 • x + c.2 • y)) := by
  obtain ⟨e, h1, h2⟩ := h.2 i c hc
  unfold tab
  rw [h1]
  exact Post.pure h2

theorem exec_spec (L : Laws grp Inv Rep Ref Src) {ex ey : E} {x y : G} (hx : Rep ex x) (hy : Rep ey y) {t : List (Option E)}
    {ct ct' : List (Option (Nat × Nat))} (h : Tb Rep x y t ct) (s : Step) (hs : s.sym ct = some ct') :
    Post Inv (s.exec grp ex ey t) (fun t' => Tb Rep x y t' ct') := by
  cases s with
  | x d =>
    injection hs with hs; subst hs
    exact Post.pure (h.set (by simpa [one_nsmul] using L.cp (L.toRef hx)))
  | y d =>
    injection hs with hs; subst hs
    exact Post.pure (h.set (by simpa [one_nsmul] using L.cp (L.toRef hy)))
  | dblx d =>
    injection hs with hs; subst hs
    refine Post.bind (L.dbl (L.src hx)) fun r hr => Post.pure (h.set ?_)
    have := L.cp hr
    rwa [← two_nsmul, ← add_zero (2 • x), ← zero_nsmul y] at this
  | dbly d =>
    injection hs with hs; subst hs
    refine Post.bind (L.dbl (L.src hy)) fun r hr => Post.pure (h.set ?_)
    have := L.cp hr
    rwa [← two_nsmul, ← zero_add (2 • y), ← zero_nsmul x] at this
  | addxy d =>
    injection hs with hs; subst hs
    refine Post.bind (L.add (L.toRef hx) hy) fun r hr => Post.pure (h.set ?_)
    rw [one_nsmul, one_nsmul]
    exact L.cp hr
  | add d a b =>
    simp only [Step.sym] at hs
    cases ha : ctab ct a with
    | none => rw [ha] at hs; cases hs
    | some p =>
      cases hb : ctab ct b with
      | none => rw [ha, hb] at hs; cases hs
      | some q =>
        rw [ha, hb] at hs
        injection hs with hs; subst hs
        refine Post.bind (tab_post h ha) fun e1 h1 => ?_
        refine Post.bind (tab_post h hb) fun e2 h2 => ?_
        refine Post.bind (L.add (L.toRef h1) h2) fun r hr => Post.pure (h.set ?_)
        have := L.cp hr
        have e : p.1 • x + p.2 • y + (q.1 • x + q.2 • y) = (p.1 + q.1) • x + (p.2 + q.2) • y := by
          rw [add_nsmul, add_nsmul]; abel
        rwa [e] at this
  | addx d a =>
    simp only [Step.sym] at hs
    cases ha : ctab ct a with
    | none => rw [ha] at hs; cases hs
    | some p =>
      rw [ha] at hs
      injection hs with hs; subst hs
      refine Post.bind (tab_post h ha) fun e1 h1 => ?_
      refine Post.bind (L.add (L.toRef h1) hx) fun r hr => Post.pure (h.set ?_)
      have := L.cp hr
      have e : p.1 • x + p.2 • y + x = (p.1 + 1) • x + p.2 • y := by rw [add_nsmul, one_nsmul]; abel
      rwa [e] at this
  | addy d a =>
    simp only [Step.sym] at hs
    cases ha : ctab ct a with
    | none => rw [ha] at hs; cases hs
    | some p =>
      rw [ha] at hs
      injection hs with hs; subst hs
      refine Post.bind (tab_post h ha) fun e1 h1 => ?_
      refine Post.bind (L.add (L.toRef h1) hy) fun r hr => Post.pure (h.set ?_)
      have := L.cp hr
      have e : p.1 • x + p.2 • y + y = p.1 • x + (p.2 + 1) • y := by rw [add_nsmul, one_nsmul]; abel
      rwa [e] at this

theorem runSteps_spec (L : Laws grp Inv Rep Ref Src) {ex ey : E} {x y : G} (hx : Rep ex x) (hy : Rep ey y) :
    ∀ (l : List Step) {t : List (Option E)} {ct ct' : List (Option (Nat × Nat))}, Tb Rep x y t ct → runSym l ct = some ct' →
    Post Inv (runSteps grp ex ey l t) (fun t' => Tb Rep x y t' ct')
  | [], t, ct, ct', h, hs => by injection hs with hs; subst hs; exact Post.pure h
  | s :: l, t, ct, ct', h, hs => by
    unfold runSym at hs
    cases h1 : s.sym ct with
    | none => rw [h1] at hs; cases hs
    | some c1 =>
      rw [h1] at hs
      exact Post.bind (exec_spec L hx hy h s h1) fun t' ht' => runSteps_spec L hx hy l ht' hs

/-- All pairs of digits below `n` that are not both even are in the table. -/
def tableGood (w : Nat) (ct : List (Option (Nat × Nat))) : Bool :=
  (List.range (2 ^ w)).all fun p1 => (List.range (2 ^ w)).all fun p2 =>
    (p1 % 2 == 0 && p2 % 2 == 0) || decide (ctab ct (p2 <<< w + p1) = some (p1, p2))

theorem table_complete (w : Nat) (hw : w = 1 ∨ w = 2 ∨ w = 3) :
    ∃ ct, runSym (tableSteps w) (List.replicate (2 ^ w <<< w) none) = some ct ∧ tableGood w ct = true := by
  have h : (match runSym (tableSteps w) (List.replicate (2 ^ w <<< w) none) with
    | some ct => tableGood w ct
    | none => false) = true := by
    rcases hw with rfl | rfl | rfl <;> decide +kernel
  revert h
  cases runSym (tableSteps w) (List.replicate (2 ^ w <<< w) none) with
  | none => intro h; cases h
  | some ct => intro h; exact ⟨ct, rfl, h⟩

theorem tableGood_get {w : Nat} {ct : List (Option (Nat × Nat))} (h : tableGood w ct = true) {p1 p2 : Nat} (h1 : p1 < 2 ^ w) (h2 : p2 < 2 ^ w)
    (ho : p1 % 2 = 1 ∨ p2 % 2 = 1) : ctab ct (p2 <<< w + p1) = some (p1, p2) := by
  unfold tableGood at h
  have h3 := List.all_eq_true.1 h p1 (List.mem_range.2 h1)
  have h4 := List.all_eq_true.1 h3 p2 (List.mem_range.2 h2)
  rw [Bool.or_eq_true] at h4
  rcases h4 with h4 | h4
  · simp at h4; omega
  · exact of_decide_eq_true h4

/-! ## The main loop -/

theorem halve_spec : ∀ (p1 p2 : Nat), p1 = (halve p1 p2).1 * 2 ^ (halve p1 p2).2.2 ∧ p2 = (halve p1 p2).2.1 * 2 ^ (halve p1 p2).2.2 ∧
    ((p1 = 0 ∧ p2 = 0 ∧ halve p1 p2 = (0, 0, 0)) ∨ (halve p1 p2).1 % 2 = 1 ∨ (halve p1 p2).2.1 % 2 = 1) := by
  intro p1 p2
  induction hn : p1 + p2 using Nat.strongRecOn generalizing p1 p2 with
  | ind n ih =>
    unfold halve
    by_cases hc : (p1 ≠ 0 ∨ p2 ≠ 0) ∧ p1 % 2 = 0 ∧ p2 % 2 = 0
    · rw [dif_pos hc]
      obtain ⟨h1, h2, h3⟩ := ih (p1 / 2 + p2 / 2) (by omega) (p1 / 2) (p2 / 2) rfl
      simp only
      refine ⟨?_, ?_, ?_⟩
      · rw [Nat.pow_succ, ← Nat.mul_assoc, ← h1]; omega
      · rw [Nat.pow_succ, ← Nat.mul_assoc, ← h2]; omega
      · rcases h3 with ⟨a, b, _⟩ | h3
        · omega
        · exact Or.inr h3
    · rw [dif_neg hc]
      refine ⟨by simp, by simp, ?_⟩
      by_cases h1 : p1 % 2 = 1
      · exact Or.inr (Or.inl h1)
      · by_cases h2 : p2 % 2 = 1
        · exact Or.inr (Or.inr h2)
        · left
          have a1 : p1 = 0 := by by_contra h; exact hc ⟨Or.inl h, by omega, by omega⟩
          have a2 : p2 = 0 := by by_contra h; exact hc ⟨Or.inr h, by omega, by omega⟩
          exact ⟨a1, a2, by rw [a1, a2]⟩

theorem dblN_spec (L : Laws grp Inv Rep Ref Src) : ∀ (n : Nat) (r : E) (v : G), Rep r v → Post Inv (dblN grp n r) (fun r' => Rep r' (2 ^ n • v))
  | 0, r, v, h => by rw [pow_zero, one_nsmul]; exact Post.pure h
  | n + 1, r, v, h => by
    refine Post.bind (L.dbl (L.src h)) fun d hd => ?_
    refine (dblN_spec L n _ _ (L.cp hd)).mono fun r' hr' => ?_
    rwa [← two_nsmul, ← mul_nsmul', ← pow_succ] at hr'

theorem shift_step (e i : Nat) : e / 2 ^ i = 2 * (e / 2 ^ (i + 1)) + (e.testBit i).toNat := by
  rw [Nat.pow_succ, ← Nat.div_div_eq_div_mul, Nat.testBit_eq_decide_div_mod_eq]
  have h := Nat.div_add_mod (e / 2 ^ i) 2
  by_cases hb : e / 2 ^ i % 2 = 1
  · rw [decide_eq_true hb]; simp only [Bool.toNat_true]; omega
  · rw [decide_eq_false hb]; simp only [Bool.toNat_false]; omega

/-- The digit pair read since the last window, and the result so far. -/
structure CI (Rep : E → G → Prop) (w e1 e2 : Nat) (x y : G) (n p1 p2 prev : Nat) (res : Option E) : Prop where
  s1 : 2 * p1 < 2 ^ w
  s2 : 2 * p2 < 2 ^ w
  main : match res with
    | none => e1 / 2 ^ n = p1 ∧ e2 / 2 ^ n = p2
    | some r => n ≤ prev ∧ p1 < 2 ^ (prev - n) ∧ p2 < 2 ^ (prev - n) ∧ e1 / 2 ^ n = e1 / 2 ^ prev * 2 ^ (prev - n) + p1 ∧
        e2 / 2 ^ n = e2 / 2 ^ prev * 2 ^ (prev - n) + p2 ∧ Rep r ((e1 / 2 ^ prev) • x + (e2 / 2 ^ prev) • y)

theorem pow_le_of_halve {k p b h : Nat} (hp : p = h * 2 ^ k) (h0 : h % 2 = 1) (hb : p < 2 ^ b) : k ≤ b := by
  have : 1 * 2 ^ k ≤ h * 2 ^ k := Nat.mul_le_mul_right _ (by omega)
  exact (Nat.pow_le_pow_iff_right (by decide : 1 < 2)).1 (by omega)

theorem lt_of_halve {k p h B : Nat} (hp : p = h * 2 ^ k) (hb : p < B) : h < B := by
  have : h * 1 ≤ h * 2 ^ k := Nat.mul_le_mul_left _ (Nat.two_pow_pos _)
  omega

theorem cascLoop_spec (L : Laws grp Inv Rep Ref Src) {w : Nat} {x y : G} {t : List (Option E)} {ct : List (Option (Nat × Nat))}
    (ht : Tb Rep x y t ct) (hg : tableGood w ct = true) {e1 e2 : Nat} (hne : e1 ≠ 0 ∨ e2 ≠ 0) (hw0 : 0 < w) :
    ∀ (n p1 p2 prev : Nat) (res : Option E), (n = 0 → res ≠ none) → CI Rep w e1 e2 x y n p1 p2 prev res → (n = 0 → prev = 0) →
    Post Inv (cascLoop grp w t e1 e2 n p1 p2 prev res) (fun r => ∃ r', r = some r' ∧ Rep r' (e1 • x + e2 • y))
  | 0, p1, p2, prev, none, h0, _, _ => absurd rfl (h0 rfl)
  | 0, p1, p2, prev, some r, _, ⟨_, _, hm⟩, hp => by
    refine Post.pure ⟨r, rfl, ?_⟩
    have := hp rfl
    subst this
    simpa using hm.2.2.2.2.2
  | i + 1, p1, p2, prev, res, h0, ⟨hs1, hs2, hm⟩, hp => by
    have hwpow : 2 ≤ 2 ^ w := by
      obtain ⟨u, rfl⟩ : ∃ u, w = u + 1 := ⟨w - 1, by omega⟩
      rw [Nat.pow_succ]; have := Nat.two_pow_pos u; omega
    have hweven : 2 ^ w % 2 = 0 := by
      obtain ⟨u, rfl⟩ : ∃ u, w = u + 1 := ⟨w - 1, by omega⟩
      rw [Nat.pow_succ]; omega
    have hb1 : (e1.testBit i).toNat ≤ 1 := Bool.toNat_le _
    have hb2 : (e2.testBit i).toNat ≤ 1 := Bool.toNat_le _
    have q1lt : 2 * p1 + (e1.testBit i).toNat < 2 ^ w := by omega
    have q2lt : 2 * p2 + (e2.testBit i).toNat < 2 ^ w := by omega
    have st1 := shift_step e1 i
    have st2 := shift_step e2 i
    unfold cascLoop
    simp only
    generalize hq1 : 2 * p1 + (e1.testBit i).toNat = q1 at *
    generalize hq2 : 2 * p2 + (e2.testBit i).toNat = q2 at *
    obtain ⟨hh1, hh2, hh3⟩ := halve_spec q1 q2
    generalize hh : halve q1 q2 = H at *
    obtain ⟨a, b, k⟩ := H
    simp only at hh1 hh2 hh3 ⊢
    have fetch : (a % 2 = 1 ∨ b % 2 = 1) → Post Inv (tab t (b <<< w + a) : M S E) (fun e => Rep e (a • x + b • y)) := fun ho =>
      tab_post (c := (a, b)) ht (tableGood_get hg (lt_of_halve hh1 q1lt) (lt_of_halve hh2 q2lt) ho)
    have scale : ∀ u : G, 2 ^ k • (u + (a • x + b • y)) = 2 ^ k • u + (q1 • x + q2 • y) := by
      intro u
      rw [nsmul_add, nsmul_add, ← mul_nsmul', ← mul_nsmul', hh1, hh2, Nat.mul_comm (2 ^ k) a, Nat.mul_comm (2 ^ k) b]
    cases res with
    | none =>
      obtain ⟨m1, m2⟩ := hm
      rw [m1] at st1; rw [m2] at st2
      by_cases hc : i = 0 ∨ 2 * q1 ≥ 2 ^ w ∨ 2 * q2 ≥ 2 ^ w
      · rw [if_pos hc]
        have hnz : ¬ (q1 = 0 ∧ q2 = 0) := by
          rintro ⟨z1, z2⟩
          rcases hc with hc | hc | hc
          · subst hc
            rw [pow_zero, Nat.div_one] at st1 st2
            omega
          · omega
          · omega
        have ho : a % 2 = 1 ∨ b % 2 = 1 := by
          rcases hh3 with ⟨z1, z2, _⟩ | hh3
          · exact absurd ⟨z1, z2⟩ hnz
          · exact hh3
        refine Post.bind (Post.bind (fetch ho) fun e he => Post.pure (P := fun r => Rep r (a • x + b • y)) (L.cp (L.toRef he))) fun r hr => ?_
        refine Post.bind (dblN_spec L k r _ hr) fun r' hr' => ?_
        refine cascLoop_spec L ht hg hne hw0 i 0 0 i (some r') (by simp) ⟨by omega, by omega, ?_⟩ (by simp)
        simp only
        refine ⟨by omega, by simp, by simp, by simp, by simp, ?_⟩
        have := scale 0
        rw [nsmul_zero, zero_add, zero_add] at this
        rw [this] at hr'
        have e1' : e1 / 2 ^ i = q1 := by omega
        have e2' : e2 / 2 ^ i = q2 := by omega
        rw [e1', e2']; exact hr'
      · rw [if_neg hc]
        have hi : i ≠ 0 := fun h => hc (Or.inl h)
        exact cascLoop_spec L ht hg hne hw0 i q1 q2 prev none (fun h => absurd h hi) ⟨by omega, by omega, by simp only; omega⟩ (fun h => absurd h hi)
    | some r =>
      obtain ⟨m0, m1, m2, m3, m4, m5⟩ := hm
      have hpow : 2 ^ (prev - i) = 2 * 2 ^ (prev - (i + 1)) := by
        have : prev - i = (prev - (i + 1)) + 1 := by omega
        rw [this, Nat.pow_succ, Nat.mul_comm]
      have q1p : q1 < 2 ^ (prev - i) := by omega
      have q2p : q2 < 2 ^ (prev - i) := by omega
      have n1 : e1 / 2 ^ i = e1 / 2 ^ prev * 2 ^ (prev - i) + q1 := by
        rw [st1, m3, hpow, ← hq1]; ring
      have n2 : e2 / 2 ^ i = e2 / 2 ^ prev * 2 ^ (prev - i) + q2 := by
        rw [st2, m4, hpow, ← hq2]; ring
      by_cases hc : i = 0 ∨ 2 * q1 ≥ 2 ^ w ∨ 2 * q2 ≥ 2 ^ w
      · rw [if_pos hc]
        have hk : k ≤ prev - i := by
          rcases hh3 with ⟨_, _, z⟩ | h3 | h3
          · injection z with _ z; injection z with _ z; omega
          · exact pow_le_of_halve hh1 h3 q1p
          · exact pow_le_of_halve hh2 h3 q2p
        have fin : ∀ r', Rep r' (2 ^ (prev - i - k) • ((e1 / 2 ^ prev) • x + (e2 / 2 ^ prev) • y) + (a • x + b • y)) →
            Post Inv (dblN grp k r' >>= fun r => cascLoop grp w t e1 e2 i 0 0 i (some r)) (fun r => ∃ r', r = some r' ∧ Rep r' (e1 • x + e2 • y)) := by
          intro r' hr
          refine Post.bind (dblN_spec L k r' _ hr) fun r2 hr2 => ?_
          refine cascLoop_spec L ht hg hne hw0 i 0 0 i (some r2) (by simp) ⟨by omega, by omega, ?_⟩ (by simp)
          simp only
          refine ⟨by omega, by simp, by simp, by simp, by simp, ?_⟩
          rw [scale, ← mul_nsmul', ← Nat.pow_add, show k + (prev - i - k) = prev - i by omega] at hr2
          rw [n1, n2]
          have e : 2 ^ (prev - i) • ((e1 / 2 ^ prev) • x + (e2 / 2 ^ prev) • y) + (q1 • x + q2 • y) =
              (e1 / 2 ^ prev * 2 ^ (prev - i) + q1) • x + (e2 / 2 ^ prev * 2 ^ (prev - i) + q2) • y := by
            rw [nsmul_add, ← mul_nsmul', ← mul_nsmul', add_nsmul, add_nsmul, Nat.mul_comm (2 ^ (prev - i)), Nat.mul_comm (2 ^ (prev - i))]; abel
          rw [← e]; exact hr2
        simp only [if_neg (show ¬ k > prev - i by omega)]
        refine Post.bind (P := fun r' => Rep r' (2 ^ (prev - i - k) • ((e1 / 2 ^ prev) • x + (e2 / 2 ^ prev) • y) + (a • x + b • y))) ?_ fin
        refine Post.bind (dblN_spec L _ r _ m5) fun r1 hr1 => ?_
        by_cases hz : a ≠ 0 ∨ b ≠ 0
        · rw [if_pos hz]
          have ho : a % 2 = 1 ∨ b % 2 = 1 := by
            rcases hh3 with ⟨_, _, z⟩ | hh3
            · injection z with z1 z; injection z with z2 z; omega
            · exact hh3
          exact Post.bind (fetch ho) fun e he => L.acc hr1 (L.src he)
        · rw [if_neg hz]
          have ha : a = 0 := by by_contra h; exact hz (Or.inl h)
          have hb : b = 0 := by by_contra h; exact hz (Or.inr h)
          refine Post.pure ?_
          rw [ha, hb, zero_nsmul, zero_nsmul, add_zero, add_zero]; exact hr1
      · rw [if_neg hc]
        have hi : i ≠ 0 := fun h => hc (Or.inl h)
        exact cascLoop_spec L ht hg hne hw0 i q1 q2 prev (some r) (fun h => absurd h hi)
          ⟨by omega, by omega, ⟨by omega, q1p, q2p, n1, n2, m5⟩⟩ (fun h => absurd h hi)

theorem cascadeScalarMultiply_spec (L : Laws grp Inv Rep Ref Src) {ex ey : E} {x y : G} (hx : Rep ex x) (hy : Rep ey y) (e1 e2 : Nat) :
    Post Inv (cascadeScalarMultiply grp ex e1 ey e2) (fun r => Rep r (e1 • x + e2 • y)) := by
  unfold cascadeScalarMultiply
  simp only
  have hl1 := bitLen_lt e1
  have hl2 := bitLen_lt e2
  by_cases h0 : max (bitLen e1) (bitLen e2) = 0
  · rw [if_pos h0]
    have z1 : bitLen e1 = 0 := by omega
    have z2 : bitLen e2 = 0 := by omega
    rw [z1] at hl1; rw [z2] at hl2
    have y1 : e1 = 0 := by omega
    have y2 : e2 = 0 := by omega
    refine Post.bind L.ident fun i hi => Post.pure ?_
    rw [y1, y2, zero_nsmul, zero_nsmul, add_zero]
    exact L.cp hi
  · rw [if_neg h0]
    have hne : e1 ≠ 0 ∨ e2 ≠ 0 := by
      by_cases h : e1 = 0
      · right; rintro rfl; subst h; simp at h0
      · exact Or.inl h
    generalize hw : (if max (bitLen e1) (bitLen e2) ≤ 46 then 1 else if max (bitLen e1) (bitLen e2) ≤ 260 then 2 else 3) = w
    have hw3 : w = 1 ∨ w = 2 ∨ w = 3 := by
      rw [← hw]; split
      · simp
      · split <;> simp
    obtain ⟨ct, hs, hg⟩ := table_complete w hw3
    have ht0 : Tb Rep x y (List.replicate (2 ^ w <<< w) (none : Option E)) (List.replicate (2 ^ w <<< w) none) := by
      refine ⟨by simp, fun i c hc => ?_⟩
      unfold ctab at hc
      rw [List.getElem?_replicate] at hc
      split at hc <;> cases hc
    refine Post.bind (runSteps_spec L hx hy _ ht0 hs) fun t ht => ?_
    have hpos : 2 * 0 < 2 ^ w := Nat.two_pow_pos w
    refine Post.bind (cascLoop_spec L ht hg hne (by omega) _ 0 0 _ none (fun h => absurd h h0) ⟨hpos, hpos, ?_⟩ (fun h => absurd h h0)) ?_
    · simp only
      exact ⟨Nat.div_eq_of_lt (Nat.lt_of_lt_of_le hl1 (Nat.pow_le_pow_right (by decide) (by omega))),
        Nat.div_eq_of_lt (Nat.lt_of_lt_of_le hl2 (Nat.pow_le_pow_right (by decide) (by omega)))⟩
    · rintro r ⟨r', rfl, hr⟩
      exact Post.pure hr

/-! ## `GeneralCascadeMultiplication` -/

theorem Sum.perm {l l' : List (E × Nat)} (hp : l.Perm l') : ∀ {v : G}, Sum Rep l v → Sum Rep l' v := by
  induction hp with
  | nil => exact fun h => h
  | cons a _ ih => intro v h; cases h with | cons h1 h2 => exact .cons h1 (ih h2)
  | swap a b l =>
    intro v h
    cases h with
    | cons h1 h2 =>
      cases h2 with
      | cons h3 h4 =>
        rw [← add_assoc, add_comm (_ • _) (_ • _), add_assoc]
        exact .cons h3 (.cons h1 h4)
  | trans _ _ ih1 ih2 => exact fun h => ih2 (ih1 h)

theorem Sum.append {l l' : List (E × Nat)} : ∀ {v v' : G}, Sum Rep l v → Sum Rep l' v' → Sum Rep (l ++ l') (v + v') := by
  intro v v' h h'
  induction h with
  | nil => rw [zero_add]; exact h'
  | cons h1 _ ih => rw [add_assoc]; exact .cons h1 ih

theorem Sum.of_append {l l' : List (E × Nat)} : ∀ {v : G}, Sum Rep (l ++ l') v → ∃ a b, Sum Rep l a ∧ Sum Rep l' b ∧ v = a + b := by
  induction l with
  | nil => intro v h; exact ⟨0, v, .nil, h, by rw [zero_add]⟩
  | cons c l ih =>
    intro v h
    cases h with
    | cons h1 h2 =>
      obtain ⟨a, b, k1, k2, k3⟩ := ih h2
      exact ⟨_, b, .cons h1 k1, k2, by rw [k3, add_assoc]⟩

theorem Sum.zero {l : List (E × Nat)} {v : G} (h : Sum Rep l v) (hz : ∀ m ∈ l, m.2 = 0) : v = 0 := by
  induction h with
  | nil => rfl
  | cons h1 _ ih =>
    have h0 := hz _ (List.mem_cons_self ..)
    simp only at h0
    rw [h0, zero_nsmul, zero_add]
    exact ih (fun m hm => hz m (List.mem_cons_of_mem _ hm))

theorem IsHeap.first {b : Nat} {l : List Nat} (h : IsHeap (b :: l)) : ∀ (i a : Nat), (b :: l)[i]? = some a → a ≤ b
  | 0, a, e => by simp at e; omega
  | i + 1, a, e => by
    have hi : i + 1 < (b :: l).length := by
      apply Classical.byContradiction; intro hc
      rw [List.getElem?_eq_none (by omega)] at e; cases e
    have hlt : i / 2 < i + 1 := by omega
    have hp : (b :: l)[i / 2]? = some (b :: l)[i / 2] := List.getElem?_eq_getElem (by omega)
    have h1 := h.first (i / 2) _ hp
    have h2 := h (i + 1) a _ (by omega) e hp
    omega
termination_by i => i

theorem IsHeap.max {b : Nat} {l : List Nat} (h : IsHeap (b :: l)) {m : Nat} (hm : m ∈ l) : m ≤ b := by
  obtain ⟨i, hi⟩ := List.mem_iff_getElem?.1 (List.mem_cons_of_mem b hm)
  exact h.first i m hi

theorem Muls.abstract_ok {wb : Nat} (hwb : 0 < wb) (L : Laws grp Inv Rep Ref Src) : MulsOk (Muls.abstract grp wb) Inv Rep Src fun _ => True :=
  ⟨fun _ _ => trivial, fun hb e _ => scalarMultiply_spec hwb L hb e, fun hx hy e1 e2 _ _ => cascadeScalarMultiply_spec L hx hy e1 e2⟩

theorem genLoop_spec {ms : Muls S E} {ok : Nat → Prop} (hms : MulsOk ms Inv Rep Src ok) (L : Laws grp Inv Rep Ref Src) {heap0 heap : List (E × Nat) → List (E × Nat)} (hh : HeapOk heap0 heap) :
    ∀ (fuel : Nat) (l : List (E × Nat)) (v : G), 2 ≤ l.length → (l.map (·.2)).sum < fuel → Sum Rep l v →
    IsHeap (l.dropLast.map (·.2)) → (∀ last, l.getLast? = some last → ∀ m ∈ l, m.2 ≤ last.2) → (∀ m ∈ l, ok m.2) →
    Post Inv (genLoop grp ms heap fuel l) (fun r => Rep r v)
  | 0, l, v, h1, h2, h3, h4, h5, h6 => by omega
  | fuel + 1, l, v, h1, h2, h3, h4, h5, h6 => by
    obtain ⟨bb, be, rest, rfl⟩ : ∃ bb be rest, l = (bb, be) :: rest := by
      cases l with
      | nil => simp at h1
      | cons c r => exact ⟨c.1, c.2, r, rfl⟩
    have hrne : rest ≠ [] := by rintro rfl; simp at h1
    obtain ⟨lb, le, hlast⟩ : ∃ lb le, rest.getLast? = some (lb, le) := by
      rw [List.getLast?_eq_some_getLast hrne]; exact ⟨_, _, rfl⟩
    have hsplit : rest = rest.dropLast ++ [(lb, le)] := by
      have := List.dropLast_append_getLast hrne
      rw [List.getLast?_eq_some_getLast hrne] at hlast
      injection hlast with hlast
      rw [hlast] at this; exact this.symm
    have hdl : ((bb, be) :: rest).dropLast = (bb, be) :: rest.dropLast := List.dropLast_cons_of_ne_nil hrne
    rw [hdl, List.map_cons] at h4
    have hle : be ≤ le := h5 (lb, le) (by rw [← hlast]; cases rest with
      | nil => exact absurd rfl hrne
      | cons c r => rfl) (bb, be) (List.mem_cons_self ..)
    have hmid : ∀ m ∈ rest.dropLast, m.2 ≤ be := fun m hm => h4.max (List.mem_map_of_mem hm)
    have okl : ok le := h6 (lb, le) (List.mem_cons_of_mem _ (by rw [hsplit]; simp))
    unfold genLoop
    simp only [hlast]
    cases h3 with
    | cons hbb hrest =>
      rename_i g vr
      rw [hsplit] at hrest
      obtain ⟨a, b, k1, k2, rfl⟩ := hrest.of_append
      cases k2 with
      | cons hlb hnil =>
        rename_i gl v0
        cases hnil
        by_cases hz : be ≠ 0
        · rw [if_pos hz]
          have hdm := Nat.div_add_mod le be
          have hml := Nat.mod_lt le (by omega : be > 0)
          have cont : ∀ bb', Rep bb' (g + (le / be) • gl) →
              Post Inv (genLoop grp ms heap fuel (heap ((bb', be) :: (rest.dropLast ++ [(lb, le % be)])))) (fun r => Rep r (be • g + (a + (le • gl + 0)))) := by
            intro bb' hb'
            obtain ⟨hp, hq, hmx⟩ := hh.push ((bb', be) :: (rest.dropLast ++ [(lb, le % be)])) (by
              rw [List.dropLast_cons_of_ne_nil (by simp), List.dropLast_concat]; exact h4)
            refine genLoop_spec hms L hh fuel _ _ ?_ ?_ ?_ hq (fun last hl m hm => hmx last hl m (hp.subset hm)) ?_
            · rw [hp.length_eq]; simp
            · rw [(hp.map _).sum_nat]
              rw [hsplit] at h2
              simp only [List.map_cons, List.sum_cons, List.map_append, List.sum_append, List.map_nil, List.sum_nil] at h2 ⊢
              have : be ≤ le := hle
              omega
            · apply Sum.perm hp.symm
              have := Sum.cons (n := be) hb' (k1.append (.cons (n := le % be) hlb .nil))
              have e : be • (g + (le / be) • gl) + (a + ((le % be) • gl + 0)) = be • g + (a + (le • gl + 0)) := by
                have : le • gl = (be * (le / be)) • gl + (le % be) • gl := by rw [← add_nsmul, hdm]
                rw [this, nsmul_add, mul_nsmul']; abel
              rwa [e] at this
            · intro m hm
              have := hp.subset hm
              rw [List.mem_cons, List.mem_append, List.mem_singleton] at this
              rcases this with rfl | hm' | rfl
              · exact h6 (bb, be) (List.mem_cons_self ..)
              · exact h6 m (List.mem_cons_of_mem _ (List.dropLast_subset _ hm'))
              · exact hms.down okl (by show le % be ≤ le; omega)
          by_cases hq1 : le / be = 1
          · rw [if_pos hq1]
            refine Post.bind (L.acc hbb (L.src hlb)) fun bb' hb' => cont bb' ?_
            rw [hq1, one_nsmul]; exact hb'
          · rw [if_neg hq1]
            refine Post.bind (Post.bind (hms.smul (L.src hlb) (hms.down okl (Nat.div_le_self ..))) fun m hm => L.acc hbb (L.src hm)) fun bb' hb' => cont bb' hb'
        · rw [if_neg hz]
          have hb0 : be = 0 := by omega
          have ha : a = 0 := k1.zero (fun m hm => by have := hmid m hm; omega)
          rw [hb0, zero_nsmul, ha, zero_add, zero_add, add_zero]
          exact hms.smul (L.src hlb) okl

theorem generalCascade_spec {ms : Muls S E} {ok : Nat → Prop} (hms : MulsOk ms Inv Rep Src ok) (L : Laws grp Inv Rep Ref Src) {heap0 heap : List (E × Nat) → List (E × Nat)}
    (hh : HeapOk heap0 heap) {l : List (E × Nat)} (hl : l ≠ []) {v : G} (hv : Sum Rep l v) (hok : ∀ m ∈ l, ok m.2) :
    Post Inv (generalCascade grp ms heap0 heap l) (fun r => Rep r v) := by
  unfold generalCascade
  split
  · exact absurd rfl hl
  · cases hv with
    | cons h1 h2 => cases h2; rw [add_zero]; exact hms.smul (L.src h1) (hok _ (List.mem_cons_self ..))
  · cases hv with
    | cons h1 h2 =>
      cases h2 with
      | cons h3 h4 => cases h4; rw [add_zero]; exact hms.casc h1 h3 (hok _ (List.mem_cons_self ..)) (hok _ (List.mem_cons_of_mem _ (List.mem_cons_self ..)))
  · rename_i n1 n2 n3
    obtain ⟨hp, hq, hmx⟩ := hh.make l
    refine genLoop_spec hms L hh _ _ _ ?_ ?_ (hv.perm hp.symm) hq (fun last hl m hm => hmx last hl m (hp.subset hm)) (fun m hm => hok m (hp.subset hm))
    · rw [hp.length_eq]
      match l, hl, n2 with
      | [(a, b)], _, n2 => exact absurd rfl (n2 a b)
      | _ :: _ :: _, _, _ => simp
    · rw [(hp.map _).sum_nat]; omega

/-! ## Fixed-base precomputation -/

/-- The bases `b, 2^w b, 4^w b, ...`. -/
inductive Bases (Rep : E → G → Prop) (win : Nat) : List E → G → Prop where
  | one {b : E} {g : G} : Rep b g → Bases Rep win [b] g
  | cons {b : E} {g : G} {l : List E} : Rep b g → Bases Rep win l (2 ^ win • g) → Bases Rep win (b :: l) g

theorem preBases_spec {ms : Muls S E} (hms : MulsOk ms Inv Rep Src fun _ => True) (L : Laws grp Inv Rep Ref Src) (win : Nat) : ∀ (n : Nat) (b : E) (g : G), Rep b g →
    Post Inv (preBases ms win n b) (fun l => Bases Rep win (b :: l) g)
  | 0, b, g, h => Post.pure (.one h)
  | n + 1, b, g, h => by
    refine Post.bind (hms.smul (L.src h) trivial) fun b' hb' => ?_
    refine Post.bind (preBases_spec hms L win n b' _ hb') fun l hl => ?_
    exact Post.pure (.cons h hl)

theorem precompute_spec {ms : Muls S E} (hms : MulsOk ms Inv Rep Src fun _ => True) (L : Laws grp Inv Rep Ref Src) {b : E} {g : G} (h : Ref b g) (maxExpBits : Nat) {storage : Nat}
    (hs : 0 < storage) : Post Inv (precompute grp ms b maxExpBits storage) (fun pc => Bases Rep pc.windowSize pc.bases g) := by
  unfold precompute
  simp only
  rw [if_neg (by omega)]
  refine Post.bind (preBases_spec hms L _ (storage - 1) _ g (L.cp h)) fun l hl => ?_
  exact Post.pure hl

theorem prepareCascade_spec (L : Laws grp Inv Rep Ref Src) {win : Nat} : ∀ {bs : List E} {g : G}, Bases Rep win bs g → ∀ (e : Nat),
    Post Inv (prepareCascade grp win bs e) (fun eb => eb ≠ [] ∧ Sum Rep eb (e • g))
  | _, g, .one h, e => by
    unfold prepareCascade
    refine Post.pure ⟨by simp, ?_⟩
    have := Sum.cons (n := e) (L.cp (L.toRef h)) (Sum.nil (Rep := Rep))
    rwa [add_zero] at this
  | b :: l, g, .cons h t, e => by
    have hl : l ≠ [] := by rintro rfl; cases t
    obtain ⟨c, l', rfl⟩ : ∃ c l', l = c :: l' := by cases l with
      | nil => exact absurd rfl hl
      | cons c l' => exact ⟨c, l', rfl⟩
    rw [prepareCascade]
    · have hdm := Nat.div_add_mod e (2 ^ win)
      have hml := Nat.mod_lt e (Nat.two_pow_pos win)
      split
      · rename_i hc
        rw [Bool.and_eq_true, Bool.and_eq_true] at hc
        obtain ⟨y, hy, hp⟩ := L.inv hc.1.1 (L.src h)
        refine Post.bind hp fun nb hnb => ?_
        refine Post.bind (prepareCascade_spec L t (e / 2 ^ win + 1)) fun eb heb => ?_
        refine Post.pure ⟨by simp, ?_⟩
        have := Sum.cons (n := 2 ^ win - e % 2 ^ win) (L.cp hnb) heb.2
        have e1 : (2 ^ win - e % 2 ^ win) • y + (e / 2 ^ win + 1) • 2 ^ win • g = e • g := by
          have h1 : (e / 2 ^ win + 1) • 2 ^ win • g = e • g + (2 ^ win - e % 2 ^ win) • g := by
            rw [← mul_nsmul', ← add_nsmul]; congr 1
            rw [Nat.mul_comm] at hdm
            rw [Nat.add_mul, Nat.one_mul]; omega
          rw [h1]
          calc (2 ^ win - e % 2 ^ win) • y + (e • g + (2 ^ win - e % 2 ^ win) • g)
              = e • g + ((2 ^ win - e % 2 ^ win) • g + (2 ^ win - e % 2 ^ win) • y) := by abel
            _ = e • g := by rw [nsmul_neg hy, add_zero]
        rwa [e1] at this
      · refine Post.bind (prepareCascade_spec L t (e / 2 ^ win)) fun eb heb => ?_
        refine Post.pure ⟨by simp, ?_⟩
        have := Sum.cons (n := e % 2 ^ win) (L.cp (L.toRef h)) heb.2
        have e1 : (e % 2 ^ win) • g + (e / 2 ^ win) • 2 ^ win • g = e • g := by
          rw [← mul_nsmul', ← add_nsmul]; congr 1
          rw [Nat.mul_comm] at hdm; omega
        rwa [e1] at this
    · simp

end Verif.Algebra
