import Verif.Flate.DepthProofs

/-!
# Cutting the depths at the maximum, and handing the lengths out
-/
namespace Verif.Flate

theorem rsum_congr {f g : Nat → Nat} {a k : Nat} (h : ∀ x, a ≤ x → x < a + k → f x = g x) : rsum f a k = rsum g a k := by
  unfold rsum
  congr 1
  apply List.map_congr_left
  intro x hx
  have := List.mem_range'_1.1 hx
  exact h x this.1 this.2

theorem rsum_put_out (f : Nat → Nat) {b a k : Nat} (x : Nat) (h : b < a ∨ a + k ≤ b) : rsum (put f b x) a k = rsum f a k :=
  rsum_congr fun y h1 h2 => put_ne _ _ (by omega)

theorem rsum_put_in (f : Nat → Nat) {b a k : Nat} (x : Nat) (h1 : a ≤ b) (h2 : b < a + k) : rsum (put f b x) a k + f b = rsum f a k + x := by
  induction k with
  | zero => omega
  | succ k ih =>
    rw [rsum_last, rsum_last]
    by_cases hb : b = a + k
    · rw [rsum_put_out f x (by omega), hb, put_same]; omega
    · have := ih (by omega)
      rw [put_ne _ _ (by omega)]
      omega

theorem rsum_ge (f : Nat → Nat) {b a k : Nat} (h1 : a ≤ b) (h2 : b < a + k) : f b ≤ rsum f a k := by
  have := rsum_put_in f 0 h1 h2
  omega

theorem rsum_zero_of {f : Nat → Nat} {a k : Nat} (h : ∀ x, a ≤ x → x < a + k → f x = 0) : rsum f a k = 0 := by
  rw [rsum_congr (g := fun _ => 0) h]
  induction k with
  | zero => rfl
  | succ k ih => rw [rsum_last, ih fun x h1 h2 => h x h1 (by omega)]

theorem rsum_cut {f : Nat → Nat} {a k j : Nat} (hj : j ≤ k) (h : ∀ x, a + j ≤ x → x < a + k → f x = 0) : rsum f a k = rsum f a j := by
  induction k with
  | zero => obtain rfl : j = 0 := by omega
            rfl
  | succ k ih =>
    by_cases hjk : j = k + 1
    · rw [hjk]
    · rw [rsum_last, ih (by omega) (fun x h1 h2 => h x h1 (by omega)), h (a + k) (by omega) (by omega), Nat.add_zero]

theorem exists_of_rsum_pos {f : Nat → Nat} {a k : Nat} (h : 0 < rsum f a k) : ∃ x, a ≤ x ∧ x < a + k ∧ f x ≠ 0 := by
  by_contra hc
  rw [rsum_zero_of (fun x h1 h2 => by by_contra h3; exact hc ⟨x, h1, h2, h3⟩)] at h
  omega

theorem rsum_dvd {f : Nat → Nat} {a k d : Nat} (h : ∀ x, a ≤ x → x < a + k → d ∣ f x) : d ∣ rsum f a k := by
  induction k with
  | zero => exact Nat.dvd_zero _
  | succ k ih =>
    rw [rsum_last]
    exact Nat.dvd_add (ih fun x h1 h2 => h x h1 (by omega)) (h _ (by omega) (by omega))

/-- Counting lengths, weighted. -/
def wsum (c bl : Nat → Nat) (K : Nat) : Nat := rsum (fun l => bl l * c l) 1 K

theorem wsum_put_out (c bl : Nat → Nat) {b K : Nat} (x : Nat) (h : b < 1 ∨ K < b) : wsum c (put bl b x) K = wsum c bl K :=
  rsum_congr fun y h1 h2 => by rw [put_ne _ _ (by omega)]

theorem wsum_put_in (c bl : Nat → Nat) {b K : Nat} (x : Nat) (h1 : 1 ≤ b) (h2 : b ≤ K) :
    wsum c (put bl b x) K + bl b * c b = wsum c bl K + x * c b := by
  have := rsum_put_in (fun l => bl l * c l) (x * c b) h1 (by omega : b < 1 + K)
  rw [show rsum (put (fun l => bl l * c l) b (x * c b)) 1 K = wsum c (put bl b x) K from rsum_congr fun y _ _ => by
    by_cases hy : y = b
    · rw [hy, put_same, put_same]
    · rw [put_ne _ _ hy, put_ne _ _ hy]] at this
  exact this

theorem wsum_one (bl : Nat → Nat) (K : Nat) : wsum (fun _ => 1) bl K = rsum bl 1 K := rsum_congr fun _ _ _ => Nat.mul_one _

theorem downTo_spec (bl : Nat → Nat) (B : Nat) : downTo bl B ≤ B ∧ (∀ l, downTo bl B < l → l ≤ B → bl l = 0) ∧
    (downTo bl B ≠ 0 → bl (downTo bl B) ≠ 0) := by
  induction B with
  | zero => exact ⟨Nat.le_refl _, fun l h1 h2 => absurd h1 (by rw [downTo]; omega), fun h => absurd rfl h⟩
  | succ B ih =>
    rw [downTo]
    split
    · rename_i h
      refine ⟨by omega, fun l h1 h2 => ?_, ih.2.2⟩
      by_cases hl : l = B + 1
      · rw [hl, h]
      · exact ih.2.1 l h1 (by omega)
    · rename_i h
      exact ⟨Nat.le_refl _, fun l h1 h2 => by omega, fun _ => h⟩

theorem downTo_pos {bl : Nat → Nat} {B l : Nat} (h1 : 1 ≤ l) (h2 : l ≤ B) (h3 : bl l ≠ 0) : l ≤ downTo bl B := by
  by_contra hc
  exact h3 ((downTo_spec bl B).2.1 l (by omega) h2)

/-- The counts while `k` units too many are taken. -/
structure Fixing (M N k q Q : Nat) (bl : Nat → Nat) : Prop where
  weight : wsum (fun l => 2 ^ (M - l)) bl M = 2 ^ M + k
  count : rsum bl 1 M = N
  shallow : wsum (fun l => 2 ^ (M - l)) bl (M - 1) < 2 ^ M
  less : rsum bl 1 (q - 1) ≤ Q

theorem Fixing.step {M N k q Q : Nat} {bl : Nat → Nat} (hM : 1 ≤ M) (hN : N ≤ 2 ^ M) (hq1 : 1 ≤ q) (hq2 : q ≤ M) (hqN : N ≤ 2 ^ (M - q + 2))
    (h : Fixing M N (k + 1) q Q bl) : Fixing M N k q Q (fixStep M bl) := by
  obtain ⟨hw, hc, hs, hl⟩ := h
  have htop : wsum (fun l => 2 ^ (M - l)) bl M = wsum (fun l => 2 ^ (M - l)) bl (M - 1) + bl M := by
    obtain ⟨m, rfl⟩ : ∃ m, M = m + 1 := ⟨M - 1, by omega⟩
    unfold wsum
    rw [rsum_last, Nat.add_sub_cancel, Nat.add_comm 1 m]
    simp only [Nat.sub_self, Nat.pow_zero, Nat.mul_one]
  have hblM : bl M ≤ N := by rw [← hc]; exact rsum_ge bl hM (by omega)
  obtain ⟨l0, a1, a2, a3⟩ := exists_of_rsum_pos (f := fun l => bl l * 2 ^ (M - l)) (a := 1) (k := M - 1) (by
    show 0 < wsum (fun l => 2 ^ (M - l)) bl (M - 1)
    omega)
  have hl0 : bl l0 ≠ 0 := fun e => a3 (by simp only [e, Nat.zero_mul])
  have hb1 := downTo_pos (B := M - 1) a1 (by omega) hl0
  obtain ⟨hb2, hb3, hb4⟩ := downTo_spec bl (M - 1)
  have hb5 := hb4 (by omega)
  unfold fixStep
  simp only []
  generalize downTo bl (M - 1) = b at *
  have hbq : q - 1 ≤ b := by
    by_contra hcon
    have hcut : wsum (fun l => 2 ^ (M - l)) bl (M - 1) = wsum (fun l => 2 ^ (M - l)) bl b :=
      rsum_cut (by omega) fun x h1 h2 => by simp only []; rw [hb3 x (by omega) (by omega), Nat.zero_mul]
    have hd : 2 ^ (M - b) ∣ wsum (fun l => 2 ^ (M - l)) bl b :=
      rsum_dvd fun x h1 h2 => Nat.dvd_trans (Nat.pow_dvd_pow 2 (by omega)) (Nat.dvd_mul_left _ _)
    rw [← hcut] at hd
    obtain ⟨u, hu⟩ := hd
    have hM2 : (2:Nat) ^ M = 2 ^ (M - b) * 2 ^ b := by rw [← Nat.pow_add]; congr 1; omega
    have hlt : u < 2 ^ b := by
      rw [hu, hM2] at hs
      exact Nat.lt_of_mul_lt_mul_left hs
    have hle : 2 ^ (M - b) * (u + 1) ≤ 2 ^ M := by
      rw [hM2]
      exact Nat.mul_le_mul_left _ hlt
    have hpow : 2 ^ (M - q + 2) ≤ 2 ^ (M - b) := Nat.pow_le_pow_right (by decide) (by omega)
    rw [Nat.mul_add, ← hu, Nat.mul_one] at hle
    omega
  -- the four sums
  have hbM : put (put bl b (bl b - 1)) (b + 1) (put bl b (bl b - 1) (b + 1) + 2) M = if b + 1 = M then bl M + 2 else bl M := by
    by_cases e : b + 1 = M
    · rw [if_pos e, e, put_same, put_ne _ _ (by omega)]
    · rw [if_neg e, put_ne _ _ (by omega), put_ne _ _ (by omega)]
  have hbb : put bl b (bl b - 1) (b + 1) = bl (b + 1) := put_ne _ _ (by omega)
  rw [hbb] at hbM ⊢
  rw [hbM]
  have gen : ∀ (c : Nat → Nat) (K : Nat), b ≤ K → b + 1 ≤ K → M ≤ K →
      wsum c (put (put (put bl b (bl b - 1)) (b + 1) (bl (b + 1) + 2)) M ((if b + 1 = M then bl M + 2 else bl M) - 1)) K + c b + c M =
        wsum c bl K + 2 * c (b + 1) := by
    intro c K k1 k2 k3
    have e1 := wsum_put_in c bl (bl b - 1) (by omega : 1 ≤ b) k1
    have e2 := wsum_put_in c (put bl b (bl b - 1)) (bl (b + 1) + 2) (by omega : 1 ≤ b + 1) k2
    have e3 := wsum_put_in c (put (put bl b (bl b - 1)) (b + 1) (bl (b + 1) + 2)) ((if b + 1 = M then bl M + 2 else bl M) - 1) hM k3
    rw [hbM] at e3
    rw [hbb] at e2
    have m1 : bl b * c b = (bl b - 1) * c b + c b := by
      rw [← Nat.succ_mul]; congr 1; omega
    have m2 : (bl (b + 1) + 2) * c (b + 1) = bl (b + 1) * c (b + 1) + 2 * c (b + 1) := by ring
    have m3 : (if b + 1 = M then bl M + 2 else bl M) * c M = ((if b + 1 = M then bl M + 2 else bl M) - 1) * c M + c M := by
      rw [← Nat.succ_mul]
      congr 1
      split <;> omega
    omega
  refine ⟨?_, ?_, ?_, ?_⟩
  · have := gen (fun l => 2 ^ (M - l)) M (by omega) (by omega) (Nat.le_refl _)
    simp only [Nat.sub_self, Nat.pow_zero] at this
    have e : 2 ^ (M - b) = 2 * 2 ^ (M - (b + 1)) := by rw [← Nat.pow_succ']; congr 1; omega
    omega
  · have := gen (fun _ => 1) M (by omega) (by omega) (Nat.le_refl _)
    simp only [wsum_one] at this
    omega
  · rw [wsum_put_out _ _ _ (by omega)]
    have e1 := wsum_put_in (fun l => 2 ^ (M - l)) bl (bl b - 1) (by omega : 1 ≤ b) hb2
    have m1 : bl b * 2 ^ (M - b) = (bl b - 1) * 2 ^ (M - b) + 2 ^ (M - b) := by
      rw [← Nat.succ_mul]; congr 1; omega
    by_cases hbm : b + 1 ≤ M - 1
    · have e2 := wsum_put_in (fun l => 2 ^ (M - l)) (put bl b (bl b - 1)) (bl (b + 1) + 2) (by omega : 1 ≤ b + 1) hbm
      rw [hbb] at e2
      have m2 : (bl (b + 1) + 2) * 2 ^ (M - (b + 1)) = bl (b + 1) * 2 ^ (M - (b + 1)) + 2 * 2 ^ (M - (b + 1)) := by ring
      have e : 2 ^ (M - b) = 2 * 2 ^ (M - (b + 1)) := by rw [← Nat.pow_succ']; congr 1; omega
      beta_reduce at e1 e2
      omega
    · rw [wsum_put_out _ _ _ (by omega)]
      beta_reduce at e1
      have := Nat.two_pow_pos (M - b)
      omega
  · rw [rsum_put_out _ _ (by omega), rsum_put_out _ _ (by omega)]
    by_cases hbm : b < q
    · by_cases hb0 : b < 1 + (q - 1)
      · have := rsum_put_in bl (b := b) (a := 1) (k := q - 1) (bl b - 1) (by omega) hb0
        omega
      · rw [rsum_put_out _ _ (by omega)]; exact hl
    · rw [rsum_put_out _ _ (by omega)]; exact hl

theorem Fixing.loop {M N q Q : Nat} (hM : 1 ≤ M) (hN : N ≤ 2 ^ M) (hq1 : 1 ≤ q) (hq2 : q ≤ M) (hqN : N ≤ 2 ^ (M - q + 2)) (k : Nat) :
    ∀ bl : Nat → Nat, Fixing M N k q Q bl → Fixing M N 0 q Q (fixLoop M k bl) := by
  induction k with
  | zero => intro bl h; exact h
  | succ k ih => intro bl h; exact ih _ (h.step hM hN hq1 hq2 hqN)

/-! ## Handing out -/

/-- `out[symbol] = length` for each pair in turn. -/
def deal : List Leaf → List Nat → (Nat → Nat) → Nat → Nat
  | l :: ls, L :: Ls, out => deal ls Ls (put out l.symbol L)
  | _, _, out => out

theorem deal_notMem (ls : List Leaf) (Ls : List Nat) (out : Nat → Nat) (s : Nat) (h : s ∉ ls.map Leaf.symbol) : deal ls Ls out s = out s := by
  induction ls generalizing Ls out with
  | nil => cases Ls <;> rfl
  | cons l ls ih =>
    cases Ls with
    | nil => rfl
    | cons L Ls =>
      rw [List.map_cons, List.mem_cons, not_or] at h
      rw [deal, ih _ _ h.2, put_ne _ _ h.1]

theorem deal_get (ls : List Leaf) (Ls : List Nat) (out : Nat → Nat) (hn : (ls.map Leaf.symbol).Nodup) (j : Nat) (l : Leaf) (L : Nat)
    (h1 : ls[j]? = some l) (h2 : Ls[j]? = some L) : deal ls Ls out l.symbol = L := by
  induction ls generalizing Ls out j with
  | nil => cases h1
  | cons a ls ih =>
    cases Ls with
    | nil => cases h2
    | cons A Ls =>
      rw [List.map_cons, List.nodup_cons] at hn
      rw [deal]
      cases j with
      | zero =>
        cases h1
        cases h2
        rw [deal_notMem _ _ _ _ hn.1, put_same]
      | succ j => exact ih Ls _ hn.2 j h1 h2

theorem handOut_spec (M : Nat) (ls : List Leaf) : ∀ (b : Nat) (bl out : Nat → Nat), rsum bl 1 b = ls.length → b ≤ M →
    ∃ Ls : List Nat, Ls.length = ls.length ∧ handOut b bl ls out = deal ls Ls out ∧ (∀ L ∈ Ls, 1 ≤ L ∧ L ≤ b ∧ bl L ≠ 0) ∧
      (Ls.map fun L => 2 ^ (M - L)).sum = wsum (fun l => 2 ^ (M - l)) bl b ∧
      ∀ j q L, Ls[j]? = some L → rsum bl 1 (q - 1) + j < ls.length → q ≤ L := by
  induction ls with
  | nil =>
    intro b bl out h hb
    refine ⟨[], rfl, rfl, fun L h => (nomatch h), ?_, fun j q L h => (nomatch h)⟩
    symm
    apply rsum_zero_of
    intro x h1 h2
    have := rsum_ge bl h1 h2
    simp only []
    rw [show bl x = 0 by simp at h; omega, Nat.zero_mul]
  | cons a ls ih =>
    intro b bl out h hb
    rw [List.length_cons] at h
    obtain ⟨l0, a1, a2, a3⟩ := exists_of_rsum_pos (f := bl) (a := 1) (k := b) (by omega)
    have hb1 := downTo_pos a1 (by omega : l0 ≤ b) a3
    obtain ⟨hb2, hb3, hb4⟩ := downTo_spec bl b
    have hb5 := hb4 (by omega)
    rw [handOut]
    generalize downTo bl b = c at *
    have hcut : rsum bl 1 b = rsum bl 1 c := rsum_cut hb2 fun x h1 h2 => hb3 x (by omega) (by omega)
    have hput := rsum_put_in bl (b := c) (a := 1) (k := c) (bl c - 1) (by omega) (by omega)
    obtain ⟨Ls, i1, i2, i3, i4, i5⟩ := ih c (put bl c (bl c - 1)) (put out a.symbol c) (by omega) (by omega)
    refine ⟨c :: Ls, by rw [List.length_cons, List.length_cons, i1], by rw [deal, i2], ?_, ?_, ?_⟩
    · intro L hL
      rcases List.mem_cons.1 hL with rfl | hL
      · exact ⟨by omega, hb2, hb5⟩
      · obtain ⟨x1, x2, x3⟩ := i3 L hL
        refine ⟨x1, by omega, fun e => x3 ?_⟩
        by_cases hLc : L = c
        · rw [hLc, put_same]; rw [hLc] at e; omega
        · rw [put_ne _ _ hLc, e]
    · rw [List.map_cons, List.sum_cons, i4]
      have e1 := wsum_put_in (fun l => 2 ^ (M - l)) bl (bl c - 1) (by omega : 1 ≤ c) (Nat.le_refl c)
      have m1 : bl c * 2 ^ (M - c) = (bl c - 1) * 2 ^ (M - c) + 2 ^ (M - c) := by
        rw [← Nat.succ_mul]; congr 1; omega
      beta_reduce at e1
      have hcut2 : wsum (fun l => 2 ^ (M - l)) bl b = wsum (fun l => 2 ^ (M - l)) bl c :=
        rsum_cut hb2 fun x h1 h2 => by simp only []; rw [hb3 x (by omega) (by omega), Nat.zero_mul]
      omega
    · intro j q L hL hj
      have hqc : ∀ q, rsum bl 1 (q - 1) < ls.length + 1 → q ≤ c := by
        intro q hq
        by_contra hcon
        have : c ≤ q - 1 := by omega
        have hmono : ∀ d, rsum bl 1 c ≤ rsum bl 1 (c + d) := by
          intro d
          induction d with
          | zero => exact Nat.le_refl _
          | succ d ih => rw [← Nat.add_assoc, rsum_last]; omega
        have := hmono (q - 1 - c)
        rw [show c + (q - 1 - c) = q - 1 by omega] at this
        omega
      rw [List.length_cons] at hj
      cases j with
      | zero =>
        cases hL
        exact hqc q (by omega)
      | succ j =>
        rw [List.getElem?_cons_succ] at hL
        refine i5 j q L hL ?_
        have hq := hqc q (by omega)
        by_cases hq0 : c < 1 + (q - 1)
        · have hne : q - 1 < c := by omega
          omega
        · rw [rsum_put_out _ _ (by omega)]; omega

end Verif.Flate
