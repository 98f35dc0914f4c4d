import Verif.Flate.TreeProofs

/-!
# The depths of the leaves fill the code space exactly
-/
namespace Verif.Flate

theorem depthLoop_spec (n : Nat) (k : Nat) : ∀ v : Nat → Nat, (∀ x, n ≤ x → x < n + k → x < v x) →
    (∀ x, x < n ∨ n + k ≤ x → depthLoop n k v x = v x) ∧
    (∀ x, n ≤ x → x < n + k → depthLoop n k v x = depthLoop n k v (v x) + 1) := by
  induction k with
  | zero => intro v _; exact ⟨fun _ _ => rfl, fun x h1 h2 => by omega⟩
  | succ k ih =>
    intro v hv
    have hself := hv (n + k) (by omega) (by omega)
    obtain ⟨i1, i2⟩ := ih (put v (n + k) (v (v (n + k)) + 1)) (fun x h1 h2 => by rw [put_ne _ _ (by omega)]; exact hv x h1 (by omega))
    rw [depthLoop]
    constructor
    · intro x hx
      rw [i1 x (by omega), put_ne _ _ (by omega)]
    · intro x h1 h2
      by_cases hx : x = n + k
      · subst hx
        rw [i1 (n + k) (by omega), put_same, i1 (v (n + k)) (by omega), put_ne _ _ (by omega)]
      · rw [i2 x h1 (by omega), put_ne _ _ hx]

/-- The finished tree: `N = n - tb` leaves `tb, ..., n-1`, interior nodes `n, ..., root`; `par` the parents and
`dep` the depths. -/
structure Done (P : Prop) (n tb e : Nat) (par dep : Nat → Nat) : Prop where
  rootZero : dep (n + (n - tb) - 2) = 0
  parL : ∀ x, tb ≤ x → x < n → n ≤ par x ∧ par x ≤ n + (n - tb) - 2
  parI : ∀ x, n ≤ x → x < n + (n - tb) - 2 → x < par x ∧ par x ≤ n + (n - tb) - 2
  depI : ∀ x, n ≤ x → x < n + (n - tb) - 2 → dep x = dep (par x) + 1
  monoL : ∀ x y, tb ≤ x → x ≤ y → y < n → par x ≤ par y
  monoI : ∀ x y, n ≤ x → x ≤ y → y < n + (n - tb) - 2 → par x ≤ par y
  ones : P → n < n + (n - tb) - 2 → tb ≤ e → par e ≤ par n
  sum : ∀ w : Nat → Nat, (∀ x, (tb ≤ x ∧ x < n) ∨ (n ≤ x ∧ x < n + (n - tb) - 2) → 2 * w x = w (par x)) →
    rsum w tb (n - tb) = w (n + (n - tb) - 2)

theorem done_of_merge {P : Prop} {n tb e : Nat} {f : Nat → Nat} (he : e < n) (htb : tb + 2 ≤ n) (hf : ∀ x, tb ≤ x → x < n → 1 ≤ f x)
    (hone : P → ∀ x, tb ≤ x → x ≤ e → f x = 1) :
    let t := mergeLoop n (n - tb - 1) n ⟨f, tb, n⟩
    let v := depthLoop n (n - tb - 2) (put t.v (n + (n - tb) - 2) 0)
    Done P n tb e t.v v ∧ ∀ x, x < n → v x = t.v x := by
  intro t v
  have h0 : Merging P n tb e f n (2 * (n - n)) ⟨f, tb, n⟩ :=
    ⟨Nat.le_refl _, by show tb ≤ n; omega, Nat.le_refl _, Nat.le_refl _, by simp, fun x a b => by simp at b; omega,
      fun x a b => by simp at b; omega, fun x y a b c => by simp at c; omega, fun x y a b c => by simp at c; omega,
      fun x a b => rfl, fun x a b => by simp at a; omega, fun _ a => by simp at a⟩
  obtain ⟨r1, r2, r3, r4, r5, r6⟩ := merge_spec he (by omega) hf hone (n - tb - 1) n ⟨f, tb, n⟩ h0 (Nat.le_refl _) (by omega)
  obtain ⟨h5, h6⟩ := r5 (by omega)
  have ht := r1.taken
  have hl1 := r1.leaf_ge
  have hl2 := r1.leaf_le
  have hi1 := r1.inter_ge
  have hleaf : t.leaf = n := by
    show (mergeLoop _ _ _ _).leaf = n
    omega
  have hinter : t.inter = n + (n - tb) - 2 := by
    show (mergeLoop _ _ _ _).inter = _
    omega
  change Merging P n tb e f _ _ t at r1
  change ∀ x, (tb ≤ x ∧ x < t.leaf) ∨ (n ≤ x ∧ x < t.inter) → t.v x + 1 < n + (n - tb) at h6
  change ∀ w : Nat → Nat, (∀ x, (tb ≤ x ∧ x < t.leaf) ∨ (n ≤ x ∧ x < t.inter) → 2 * w x = w (t.v x)) → avail w n n ⟨f, tb, n⟩ = avail w n (n + (n - tb) - 1) t at r6
  have hput : ∀ x, x ≠ n + (n - tb) - 2 → put t.v (n + (n - tb) - 2) 0 x = t.v x := fun x hx => put_ne _ _ hx
  have hpI : ∀ x, n ≤ x → x < n + (n - tb) - 2 → x < t.v x ∧ t.v x ≤ n + (n - tb) - 2 := by
    intro x a b
    have q := r1.parentI x a (by omega)
    have := h6 x (.inr ⟨a, by omega⟩)
    omega
  obtain ⟨d1, d2⟩ := depthLoop_spec n (n - tb - 2) (put t.v (n + (n - tb) - 2) 0) (fun x a b => by
    rw [hput x (by omega)]; exact (hpI x a (by omega)).1)
  refine ⟨⟨?_, ?_, hpI, ?_, ?_, ?_, ?_, ?_⟩, ?_⟩
  · rw [show v (n + (n - tb) - 2) = put t.v (n + (n - tb) - 2) 0 (n + (n - tb) - 2) from d1 _ (by omega), put_same]
  · intro x a b
    have q := r1.parentL x a (by omega)
    have := h6 x (.inl ⟨a, by omega⟩)
    omega
  · intro x a b
    have := d2 x a (by omega)
    rw [hput x (by omega)] at this
    exact this
  · intro x y a b c
    exact r1.monoL x y a b (by omega)
  · intro x y a b c
    exact r1.monoI x y a b (by omega)
  · intro hP a b
    exact (r1.ones hP (by omega)).2 b
  · intro w hw
    have := r6 w (fun x hx => hw x (by omega))
    unfold avail at this
    simp only [] at this
    rw [hleaf, hinter, Nat.sub_self, rsum_zero, show n + (n - tb) - 1 - (n + (n - tb) - 2) = 1 by omega, rsum_succ, rsum_zero] at this
    omega
  · intro x hx
    rw [show v x = put t.v (n + (n - tb) - 2) 0 x from d1 x (.inl hx), hput x (by omega)]

namespace Done
variable {P : Prop} {n tb e : Nat} {par dep : Nat → Nat} (h : Done P n tb e par dep)
include h

theorem depth_le (htb : tb + 2 ≤ n) (k : Nat) : ∀ x, n ≤ x → x + k = n + (n - tb) - 2 → dep x ≤ k := by
  induction k using Nat.strongRecOn with
  | _ k ih =>
    intro x h1 h2
    by_cases hk : k = 0
    · have : x = n + (n - tb) - 2 := by omega
      rw [this, h.rootZero]; omega
    · have hp := h.parI x h1 (by omega)
      rw [h.depI x h1 (by omega)]
      have := ih (n + (n - tb) - 2 - par x) (by omega) (par x) (by omega) (by omega)
      omega

theorem antitone (k : Nat) : ∀ x y, n ≤ x → x ≤ y → y ≤ n + (n - tb) - 2 → x + k = n + (n - tb) - 2 → dep y ≤ dep x := by
  induction k using Nat.strongRecOn with
  | _ k ih =>
    intro x y h1 h2 h3 h4
    by_cases hy : y = n + (n - tb) - 2
    · rw [hy, h.rootZero]; omega
    · have hp := h.parI x h1 (by omega)
      have hq := h.parI y (by omega) (by omega)
      have hm := h.monoI x y h1 h2 (by omega)
      rw [h.depI x h1 (by omega), h.depI y (by omega) (by omega)]
      have := ih (n + (n - tb) - 2 - par x) (by omega) (par x) (par y) (by omega) hm hq.2 (by omega)
      omega

/-- The code space is filled. -/
theorem full (htb : tb + 2 ≤ n) {B : Nat} (hB : n - tb ≤ B) : rsum (fun x => 2 ^ (B - (dep (par x) + 1))) tb (n - tb) = 2 ^ B := by
  have key := h.sum (fun x => if x < n then 2 ^ (B - (dep (par x) + 1)) else 2 ^ (B - dep x)) ?_
  · rw [if_neg (by omega), h.rootZero, Nat.sub_zero] at key
    rw [← key]
    unfold rsum
    congr 1
    apply List.map_congr_left
    intro x hx
    have := List.mem_range'_1.1 hx
    rw [if_pos (by omega)]
  · intro x hx
    rcases hx with hx | hx
    · have hp := h.parL x hx.1 hx.2
      have hd := h.depth_le htb (n + (n - tb) - 2 - par x) (par x) hp.1 (by omega)
      rw [if_pos hx.2, if_neg (by omega), ← Nat.pow_succ']
      congr 1
      omega
    · have hp := h.parI x hx.1 hx.2
      have hd := h.depth_le htb (n + (n - tb) - 2 - x) x hx.1 (by omega)
      rw [if_neg (by omega), if_neg (by omega), ← Nat.pow_succ', h.depI x hx.1 hx.2]
      rw [h.depI x hx.1 hx.2] at hd
      congr 1
      omega

/-- Rarer leaves are no higher. -/
theorem leaf_antitone {x y : Nat} (h1 : tb ≤ x) (h2 : x ≤ y) (h3 : y < n) : dep (par y) ≤ dep (par x) := by
  have hp := h.parL x h1 (by omega)
  have hq := h.parL y (by omega) h3
  exact h.antitone (n + (n - tb) - 2 - par x) (par x) (par y) hp.1 (h.monoL x y h1 h2 h3) hq.2 (by omega)

/-- A leaf of frequency one is at most one level above the deepest. -/
theorem one_deep (hP : P) (he1 : tb ≤ e) (he2 : e < n) {x : Nat} (h1 : tb ≤ x) (h2 : x < n) : dep (par x) ≤ dep (par e) + 1 := by
  have hp := h.parL x h1 h2
  have hq := h.parL e he1 he2
  have hx : dep (par x) ≤ dep n := h.antitone (n + (n - tb) - 2 - n) n (par x) (Nat.le_refl _) hp.1 hp.2 (by omega)
  by_cases hr : n < n + (n - tb) - 2
  · have ho := h.ones hP hr he1
    have hn := h.parI n (Nat.le_refl _) hr
    rw [h.depI n (Nat.le_refl _) hr] at hx
    have := h.antitone (n + (n - tb) - 2 - par e) (par e) (par n) hq.1 ho hn.2 (by omega)
    omega
  · have : n = n + (n - tb) - 2 := by omega
    rw [this, h.rootZero] at hx
    omega

end Done

end Verif.Flate
