import Verif.Flate.Lengths
import Mathlib.Tactic.Linarith
import Mathlib.Tactic.Ring

/-!
# Building the tree
-/
namespace Verif.Flate

theorem put_same (f : Nat → Nat) (a b : Nat) : put f a b a = b := if_pos rfl
theorem put_ne (f : Nat → Nat) {a x : Nat} (b : Nat) (h : x ≠ a) : put f a b x = f x := if_neg h

/-- Sum of `w` over `a, a+1, ..., a+k-1`. -/
def rsum (w : Nat → Nat) (a k : Nat) : Nat := ((List.range' a k).map w).sum

theorem rsum_zero (w : Nat → Nat) (a : Nat) : rsum w a 0 = 0 := rfl
theorem rsum_succ (w : Nat → Nat) (a k : Nat) : rsum w a (k + 1) = w a + rsum w (a + 1) k := by
  simp [rsum, List.range'_succ]
theorem rsum_last (w : Nat → Nat) (a k : Nat) : rsum w a (k + 1) = rsum w a k + w (a + k) := by
  simp [rsum, List.range'_concat]

/-- What holds of the two queues while the node `i` is being made, `m` nodes having been taken.  `f` are the
frequencies of the leaves, `e` a leaf of frequency one if `P`. -/
structure Merging (P : Prop) (n tb e : Nat) (f : Nat → Nat) (i m : Nat) (t : Tree) : Prop where
  leaf_ge : tb ≤ t.leaf
  leaf_le : t.leaf ≤ n
  inter_ge : n ≤ t.inter
  inter_le : t.inter ≤ i
  taken : (t.leaf - tb) + (t.inter - n) = m
  parentL : ∀ x, tb ≤ x → x < t.leaf → n ≤ t.v x ∧ t.v x ≤ i
  parentI : ∀ x, n ≤ x → x < t.inter → n ≤ t.v x ∧ t.v x ≤ i ∧ x < t.v x
  monoL : ∀ x y, tb ≤ x → x ≤ y → y < t.leaf → t.v x ≤ t.v y
  monoI : ∀ x y, n ≤ x → x ≤ y → y < t.inter → t.v x ≤ t.v y
  freqL : ∀ x, t.leaf ≤ x → x < n → t.v x = f x
  freqI : ∀ x, t.inter ≤ x → x < i → 2 ≤ t.v x
  ones : P → n < t.inter → e < t.leaf ∧ (tb ≤ e → t.v e ≤ t.v n)

/-- The two ways a node is taken. -/
structure Takes (n i : Nat) (t t' : Tree) (p : Nat) : Prop where
  old : ∀ x, x ≠ p → x ≠ i → t'.v x = t.v x
  new : t'.v p = i
  which : (p = t.inter ∧ t'.leaf = t.leaf ∧ t'.inter = t.inter + 1 ∧ (t.leaf = n ∨ (t.inter < i ∧ t.v t.inter < t.v t.leaf))) ∨
    (p = t.leaf ∧ t'.leaf = t.leaf + 1 ∧ t'.inter = t.inter ∧ ¬ (t.leaf = n ∨ (t.inter < i ∧ t.v t.inter < t.v t.leaf)))

theorem takes_of (n i : Nat) (t : Tree) (w : Nat) (hp : pick n i t ≠ i) :
    Takes n i t { advance n i t with v := put (put t.v i w) (pick n i t) i } (pick n i t) := by
  refine ⟨fun x h1 h2 => ?_, put_same _ _ _, ?_⟩
  · show put (put t.v i w) (pick n i t) i x = t.v x
    rw [put_ne _ _ h1, put_ne _ _ h2]
  · unfold pick advance
    by_cases h : t.leaf = n ∨ (t.inter < i ∧ t.v t.inter < t.v t.leaf)
    · simp only [if_pos h]; exact .inl ⟨trivial, trivial, trivial, h⟩
    · simp only [if_neg h]; exact .inr ⟨trivial, trivial, trivial, h⟩

section
variable {P : Prop} {n tb e : Nat} {f : Nat → Nat} {i m : Nat} {t : Tree}

/-- Something is there to take, and it is not the node being made. -/
theorem Merging.pick_lt (h : Merging P n tb e f i m t) (hn : n ≤ i) (hm : m < (n - tb) + (i - n)) :
    pick n i t < i ∧ (n ≤ pick n i t → pick n i t = t.inter) := by
  have h1 := h.leaf_ge
  have h2 := h.leaf_le
  have h3 := h.inter_ge
  have h4 := h.inter_le
  have h5 := h.taken
  unfold pick
  split
  · rename_i hc
    rcases hc with hc | hc
    · exact ⟨by omega, fun _ => rfl⟩
    · exact ⟨hc.1, fun _ => rfl⟩
  · rename_i hc
    have : t.leaf ≠ n := fun e => hc (.inl e)
    exact ⟨by omega, fun _ => by omega⟩

theorem Merging.step (h : Merging P n tb e f i m t) (hn : n ≤ i) (he : e < n) (hf : ∀ x, tb ≤ x → x < n → 1 ≤ f x)
    (hone : P → ∀ x, tb ≤ x → x ≤ e → f x = 1) {t' : Tree} {p : Nat} (ht : Takes n i t t' p) (hp : p < i) :
    Merging P n tb e f i (m + 1) t' ∧ 1 ≤ t.v p := by
  have h1 := h.leaf_ge
  have h2 := h.leaf_le
  have h3 := h.inter_ge
  have h4 := h.inter_le
  have h5 := h.taken
  rcases ht.which with ⟨w1, w2, w3, w4⟩ | ⟨w1, w2, w3, w4⟩
  · -- an interior node
    refine ⟨⟨by omega, by omega, by omega, by omega, by omega, ?_, ?_, ?_, ?_, ?_, ?_, ?_⟩, ?_⟩
    · intro x a b
      rw [ht.old x (by omega) (by omega)]
      exact h.parentL x a (by omega)
    · intro x a b
      by_cases hx : x = p
      · rw [hx, ht.new]; omega
      · rw [ht.old x hx (by omega)]
        exact h.parentI x a (by omega)
    · intro x y a b c
      rw [ht.old x (by omega) (by omega), ht.old y (by omega) (by omega)]
      exact h.monoL x y a b (by omega)
    · intro x y a b c
      by_cases hy : y = p
      · rw [hy, ht.new]
        by_cases hx : x = p
        · rw [hx, ht.new]
        · rw [ht.old x hx (by omega)]
          exact (h.parentI x a (by omega)).2.1
      · rw [ht.old x (by omega) (by omega), ht.old y hy (by omega)]
        exact h.monoI x y a b (by omega)
    · intro x a b
      rw [ht.old x (by omega) (by omega)]
      exact h.freqL x (by omega) b
    · intro x a b
      rw [ht.old x (by omega) (by omega)]
      exact h.freqI x (by omega) b
    · intro hP _
      by_cases hfirst : n < t.inter
      · obtain ⟨o1, o2⟩ := h.ones hP hfirst
        refine ⟨by omega, fun a => ?_⟩
        rw [ht.old e (by omega) (by omega), ht.old n (by omega) (by omega)]
        exact o2 a
      · have hpn : n = p := by omega
        have hlt : e < t.leaf := by
          rcases w4 with w4 | w4
          · omega
          · by_contra hc
            have q1 := h.freqL t.leaf (Nat.le_refl _) (by omega)
            have q2 := hone hP t.leaf h1 (by omega)
            have q3 := h.freqI t.inter (Nat.le_refl _) w4.1
            omega
        refine ⟨by omega, fun a => ?_⟩
        rw [hpn, ht.new, ht.old e (by omega) (by omega)]
        exact (h.parentL e a hlt).2
    · have := h.freqI p (by omega) hp
      omega
  · have hlt : t.leaf < n := by
      have : t.leaf ≠ n := fun e => w4 (.inl e)
      omega
    refine ⟨⟨by omega, by omega, by omega, by omega, by omega, ?_, ?_, ?_, ?_, ?_, ?_, ?_⟩, ?_⟩
    · intro x a b
      by_cases hx : x = p
      · rw [hx, ht.new]; omega
      · rw [ht.old x hx (by omega)]
        exact h.parentL x a (by omega)
    · intro x a b
      rw [ht.old x (by omega) (by omega)]
      exact h.parentI x a (by omega)
    · intro x y a b c
      by_cases hy : y = p
      · rw [hy, ht.new]
        by_cases hx : x = p
        · rw [hx, ht.new]
        · rw [ht.old x hx (by omega)]
          exact (h.parentL x a (by omega)).2
      · rw [ht.old x (by omega) (by omega), ht.old y hy (by omega)]
        exact h.monoL x y a b (by omega)
    · intro x y a b c
      rw [ht.old x (by omega) (by omega), ht.old y (by omega) (by omega)]
      exact h.monoI x y a b (by omega)
    · intro x a b
      rw [ht.old x (by omega) (by omega)]
      exact h.freqL x (by omega) b
    · intro x a b
      rw [ht.old x (by omega) (by omega)]
      exact h.freqI x (by omega) b
    · intro hP a
      obtain ⟨o1, o2⟩ := h.ones hP (by omega)
      refine ⟨by omega, fun b => ?_⟩
      rw [ht.old e (by omega) (by omega), ht.old n (by omega) (by omega)]
      exact o2 b
    · rw [w1, h.freqL t.leaf (Nat.le_refl _) hlt]
      exact hf _ h1 hlt

/-- The weight of what has not been taken yet. -/
def avail (w : Nat → Nat) (n i : Nat) (t : Tree) : Nat := rsum w t.leaf (n - t.leaf) + rsum w t.inter (i - t.inter)

theorem avail_take (h : Merging P n tb e f i m t) (w : Nat → Nat) {t' : Tree} {p : Nat} (ht : Takes n i t t' p) (hp : p < i) :
    avail w n i t = w p + avail w n i t' := by
  have h2 := h.leaf_le
  unfold avail
  rcases ht.which with ⟨w1, w2, w3, w4⟩ | ⟨w1, w2, w3, w4⟩
  · rw [w2, w3, show i - t.inter = (i - (t.inter + 1)) + 1 by omega, rsum_succ, w1]
    omega
  · have : t.leaf ≠ n := fun e => w4 (.inl e)
    rw [w2, w3, show n - t.leaf = (n - (t.leaf + 1)) + 1 by omega, rsum_succ, w1]
    omega

theorem Merging.next (h : Merging P n tb e f i m t) (hi : 2 ≤ t.v i) : Merging P n tb e f (i + 1) m t := by
  refine ⟨h.leaf_ge, h.leaf_le, h.inter_ge, Nat.le_succ_of_le h.inter_le, h.taken, ?_, ?_, h.monoL, h.monoI, h.freqL, ?_, h.ones⟩
  · intro x a b
    have := h.parentL x a b
    omega
  · intro x a b
    have := h.parentI x a b
    omega
  · intro x a b
    by_cases hx : x = i
    · rw [hx]; exact hi
    · exact h.freqI x a (by omega)

theorem merge_spec (he : e < n) (htb : tb < n) (hf : ∀ x, tb ≤ x → x < n → 1 ≤ f x) (hone : P → ∀ x, tb ≤ x → x ≤ e → f x = 1) (k : Nat) :
    ∀ (i : Nat) (t : Tree), Merging P n tb e f i (2 * (i - n)) t → n ≤ i → i + k = n + (n - tb) - 1 →
    Merging P n tb e f (n + (n - tb) - 1) (2 * (n - tb - 1)) (mergeLoop n k i t) ∧
    t.leaf ≤ (mergeLoop n k i t).leaf ∧ t.inter ≤ (mergeLoop n k i t).inter ∧
    (∀ x, x < t.leaf ∨ (n ≤ x ∧ x < t.inter) → (mergeLoop n k i t).v x = t.v x) ∧
    (0 < k → (mergeLoop n k i t).inter + 1 < n + (n - tb) ∧
      ∀ x, (tb ≤ x ∧ x < (mergeLoop n k i t).leaf) ∨ (n ≤ x ∧ x < (mergeLoop n k i t).inter) → (mergeLoop n k i t).v x + 1 < n + (n - tb)) ∧
    (∀ w : Nat → Nat, (∀ x, (tb ≤ x ∧ x < (mergeLoop n k i t).leaf) ∨ (n ≤ x ∧ x < (mergeLoop n k i t).inter) →
      2 * w x = w ((mergeLoop n k i t).v x)) → avail w n i t = avail w n (n + (n - tb) - 1) (mergeLoop n k i t)) := by
  induction k with
  | zero =>
    intro i t h hn hk
    have hi : i = n + (n - tb) - 1 := by omega
    subst hi
    refine ⟨?_, Nat.le_refl _, Nat.le_refl _, fun _ _ => rfl, fun h => absurd h (by omega), fun _ _ => rfl⟩
    rw [show 2 * (n - tb - 1) = 2 * (n + (n - tb) - 1 - n) by omega]
    exact h
  | succ k ih =>
    intro i t h hn hk
    -- the first
    have hp1 := h.pick_lt hn (by omega)
    have ht1 : Takes n i t (takeFirst n i t) (pick n i t) := takes_of n i t _ (by omega)
    obtain ⟨g1, q1⟩ := h.step hn he hf hone ht1 hp1.1
    have hv1 : (takeFirst n i t).v i = t.v (pick n i t) := by
      show put (put t.v i _) (pick n i t) i i = _
      rw [put_ne _ _ (by omega), put_same]
    -- the second
    have hp2 := g1.pick_lt hn (by omega)
    have ht2 : Takes n i (takeFirst n i t) (takeSecond n i (takeFirst n i t)) (pick n i (takeFirst n i t)) := takes_of n i _ _ (by omega)
    obtain ⟨g2, q2⟩ := g1.step hn he hf hone ht2 hp2.1
    have hv2 : (takeSecond n i (takeFirst n i t)).v i = t.v (pick n i t) + (takeFirst n i t).v (pick n i (takeFirst n i t)) := by
      show put (put (takeFirst n i t).v i _) (pick n i (takeFirst n i t)) i i = _
      rw [put_ne _ _ (by omega), put_same, hv1]
    have g3 : Merging P n tb e f (i + 1) (2 * (i + 1 - n)) (takeSecond n i (takeFirst n i t)) := by
      rw [show 2 * (i + 1 - n) = 2 * (i - n) + 1 + 1 by omega]
      exact g2.next (by omega)
    have a1 := fun w => avail_take h w ht1 hp1.1
    have a2 := fun w => avail_take g1 w ht2 hp2.1
    have hl1 : t.leaf ≤ (takeFirst n i t).leaf ∧ t.inter ≤ (takeFirst n i t).inter ∧
        (pick n i t < (takeFirst n i t).leaf ∨ (n ≤ pick n i t ∧ pick n i t < (takeFirst n i t).inter)) ∧ ¬ (pick n i t < t.leaf ∨ (n ≤ pick n i t ∧ pick n i t < t.inter)) := by
      have := h.inter_ge
      have := h.leaf_le
      rcases ht1.which with ⟨w1, w2, w3, w4⟩ | ⟨w1, w2, w3, w4⟩
      · omega
      · have : t.leaf ≠ n := fun e => w4 (.inl e)
        omega
    have hl2 : (takeFirst n i t).leaf ≤ (takeSecond n i (takeFirst n i t)).leaf ∧ (takeFirst n i t).inter ≤ (takeSecond n i (takeFirst n i t)).inter ∧
        (pick n i (takeFirst n i t) < (takeSecond n i (takeFirst n i t)).leaf ∨ (n ≤ pick n i (takeFirst n i t) ∧ pick n i (takeFirst n i t) < (takeSecond n i (takeFirst n i t)).inter)) ∧
        ¬ (pick n i (takeFirst n i t) < (takeFirst n i t).leaf ∨ (n ≤ pick n i (takeFirst n i t) ∧ pick n i (takeFirst n i t) < (takeFirst n i t).inter)) := by
      have := g1.inter_ge
      have := g1.leaf_le
      rcases ht2.which with ⟨w1, w2, w3, w4⟩ | ⟨w1, w2, w3, w4⟩
      · omega
      · have : (takeFirst n i t).leaf ≠ n := fun e => w4 (.inl e)
        omega
    have hnot : pick n i t ≠ pick n i (takeFirst n i t) := by
      intro heq
      rw [← heq] at hl2
      exact hl2.2.2.2 hl1.2.2.1
    have hpge1 : tb ≤ pick n i t := by
      have := h.leaf_ge
      have := h.inter_ge
      rcases ht1.which with ⟨w1, -⟩ | ⟨w1, -⟩ <;> omega
    have hpge2 : tb ≤ pick n i (takeFirst n i t) := by
      have := g1.leaf_ge
      have := g1.inter_ge
      rcases ht2.which with ⟨w1, -⟩ | ⟨w1, -⟩ <;> omega
    obtain ⟨r1, r2, r3, r4, r5, r6⟩ := ih (i + 1) _ g3 (by omega) (by omega)
    have hgi := g2.inter_le
    have hg1i := g1.inter_le
    rw [mergeLoop]
    generalize mergeLoop n k (i + 1) (takeSecond n i (takeFirst n i t)) = T at *
    generalize takeSecond n i (takeFirst n i t) = t2 at *
    generalize takeFirst n i t = t1 at *
    generalize pick n i t1 = p2 at *
    generalize pick n i t = p1 at *
    refine ⟨r1, by omega, by omega, ?_, ?_, ?_⟩
    · intro x hx
      rw [r4 x (by omega)]
      have := h.inter_le
      have := h.leaf_le
      have x1 : x ≠ p1 := by rintro rfl; exact hl1.2.2.2 hx
      have x2 : x ≠ p2 := by rintro rfl; exact hl2.2.2.2 (by omega)
      rw [ht2.old x x2 (by omega), ht1.old x x1 (by omega)]
    · intro _
      by_cases hk0 : 0 < k
      · exact r5 hk0
      · obtain rfl : k = 0 := by omega
        have := r1.inter_le
        have h5 := r1.taken
        have := r1.leaf_le
        have := r1.leaf_ge
        -- no step is left, and the last node was not there when the last two were taken
        have h6 := g3.taken
        have := g3.leaf_ge
        have := g3.leaf_le
        have := g3.inter_ge
        refine ⟨by omega, fun x hx => ?_⟩
        have e1 : T.leaf = t2.leaf := by omega
        have e2 : T.inter = t2.inter := by omega
        rw [r4 x (by omega)]
        rcases hx with hx | hx
        · have := g2.parentL x hx.1 (by omega); omega
        · have := g2.parentI x hx.1 (by omega); omega
    · intro w hw
      rw [a1 w, a2 w, ← r6 w hw]
      have hw1 := hw p1 (by omega)
      have hw2 := hw p2 (by omega)
      rw [r4 p1 (by omega)] at hw1
      rw [r4 p2 (by omega), ht2.new] at hw2
      rw [ht2.old p1 hnot (by omega), ht1.new] at hw1
      have : avail w n (i + 1) t2 = avail w n i t2 + w i := by
        unfold avail
        rw [show i + 1 - t2.inter = (i - t2.inter) + 1 by omega, rsum_last, show t2.inter + (i - t2.inter) = i by omega]
        omega
      omega

end

end Verif.Flate
