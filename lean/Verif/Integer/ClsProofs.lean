import Verif.Integer.ClsModel
import Verif.Integer.ArrProofs
import Mathlib.Tactic.Ring
import Mathlib.Tactic.Linarith

/-!
# Proofs about class Integer: addition, subtraction, comparison
-/
namespace Verif.Integer

open Verif.Misc

/-- The mathematical integer an object stands for. -/
def value (ws : Nat) (x : Obj) : Int :=
  if x.neg then -(wval (base ws) x.reg : Int) else (wval (base ws) x.reg : Int)

/-- Class invariant: proper words, a power-of-two number of them (at least two), and no negative zero. -/
structure Ok (ws : Nat) (x : Obj) : Prop where
  words : Words (base ws) x.reg
  size : ∃ k, x.reg.length = 2 ^ (k + 1)
  sign : x.neg = true → wval (base ws) x.reg ≠ 0

theorem base_gt {ws : Nat} (h : 0 < ws) : 1 < base ws := by
  unfold base
  exact Nat.one_lt_two_pow (by omega)

/-! ### RoundupSize -/

theorem roundupSize_spec (n : Nat) :
    (∃ k, roundupSize n = 2 ^ (k + 1)) ∧ n ≤ roundupSize n ∧
      ∀ k, n ≤ 2 ^ (k + 1) → roundupSize n ≤ 2 ^ (k + 1) := by
  have two : ∀ k : Nat, 2 ≤ 2 ^ (k + 1) := fun k => by
    have := Nat.two_pow_pos k; rw [Nat.pow_succ]; omega
  have step : ∀ m k : Nat, 2 ^ m < 2 ^ (k + 1) → 2 ^ (m + 1) ≤ 2 ^ (k + 1) := fun m k h =>
    Nat.pow_le_pow_right (by omega) ((Nat.pow_lt_pow_iff_right (by omega)).mp h)
  unfold roundupSize
  split
  · rename_i h
    have : n = 0 ∨ n = 1 ∨ n = 2 ∨ n = 3 ∨ n = 4 ∨ n = 5 ∨ n = 6 ∨ n = 7 ∨ n = 8 := by omega
    rcases this with h | h | h | h | h | h | h | h | h <;> subst h
    · exact ⟨⟨0, rfl⟩, by decide, fun k _ => two k⟩
    · exact ⟨⟨0, rfl⟩, by decide, fun k _ => two k⟩
    · exact ⟨⟨0, rfl⟩, by decide, fun k _ => two k⟩
    · exact ⟨⟨1, rfl⟩, by decide, fun k h => step 1 k (by simp; omega)⟩
    · exact ⟨⟨1, rfl⟩, by decide, fun k h => h⟩
    · exact ⟨⟨2, rfl⟩, by decide, fun k h => step 2 k (by simp; omega)⟩
    · exact ⟨⟨2, rfl⟩, by decide, fun k h => step 2 k (by simp; omega)⟩
    · exact ⟨⟨2, rfl⟩, by decide, fun k h => step 2 k (by simp; omega)⟩
    · exact ⟨⟨2, rfl⟩, by decide, fun k h => h⟩
  split
  · exact ⟨⟨3, rfl⟩, by omega, fun k h => step 3 k (by simp; omega)⟩
  split
  · exact ⟨⟨4, rfl⟩, by omega, fun k h => step 4 k (by simp; omega)⟩
  split
  · exact ⟨⟨5, rfl⟩, by omega, fun k h => step 5 k (by simp; omega)⟩
  · have h0 : n - 1 ≠ 0 := by omega
    have h1 := bitLen_lt (n - 1)
    have h2 := bitLen_pos_le h0
    have h3 : bitLen (n - 1) ≠ 0 := by
      intro e; rw [e] at h1; simp at h1; omega
    rw [Nat.one_shiftLeft]
    refine ⟨⟨bitLen (n - 1) - 1, by rw [show bitLen (n - 1) - 1 + 1 = bitLen (n - 1) by omega]⟩, by omega, ?_⟩
    intro k h
    exact Nat.pow_le_pow_right (by omega) (bitLen_le (by omega))

theorem roundupSize_pow (k : Nat) : roundupSize (2 ^ (k + 1)) = 2 ^ (k + 1) := by
  obtain ⟨_, h2, h3⟩ := roundupSize_spec (2 ^ (k + 1))
  have := h3 k (Nat.le_refl _)
  omega

theorem roundupSize_of_size {x : List Nat} (h : ∃ k, x.length = 2 ^ (k + 1)) : roundupSize x.length = x.length := by
  obtain ⟨k, e⟩ := h
  rw [e, roundupSize_pow]

theorem size_even {n : Nat} (h : ∃ k, n = 2 ^ (k + 1)) : n % 2 = 0 ∧ 2 ≤ n := by
  obtain ⟨k, e⟩ := h
  have := Nat.two_pow_pos k
  rw [Nat.pow_succ] at e
  omega

theorem size_max {m n : Nat} (hm : ∃ k, m = 2 ^ (k + 1)) (hn : ∃ k, n = 2 ^ (k + 1)) : ∃ k, max m n = 2 ^ (k + 1) := by
  rcases Nat.le_total m n with h | h
  · rw [Nat.max_eq_right h]; exact hn
  · rw [Nat.max_eq_left h]; exact hm

theorem size_double {n : Nat} (hn : ∃ k, n = 2 ^ (k + 1)) : ∃ k, 2 * n = 2 ^ (k + 1) := by
  obtain ⟨k, e⟩ := hn
  exact ⟨k + 1, by rw [e]; ring⟩

/-! ### Array plumbing -/

theorem writeAt_zero (r src : List Nat) (h : src.length = r.length) : writeAt r 0 src = src := by
  simp [writeAt, h]

theorem cleanGrow_length (r : List Nat) (n : Nat) : (cleanGrow r n).length = max r.length n := by
  simp [cleanGrow]; omega

theorem cleanGrow_wval (B : Nat) (r : List Nat) (n : Nat) : wval B (cleanGrow r n) = wval B r := by
  rw [cleanGrow, wval_append, wval_zeros]; simp

theorem Words.cleanGrow {B : Nat} (hB : 0 < B) {r : List Nat} (h : Words B r) (n : Nat) : Words B (cleanGrow r n) :=
  h.append (Words.replicate hB _)

theorem cleanGrow_self (r : List Nat) (n : Nat) (h : n ≤ r.length) : cleanGrow r n = r := by
  simp [Integer.cleanGrow, Nat.sub_eq_zero_of_le h]

/-- Growing to twice the size and setting the middle word to 1 adds `B^size`. -/
theorem growOne {B : Nat} (hB : 1 < B) {r : List Nat} (hr : Words B r) (hl : 0 < r.length) :
    let g := cleanGrow r (2 * r.length)
    let s := g.set (g.length / 2) 1
    s.length = 2 * r.length ∧ Words B s ∧ wval B s = wval B r + B ^ r.length := by
  intro g s
  have hg : g.length = 2 * r.length := by simp only [g, cleanGrow_length]; omega
  have es : s = r ++ (1 :: List.replicate (r.length - 1) 0) := by
    have e2 : g.length / 2 = r.length := by omega
    simp only [s]
    rw [e2]
    simp only [g, Integer.cleanGrow]
    rw [List.set_append_right _ _ (Nat.le_refl _), Nat.sub_self]
    obtain ⟨m, em⟩ : ∃ m, r.length = m + 1 := ⟨r.length - 1, by omega⟩
    rw [show 2 * r.length - r.length = m + 1 by omega, List.replicate_succ, List.set_cons_zero]
    simp [em]
  rw [es]
  refine ⟨by simp; omega, hr.append (Words.cons hB (Words.replicate (by omega) _)), ?_⟩
  rw [wval_append]
  simp [wval]

/-! ### PositiveAdd -/

theorem addUneven {B : Nat} (hB : 1 < B) {sum a b : List Nat} (ha : Words B a) (hb : Words B b)
    (hgt : b.length < a.length) (hs : sum.length = a.length) (he : b.length % 2 = 0) (r : List Nat × Nat)
    (hr1 : r.1.length = b.length) (hr2 : Words B r.1) (hr3 : r.2 ≤ 1)
    (hr4 : wval B r.1 + B ^ b.length * r.2 = wval B (a.take b.length) + wval B b) :
    let s := writeAt (writeAt sum 0 r.1) b.length (a.drop b.length)
    let i := increment B r.2 ((s.drop b.length).take (a.length - b.length))
    (writeAt s b.length i.1).length = a.length ∧ Words B (writeAt s b.length i.1) ∧ i.2 ≤ 1 ∧
      wval B (writeAt s b.length i.1) + B ^ a.length * i.2 = wval B a + wval B b := by
  intro s i
  have es : s = r.1 ++ a.drop b.length := by
    simp only [s, writeAt, hr1]
    simp [hr1, hs]
  have ei : (s.drop b.length).take (a.length - b.length) = a.drop b.length := by
    rw [es, ← hr1, List.drop_left]
    rw [List.take_of_length_le]
    rw [hr1]; simp
  have hne : a.drop b.length ≠ [] := by
    intro h; have := congrArg List.length h; simp at this; omega
  obtain ⟨h1, h2, h3, h4⟩ := increment_spec hB r.2 (by omega) (a.drop b.length) (ha.drop _) hne
  have eii : i = increment B r.2 (a.drop b.length) := by simp only [i]; rw [ei]
  rw [← eii] at h1 h2 h3 h4
  have ew : writeAt s b.length i.1 = r.1 ++ i.1 := by
    rw [es, writeAt, ← hr1, List.take_left]
    rw [List.drop_of_length_le, List.append_nil]
    simp [h1]; omega
  rw [ew]
  refine ⟨?_, hr2.append h2, h3, ?_⟩
  · rw [List.length_append, hr1, h1, List.length_drop]; omega
  · rw [wval_append, hr1]
    rw [List.length_drop] at h4
    have e : B ^ a.length = B ^ b.length * B ^ (a.length - b.length) := by
      rw [← Nat.pow_add]; congr 1; omega
    rw [e]
    have td := wval_take_drop B a b.length (by omega)
    rw [td]
    have : B ^ b.length * (wval B i.1 + B ^ (a.length - b.length) * i.2) = B ^ b.length * (wval B (a.drop b.length) + r.2) := by
      rw [h4]
    rw [Nat.mul_add, Nat.mul_add] at this
    rw [Nat.mul_assoc]
    omega

theorem positiveAdd_spec {B : Nat} (hB : 1 < B) {sum a b : List Nat} (ha : Words B a) (hb : Words B b)
    (sa : ∃ k, a.length = 2 ^ (k + 1)) (sb : ∃ k, b.length = 2 ^ (k + 1)) (hs : sum.length = max a.length b.length) :
    Words B (positiveAdd B sum a b) ∧ (∃ k, (positiveAdd B sum a b).length = 2 ^ (k + 1)) ∧
      wval B (positiveAdd B sum a b) = wval B a + wval B b := by
  have ⟨ea, la⟩ := size_even sa
  have ⟨eb, lb⟩ := size_even sb
  have smax := size_max sa sb
  unfold positiveAdd
  extract_lets _ _ _ _ _ _ p
  have key : p.1.length = max a.length b.length ∧ Words B p.1 ∧ p.2 ≤ 1 ∧
      wval B p.1 + B ^ max a.length b.length * p.2 = wval B a + wval B b := by
    simp only [p]
    split
    · rename_i h
      obtain ⟨h1, h2, h3, h4⟩ := baselineAdd_spec hB eb a b ha hb (by omega) (Nat.le_refl _)
      rw [List.take_length] at h4
      rw [Nat.max_eq_left (by omega)] at hs ⊢
      exact addUneven hB ha hb (by omega) hs eb _ h1 h2 h3 h4
    · split
      · rename_i h
        obtain ⟨h1, h2, h3, h4⟩ := baselineAdd_spec hB ea a b ha hb (Nat.le_refl _) (by omega)
        rw [Nat.max_eq_left (by omega)] at hs ⊢
        rw [List.take_length, h, List.take_length, ← h] at h4
        rw [writeAt_zero _ _ (by rw [h1, hs])]
        exact ⟨h1, h2, h3, h4⟩
      · obtain ⟨h1, h2, h3, h4⟩ := baselineAdd_spec hB ea a b ha hb (Nat.le_refl _) (by omega)
        rw [List.take_length] at h4
        rw [Nat.max_eq_right (by omega)] at hs ⊢
        have := addUneven hB hb ha (by omega) hs ea _ h1 h2 h3 (by rw [h4, Nat.add_comm])
        rw [Nat.add_comm (wval B a)]
        exact this
  obtain ⟨k1, k2, k3, k4⟩ := key
  rw [← k1] at k4 smax
  split
  · rename_i h
    have e1 : p.2 = 1 := by omega
    obtain ⟨g1, g2, g3⟩ := growOne hB k2 (by omega)
    refine ⟨g2, ?_, ?_⟩
    · rw [g1]; exact size_double smax
    · rw [g3, ← k4, e1]; ring
  · rename_i h
    have e0 : p.2 = 0 := by omega
    refine ⟨k2, smax, ?_⟩
    rw [← k4, e0]; simp

/-! ### PositiveSubtract -/

theorem subUneven {B : Nat} (hB : 1 < B) {diff a b : List Nat} (ha : Words B a) (hb : Words B b) (hd : Words B diff) {m n : Nat}
    (hgt : n < m) (hm : m ≤ a.length) (hn : n ≤ b.length) (hc : countWords b ≤ n) (hca : countWords a ≤ m)
    (hz : wval B (diff.drop m) = 0) (hdl : m ≤ diff.length) (hlt : n < countWords a) (r : List Nat × Nat)
    (hr1 : r.1.length = n) (hr2 : Words B r.1) (hr3 : r.2 ≤ 1)
    (hr4 : wval B r.1 + wval B (b.take n) = wval B (a.take n) + B ^ n * r.2) :
    let s := writeAt (writeAt diff 0 r.1) n ((a.drop n).take (m - n))
    let d := decrement B r.2 ((s.drop n).take (m - n))
    (writeAt s n d.1).length = diff.length ∧ Words B (writeAt s n d.1) ∧
      wval B (writeAt s n d.1) + wval B b = wval B a := by
  intro s d
  have elen : ((a.drop n).take (m - n)).length = m - n := by simp; omega
  have e0 : writeAt diff 0 r.1 = r.1 ++ diff.drop n := by simp [writeAt, hr1]
  have es : s = r.1 ++ ((a.drop n).take (m - n) ++ diff.drop m) := by
    simp only [s]
    rw [e0, writeAt, elen, ← hr1, List.take_left, hr1, List.append_assoc]
    congr 2
    rw [List.drop_append, List.drop_of_length_le (by omega), List.nil_append, List.drop_drop]
    congr 1; omega
  have ei : (s.drop n).take (m - n) = (a.drop n).take (m - n) := by
    rw [es, ← hr1, List.drop_left, hr1]
    rw [List.take_append_of_le_length (by omega), List.take_of_length_le (by omega)]
  have hne : (a.drop n).take (m - n) ≠ [] := by
    intro h; rw [h] at elen; simp at elen; omega
  obtain ⟨h1, h2, h3, h4⟩ := decrement_spec hB r.2 (by omega) _ ((ha.drop n).take (m - n)) hne
  have eii : d = decrement B r.2 ((a.drop n).take (m - n)) := by simp only [d]; rw [ei]
  rw [← eii] at h1 h2 h3 h4
  rw [elen] at h1 h4
  have ew : writeAt s n d.1 = r.1 ++ (d.1 ++ diff.drop m) := by
    rw [es, writeAt, List.take_left' hr1, List.append_assoc]
    congr 2
    rw [List.drop_append, List.drop_of_length_le (by omega), List.nil_append, List.drop_append,
      List.drop_of_length_le (by omega), List.nil_append, List.drop_drop]
    congr 1; omega
  rw [ew]
  have hB0 : 0 < B := by omega
  -- the high part of `a` is not zero, so no borrow is left
  have ta : wval B (a.take m) = wval B a := (drop_ge_countWords hB0 ha m hca hm).1
  have tb : wval B (b.take n) = wval B b := (drop_ge_countWords hB0 hb n hc hn).1
  have sp : wval B (a.take m) = wval B (a.take n) + B ^ n * wval B ((a.drop n).take (m - n)) := by
    have := wval_take_drop B (a.take m) n (by simp; omega)
    rw [this, List.take_take, Nat.min_eq_left (by omega), List.drop_take]
  have hpos : 0 < wval B ((a.drop n).take (m - n)) := by
    rcases Nat.eq_zero_or_pos (wval B ((a.drop n).take (m - n))) with h | h
    · rw [h, ta] at sp
      have h5 := countWords_pos_le (B := B) hB0 (by omega : countWords a ≠ 0)
      have h6 := wval_take_lt ha n (by omega)
      have h7 := Nat.pow_le_pow_right hB0 (by omega : n ≤ countWords a - 1)
      omega
    · exact h
  have hb0 : d.2 = 0 := by
    rcases Nat.eq_zero_or_pos d.2 with h | h
    · exact h
    · have e1 : d.2 = 1 := by omega
      rw [e1] at h4
      have := wval_lt h2
      rw [h1] at this
      omega
  rw [hb0] at h4
  refine ⟨?_, hr2.append (h2.append (hd.drop m)), ?_⟩
  · simp only [List.length_append, hr1, h1, List.length_drop]; omega
  · rw [wval_append, wval_append, hz, hr1, ← ta, sp, ← tb]
    have : B ^ n * (wval B d.1 + r.2) = B ^ n * wval B ((a.drop n).take (m - n)) := by rw [h4]; simp
    rw [Nat.mul_add] at this
    simp only [Nat.mul_zero, Nat.add_zero]
    omega

theorem evenUp_spec (n : Nat) : evenUp n % 2 = 0 ∧ n ≤ evenUp n ∧ evenUp n ≤ n + 1 := by unfold evenUp; omega

theorem positiveSubtract_spec {B : Nat} (hB : 1 < B) {diff a b : List Nat} (ha : Words B a) (hb : Words B b)
    (hd : Words B diff) (sa : a.length % 2 = 0) (sb : b.length % 2 = 0)
    (hla : evenUp (countWords a) ≤ diff.length) (hlb : evenUp (countWords b) ≤ diff.length)
    (hz : wval B (diff.drop (max (evenUp (countWords a)) (evenUp (countWords b)))) = 0) :
    let d := positiveSubtract B diff a b
    d.reg.length = diff.length ∧ Words B d.reg ∧
      ((d.neg = false ∧ wval B d.reg + wval B b = wval B a) ∨ (d.neg = true ∧ wval B d.reg + wval B a = wval B b ∧ wval B d.reg ≠ 0)) := by
  intro d
  have hB0 : 0 < B := by omega
  obtain ⟨ea, la1, la2⟩ := evenUp_spec (countWords a)
  obtain ⟨eb, lb1, lb2⟩ := evenUp_spec (countWords b)
  have ca := countWords_le a
  have cb := countWords_le b
  have ga : evenUp (countWords a) ≤ a.length := by omega
  have gb : evenUp (countWords b) ≤ b.length := by omega
  have va := (drop_ge_countWords hB0 ha _ la1 ga).1
  have vb := (drop_ge_countWords hB0 hb _ lb1 gb).1
  have big : ∀ {x y : List Nat}, Words B y → evenUp (countWords y) < evenUp (countWords x) → wval B y < wval B x := by
    intro x y hy h
    have h1 := evenUp_spec (countWords x)
    have h2 := evenUp_spec (countWords y)
    have h3 := countWords_pos_le (B := B) (A := x) hB0 (by omega)
    have h4 := wval_lt_countWords hy
    have h5 := Nat.pow_le_pow_right hB0 (by omega : countWords y ≤ countWords x - 1)
    omega
  simp only [d, positiveSubtract]
  split
  · rename_i h
    obtain ⟨h1, h2, h3, h4⟩ := baselineSub_spec hB eb a b ha hb (by omega) gb
    rw [Nat.max_eq_left (by omega)] at hz
    obtain ⟨k1, k2, k3⟩ := subUneven hB ha hb hd h ga gb lb1 la1 hz hla (by omega) _ h1 h2 h3 h4
    exact ⟨k1, k2, Or.inl ⟨rfl, k3⟩⟩
  · split
    · rename_i h
      rw [h, Nat.max_self] at hz
      have full : ∀ w : List Nat, w.length = evenUp (countWords a) → wval B (writeAt diff 0 w) = wval B w := by
        intro w hw
        rw [writeAt, wval_append]
        simp only [List.take_zero, List.nil_append, Nat.zero_add]
        rw [hw, h, hz]; simp
      have cmp := compareW_spec ha hb (evenUp (countWords a)) ga (by omega)
      have vb' : wval B (b.take (evenUp (countWords a))) = wval B b := by rw [h]; exact vb
      rw [va, vb'] at cmp
      split
      · rename_i hc
        obtain ⟨h1, h2, h3, h4⟩ := baselineSub_spec hB ea a b ha hb ga (by omega)
        rw [va, vb'] at h4
        have hge : wval B b ≤ wval B a := by
          by_contra hn
          rw [cmp, if_neg (by omega), if_pos (by omega)] at hc
          omega
        have h0 : (baselineSub B (evenUp (countWords a)) a b).2 = 0 := by
          rcases Nat.eq_zero_or_pos (baselineSub B (evenUp (countWords a)) a b).2 with e | e
          · exact e
          · have e1 : (baselineSub B (evenUp (countWords a)) a b).2 = 1 := by omega
            rw [e1] at h4
            have := wval_lt h2
            rw [h1] at this
            omega
        refine ⟨?_, hd.writeAt h2 0, Or.inl ⟨rfl, ?_⟩⟩
        · exact writeAt_length (by rw [h1]; omega)
        · simp only
          rw [full _ h1, h4, h0]; simp
      · rename_i hc
        obtain ⟨h1, h2, h3, h4⟩ := baselineSub_spec hB ea b a hb ha (by omega) ga
        rw [va, vb'] at h4
        have hlt : wval B a < wval B b := by
          by_contra hn
          apply hc
          rw [cmp]
          split
          · decide
          · first | decide | (rw [if_neg (by omega)]; decide)
        have h0 : (baselineSub B (evenUp (countWords a)) b a).2 = 0 := by
          rcases Nat.eq_zero_or_pos (baselineSub B (evenUp (countWords a)) b a).2 with e | e
          · exact e
          · have e1 : (baselineSub B (evenUp (countWords a)) b a).2 = 1 := by omega
            rw [e1] at h4
            have := wval_lt h2
            rw [h1] at this
            omega
        have hv : wval B (writeAt diff 0 (baselineSub B (evenUp (countWords a)) b a).1) + wval B a = wval B b := by
          rw [full _ h1, h4, h0]; simp
        refine ⟨?_, hd.writeAt h2 0, Or.inr ⟨rfl, hv, ?_⟩⟩
        · exact writeAt_length (by rw [h1]; omega)
        · simp only
          omega
    · obtain ⟨h1, h2, h3, h4⟩ := baselineSub_spec hB ea b a hb ha (by omega) ga
      rw [Nat.max_eq_right (by omega)] at hz
      obtain ⟨k1, k2, k3⟩ := subUneven hB hb ha hd (by omega) gb ga la1 lb1 hz hlb (by omega) _ h1 h2 h3 h4
      have := big (x := b) ha (by omega)
      exact ⟨k1, k2, Or.inr ⟨rfl, k3, by simp only; omega⟩⟩

end Verif.Integer
