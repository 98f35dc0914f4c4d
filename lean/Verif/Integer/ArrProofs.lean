import Verif.Integer.ArrModel
import Mathlib.Tactic.Ring
import Mathlib.Tactic.Linarith

/-!
# Word-array routines: exact arithmetic
-/
namespace Verif.Integer

/-! ### Increment and decrement -/

theorem incRest_spec {B : Nat} (hB : 1 < B) (A : List Nat) (hA : Words B A) :
    (incRest B A).1.length = A.length ∧ Words B (incRest B A).1 ∧ (incRest B A).2 ≤ 1 ∧
      wval B (incRest B A).1 + B ^ A.length * (incRest B A).2 = wval B A + 1 := by
  induction A with
  | nil => exact ⟨rfl, Words.nil, by simp [incRest], by simp [incRest, wval]⟩
  | cons w ws ih =>
    have hw := hA.head
    obtain ⟨h1, h2, h3, h4⟩ := ih hA.tail
    have hm : (w + 1) % B < B := Nat.mod_lt _ (by omega)
    unfold incRest
    split
    · rename_i h
      refine ⟨by simp, Words.cons hm hA.tail, by simp, ?_⟩
      rcases Nat.lt_or_ge (w + 1) B with hlt | hge
      · simp only [wval, Nat.mod_eq_of_lt hlt]; omega
      · have : w + 1 = B := by omega
        rw [this, Nat.mod_self] at h
        exact absurd rfl h
    · rename_i h
      have hz : (w + 1) % B = 0 := by omega
      have hwB : w + 1 = B := by
        rcases Nat.lt_or_ge (w + 1) B with hlt | hge
        · rw [Nat.mod_eq_of_lt hlt] at hz; omega
        · omega
      refine ⟨by simp [h1], Words.cons hm h2, h3, ?_⟩
      simp only [wval, hz, List.length_cons, Nat.pow_succ]
      have : B * (wval B (incRest B ws).1 + B ^ ws.length * (incRest B ws).2) = B * (wval B ws + 1) := by rw [h4]
      rw [Nat.mul_add, Nat.mul_add, ← Nat.mul_assoc, Nat.mul_comm B (B ^ ws.length)] at this
      omega

theorem increment_spec {B : Nat} (hB : 1 < B) (b : Nat) (hb : b < B) (A : List Nat) (hA : Words B A) (hne : A ≠ []) :
    (increment B b A).1.length = A.length ∧ Words B (increment B b A).1 ∧ (increment B b A).2 ≤ 1 ∧
      wval B (increment B b A).1 + B ^ A.length * (increment B b A).2 = wval B A + b := by
  cases A with
  | nil => exact absurd rfl hne
  | cons t ws =>
    have ht := hA.head
    obtain ⟨h1, h2, h3, h4⟩ := incRest_spec hB ws hA.tail
    have hm : (t + b) % B < B := Nat.mod_lt _ (by omega)
    simp only [increment]
    split
    · rename_i h
      refine ⟨by simp, Words.cons hm hA.tail, by simp, ?_⟩
      rcases Nat.lt_or_ge (t + b) B with hlt | hge
      · simp only [wval, Nat.mod_eq_of_lt hlt]; omega
      · rw [Nat.mod_eq_sub_mod hge, Nat.mod_eq_of_lt (by omega)] at h
        omega
    · rename_i h
      have hge : B ≤ t + b := by
        rcases Nat.lt_or_ge (t + b) B with hlt | hge
        · rw [Nat.mod_eq_of_lt hlt] at h; omega
        · exact hge
      have hm' : (t + b) % B = t + b - B := by rw [Nat.mod_eq_sub_mod hge, Nat.mod_eq_of_lt (by omega)]
      refine ⟨by simp [h1], Words.cons hm h2, h3, ?_⟩
      simp only [wval, List.length_cons, Nat.pow_succ]
      have : B * (wval B (incRest B ws).1 + B ^ ws.length * (incRest B ws).2) = B * (wval B ws + 1) := by rw [h4]
      rw [Nat.mul_add, Nat.mul_add, ← Nat.mul_assoc, Nat.mul_comm B (B ^ ws.length)] at this
      omega

theorem decRest_spec {B : Nat} (hB : 1 < B) (A : List Nat) (hA : Words B A) :
    (decRest B A).1.length = A.length ∧ Words B (decRest B A).1 ∧ (decRest B A).2 ≤ 1 ∧
      wval B (decRest B A).1 + 1 = wval B A + B ^ A.length * (decRest B A).2 := by
  induction A with
  | nil => exact ⟨rfl, Words.nil, by simp [decRest], by simp [decRest, wval]⟩
  | cons w ws ih =>
    have hw := hA.head
    obtain ⟨h1, h2, h3, h4⟩ := ih hA.tail
    have hm : (w + (B - 1)) % B < B := Nat.mod_lt _ (by omega)
    unfold decRest
    split
    · rename_i h
      have hm' : (w + (B - 1)) % B = w - 1 := by
        rw [Nat.mod_eq_sub_mod (by omega), Nat.mod_eq_of_lt (by omega)]; omega
      refine ⟨by simp, Words.cons hm hA.tail, by simp, ?_⟩
      simp only [wval]
      omega
    · rename_i h
      have hz : w = 0 := by omega
      have hm' : (w + (B - 1)) % B = B - 1 := by rw [hz, Nat.zero_add, Nat.mod_eq_of_lt (by omega)]
      refine ⟨by simp [h1], Words.cons hm h2, h3, ?_⟩
      simp only [wval, List.length_cons, Nat.pow_succ]
      have : B * (wval B (decRest B ws).1 + 1) = B * (wval B ws + B ^ ws.length * (decRest B ws).2) := by rw [h4]
      rw [Nat.mul_add, Nat.mul_add, ← Nat.mul_assoc, Nat.mul_comm B (B ^ ws.length)] at this
      omega

theorem decrement_spec {B : Nat} (hB : 1 < B) (b : Nat) (hb : b < B) (A : List Nat) (hA : Words B A) (hne : A ≠ []) :
    (decrement B b A).1.length = A.length ∧ Words B (decrement B b A).1 ∧ (decrement B b A).2 ≤ 1 ∧
      wval B (decrement B b A).1 + b = wval B A + B ^ A.length * (decrement B b A).2 := by
  cases A with
  | nil => exact absurd rfl hne
  | cons t ws =>
    have ht := hA.head
    obtain ⟨h1, h2, h3, h4⟩ := decRest_spec hB ws hA.tail
    have hm : (t + (B - b)) % B < B := Nat.mod_lt _ (by omega)
    simp only [decrement]
    split
    · rename_i h
      have hle : b ≤ t := by
        rcases Nat.lt_or_ge t b with hlt | hge
        · rw [Nat.mod_eq_of_lt (by omega)] at h; omega
        · exact hge
      have hm' : (t + (B - b)) % B = t - b := by
        rw [Nat.mod_eq_sub_mod (by omega), Nat.mod_eq_of_lt (by omega)]; omega
      refine ⟨by simp, Words.cons hm hA.tail, by simp, ?_⟩
      simp only [wval]
      omega
    · rename_i h
      have hlt : t < b := by
        rcases Nat.lt_or_ge t b with hlt | hge
        · exact hlt
        · rw [Nat.mod_eq_sub_mod (by omega), Nat.mod_eq_of_lt (by omega)] at h; omega
      have hm' : (t + (B - b)) % B = t + (B - b) := Nat.mod_eq_of_lt (by omega)
      refine ⟨by simp [h1], Words.cons hm h2, h3, ?_⟩
      simp only [wval, List.length_cons, Nat.pow_succ]
      have : B * (wval B (decRest B ws).1 + 1) = B * (wval B ws + B ^ ws.length * (decRest B ws).2) := by rw [h4]
      rw [Nat.mul_add, Nat.mul_add, ← Nat.mul_assoc, Nat.mul_comm B (B ^ ws.length)] at this
      omega

theorem wval_map_compl {B : Nat} (hB : 0 < B) (A : List Nat) (hA : Words B A) :
    Words B (A.map fun w => B - 1 - w) ∧ wval B (A.map fun w => B - 1 - w) + wval B A + 1 = B ^ A.length := by
  induction A with
  | nil => exact ⟨Words.nil, by simp [wval]⟩
  | cons w ws ih =>
    obtain ⟨h1, h2⟩ := ih hA.tail
    have hw := hA.head
    refine ⟨by rw [List.map_cons]; exact Words.cons (by omega) h1, ?_⟩
    simp only [List.map_cons, wval, List.length_cons, Nat.pow_succ]
    have : B * (wval B (ws.map fun w => B - 1 - w) + wval B ws + 1) = B * B ^ ws.length := by rw [h2]
    rw [Nat.mul_add, Nat.mul_add, Nat.mul_comm B (B ^ ws.length)] at this
    omega

theorem twosComplement_spec {B : Nat} (hB : 1 < B) (A : List Nat) (hA : Words B A) (hne : A ≠ []) :
    (twosComplement B A).length = A.length ∧ Words B (twosComplement B A) ∧
      wval B (twosComplement B A) = (B ^ A.length - wval B A) % B ^ A.length := by
  obtain ⟨h1, h2, h3, h4⟩ := decrement_spec hB 1 hB A hA hne
  obtain ⟨h5, h6⟩ := wval_map_compl (by omega) (decrement B 1 A).1 h2
  refine ⟨by simp [twosComplement, h1], h5, ?_⟩
  unfold twosComplement
  rw [h1] at h6
  have hlt := wval_lt hA
  rcases Nat.eq_zero_or_pos (wval B A) with hz | hp
  · have : (decrement B 1 A).2 = 1 := by
      rcases Nat.lt_or_ge (decrement B 1 A).2 1 with h | h
      · have : (decrement B 1 A).2 = 0 := by omega
        rw [this, hz] at h4; omega
      · omega
    rw [this, hz] at h4
    rw [hz, Nat.sub_zero, Nat.mod_self]
    omega
  · have : (decrement B 1 A).2 = 0 := by
      rcases Nat.eq_zero_or_pos (decrement B 1 A).2 with h | h
      · exact h
      · have hc : (decrement B 1 A).2 = 1 := by omega
        have := wval_lt h2
        rw [h1] at this
        rw [hc] at h4
        omega
    rw [this] at h4
    rw [Nat.mod_eq_of_lt (by omega)]
    omega

/-! ### Addition and subtraction -/

theorem addWithCarry_spec {B : Nat} (hB : 1 < B) (u a b : Nat) (hu : u ≤ 1) (ha : a < B) (hb : b < B) :
    (addWithCarry B u a b).1 < B ∧ (addWithCarry B u a b).2 ≤ 1 ∧
      (addWithCarry B u a b).1 + B * (addWithCarry B u a b).2 = a + b + u := by
  unfold addWithCarry
  simp only
  rcases Nat.lt_or_ge (a + b) B with h | h
  · rw [Nat.mod_eq_of_lt h]
    rw [if_neg (by omega)]
    rcases Nat.lt_or_ge (a + b + u) B with h' | h'
    · rw [Nat.mod_eq_of_lt h', if_neg (by omega)]; omega
    · have : a + b + u = B := by omega
      rw [this, Nat.mod_self, if_pos (by omega)]; omega
  · have : (a + b) % B = a + b - B := by rw [Nat.mod_eq_sub_mod h, Nat.mod_eq_of_lt (by omega)]
    rw [this, if_pos (by omega)]
    rw [Nat.mod_eq_of_lt (by omega : a + b - B + u < B), if_neg (by omega)]
    omega

theorem subtractWithBorrow_spec {B : Nat} (u a b : Nat) (hB : 1 < B) (hu : u ≤ 1) (ha : a < B) (hb : b < B) :
    (subtractWithBorrow B u a b).1 < B ∧ (subtractWithBorrow B u a b).2 ≤ 1 ∧
      (subtractWithBorrow B u a b).1 + b + u = a + B * (subtractWithBorrow B u a b).2 := by
  unfold subtractWithBorrow
  simp only
  rcases Nat.lt_or_ge a b with h | h
  · have h1 : (a + (B - b)) % B = a + (B - b) := Nat.mod_eq_of_lt (by omega)
    rw [h1, if_pos (by omega)]
    have h2 : (a + (B - b) + (B - u)) % B = a + (B - b) - u := by
      rw [Nat.mod_eq_sub_mod (by omega), Nat.mod_eq_of_lt (by omega)]; omega
    rw [h2, if_neg (by omega)]
    omega
  · have h1 : (a + (B - b)) % B = a - b := by
      rw [Nat.mod_eq_sub_mod (by omega), Nat.mod_eq_of_lt (by omega)]; omega
    rw [h1, if_neg (by omega)]
    rcases Nat.lt_or_ge (a - b) u with h' | h'
    · have h2 : (a - b + (B - u)) % B = a - b + (B - u) := Nat.mod_eq_of_lt (by omega)
      rw [h2, if_pos (by omega)]; omega
    · have h2 : (a - b + (B - u)) % B = a - b - u := by
        rw [Nat.mod_eq_sub_mod (by omega), Nat.mod_eq_of_lt (by omega)]; omega
      rw [h2, if_neg (by omega)]; omega

theorem two_words {A : List Nat} {n : Nat} (h : n + 2 ≤ A.length) :
    ∃ a b A', A = a :: b :: A' ∧ n ≤ A'.length := by
  match A, h with
  | a :: b :: A', h => exact ⟨a, b, A', rfl, by simp at h; omega⟩

theorem addPairs_spec {B : Nat} (hB1 : 1 < B) (k : Nat) : ∀ (u : Nat) (A Bs : List Nat), u ≤ 1 → Words B A → Words B Bs →
    2 * k ≤ A.length → 2 * k ≤ Bs.length →
    (addPairs B k u A Bs).1.length = 2 * k ∧ Words B (addPairs B k u A Bs).1 ∧ (addPairs B k u A Bs).2 ≤ 1 ∧
      wval B (addPairs B k u A Bs).1 + B ^ (2 * k) * (addPairs B k u A Bs).2
        = wval B (A.take (2 * k)) + wval B (Bs.take (2 * k)) + u := by
  induction k with
  | zero => intro u A Bs hu _ _ _ _; exact ⟨rfl, Words.nil, hu, by simp [addPairs, wval]⟩
  | succ k ih =>
    intro u A Bs hu hA hB h1 h2
    obtain ⟨a, a', A', rfl, g1⟩ := two_words (show 2 * k + 2 ≤ A.length by omega)
    obtain ⟨b, b', B', rfl, g2⟩ := two_words (show 2 * k + 2 ≤ Bs.length by omega)
    obtain ⟨s1, s2, s3⟩ := addWithCarry_spec hB1 u a b hu hA.head hB.head
    obtain ⟨t1, t2, t3⟩ := addWithCarry_spec hB1 (addWithCarry B u a b).2 a' b' s2 hA.tail.head hB.tail.head
    obtain ⟨r1, r2, r3, r4⟩ := ih (addWithCarry B (addWithCarry B u a b).2 a' b').2 A' B' t2 hA.tail.tail hB.tail.tail g1 g2
    simp only [addPairs, List.getD_cons_zero, List.getD_cons_succ, List.drop_succ_cons, List.drop_zero]
    refine ⟨by simp only [List.length_cons, r1]; omega, Words.cons s1 (Words.cons t1 r2), r3, ?_⟩
    rw [show 2 * (k + 1) = 2 * k + 1 + 1 by omega]
    simp only [List.take_succ_cons, wval, Nat.pow_succ]
    generalize (addPairs B k (addWithCarry B (addWithCarry B u a b).2 a' b').2 A' B') = r at r1 r2 r3 r4 ⊢
    generalize (addWithCarry B (addWithCarry B u a b).2 a' b') = t at t1 t2 t3 r4 ⊢
    generalize (addWithCarry B u a b) = s at s1 s2 s3 t3 ⊢
    have e1 : B * B * (wval B r.1 + B ^ (2 * k) * r.2) = B * B * (wval B (A'.take (2 * k)) + wval B (B'.take (2 * k)) + t.2) := by
      rw [r4]
    have e2 : B * (t.1 + B * t.2) = B * (a' + b' + s.2) := by rw [t3]
    have e3 : B ^ (2 * k) * B * B * r.2 = B * B * (B ^ (2 * k) * r.2) := by
      ring
    rw [e3]
    simp only [Nat.mul_add, Nat.mul_assoc] at e1 e2 ⊢
    omega

theorem subPairs_spec {B : Nat} (hB : 1 < B) (k : Nat) : ∀ (u : Nat) (A Bs : List Nat), u ≤ 1 → Words B A → Words B Bs →
    2 * k ≤ A.length → 2 * k ≤ Bs.length →
    (subPairs B k u A Bs).1.length = 2 * k ∧ Words B (subPairs B k u A Bs).1 ∧ (subPairs B k u A Bs).2 ≤ 1 ∧
      wval B (subPairs B k u A Bs).1 + wval B (Bs.take (2 * k)) + u
        = wval B (A.take (2 * k)) + B ^ (2 * k) * (subPairs B k u A Bs).2 := by
  induction k with
  | zero => intro u A Bs hu _ _ _ _; exact ⟨rfl, Words.nil, hu, by simp [subPairs, wval]⟩
  | succ k ih =>
    intro u A Bs hu hA hBs h1 h2
    obtain ⟨a, a', A', rfl, g1⟩ := two_words (show 2 * k + 2 ≤ A.length by omega)
    obtain ⟨b, b', B', rfl, g2⟩ := two_words (show 2 * k + 2 ≤ Bs.length by omega)
    obtain ⟨s1, s2, s3⟩ := subtractWithBorrow_spec (B := B) u a b hB hu hA.head hBs.head
    obtain ⟨t1, t2, t3⟩ := subtractWithBorrow_spec (B := B) (subtractWithBorrow B u a b).2 a' b' hB s2 hA.tail.head hBs.tail.head
    obtain ⟨r1, r2, r3, r4⟩ := ih (subtractWithBorrow B (subtractWithBorrow B u a b).2 a' b').2 A' B' t2 hA.tail.tail hBs.tail.tail g1 g2
    simp only [subPairs, List.getD_cons_zero, List.getD_cons_succ, List.drop_succ_cons, List.drop_zero]
    refine ⟨by simp only [List.length_cons, r1]; omega, Words.cons s1 (Words.cons t1 r2), r3, ?_⟩
    rw [show 2 * (k + 1) = 2 * k + 1 + 1 by omega]
    simp only [List.take_succ_cons, wval, Nat.pow_succ]
    generalize (subPairs B k (subtractWithBorrow B (subtractWithBorrow B u a b).2 a' b').2 A' B') = r at r1 r2 r3 r4 ⊢
    generalize (subtractWithBorrow B (subtractWithBorrow B u a b).2 a' b') = t at t1 t2 t3 r4 ⊢
    generalize (subtractWithBorrow B u a b) = s at s1 s2 s3 t3 ⊢
    have e1 : B * B * (wval B r.1 + wval B (B'.take (2 * k)) + t.2) = B * B * (wval B (A'.take (2 * k)) + B ^ (2 * k) * r.2) := by
      rw [r4]
    have e2 : B * (t.1 + b' + s.2) = B * (a' + B * t.2) := by rw [t3]
    have e3 : B ^ (2 * k) * B * B * r.2 = B * B * (B ^ (2 * k) * r.2) := by
      ring
    rw [e3]
    simp only [Nat.mul_add, Nat.mul_assoc] at e1 e2 ⊢
    omega

theorem baselineAdd_spec {B N : Nat} (hB : 1 < B) (hN : N % 2 = 0) (A Bs : List Nat) (hA : Words B A) (hBs : Words B Bs)
    (h1 : N ≤ A.length) (h2 : N ≤ Bs.length) :
    (baselineAdd B N A Bs).1.length = N ∧ Words B (baselineAdd B N A Bs).1 ∧ (baselineAdd B N A Bs).2 ≤ 1 ∧
      wval B (baselineAdd B N A Bs).1 + B ^ N * (baselineAdd B N A Bs).2 = wval B (A.take N) + wval B (Bs.take N) := by
  have e : 2 * ((N + 1) / 2) = N := by omega
  have := addPairs_spec hB ((N + 1) / 2) 0 A Bs (by omega) hA hBs (by omega) (by omega)
  rw [e] at this
  exact this

theorem baselineSub_spec {B N : Nat} (hB : 1 < B) (hN : N % 2 = 0) (A Bs : List Nat) (hA : Words B A) (hBs : Words B Bs)
    (h1 : N ≤ A.length) (h2 : N ≤ Bs.length) :
    (baselineSub B N A Bs).1.length = N ∧ Words B (baselineSub B N A Bs).1 ∧ (baselineSub B N A Bs).2 ≤ 1 ∧
      wval B (baselineSub B N A Bs).1 + wval B (Bs.take N) = wval B (A.take N) + B ^ N * (baselineSub B N A Bs).2 := by
  have e : 2 * ((N + 1) / 2) = N := by omega
  have := subPairs_spec hB ((N + 1) / 2) 0 A Bs (by omega) hA hBs (by omega) (by omega)
  rw [e] at this
  exact this

/-! ### Comparison and word count -/

theorem take_succ_getD (A : List Nat) (n : Nat) (h : n < A.length) : A.take (n + 1) = A.take n ++ [A.getD n 0] := by
  rw [List.take_succ, List.getD_eq_getElem?_getD, List.getElem?_eq_getElem h]; rfl

theorem wval_take_succ (B : Nat) (A : List Nat) (n : Nat) (h : n < A.length) :
    wval B (A.take (n + 1)) = wval B (A.take n) + B ^ n * A.getD n 0 := by
  rw [take_succ_getD A n h, wval_append, List.length_take, Nat.min_eq_left (by omega)]
  simp [wval]

theorem wval_take_lt {B : Nat} {A : List Nat} (hA : Words B A) (n : Nat) (h : n ≤ A.length) : wval B (A.take n) < B ^ n := by
  have := wval_lt (hA.take n)
  rwa [List.length_take, Nat.min_eq_left h] at this

theorem high_digit {B n x y a b : Nat} (hx : x < B ^ n) (h : a < b) : x + B ^ n * a < y + B ^ n * b := by
  have := Nat.mul_le_mul_left (B ^ n) (Nat.succ_le_of_lt h)
  rw [Nat.mul_succ] at this
  omega

theorem compareW_spec {B : Nat} {A Bs : List Nat} (hA : Words B A) (hBs : Words B Bs) (n : Nat) (h1 : n ≤ A.length)
    (h2 : n ≤ Bs.length) :
    compareW A Bs n = (if wval B (A.take n) > wval B (Bs.take n) then 1
      else if wval B (A.take n) < wval B (Bs.take n) then -1 else 0) := by
  induction n with
  | zero => simp [compareW]
  | succ n ih =>
    have la := wval_take_lt hA n (by omega)
    have lb := wval_take_lt hBs n (by omega)
    rw [wval_take_succ B A n (by omega), wval_take_succ B Bs n (by omega)]
    unfold compareW
    rcases Nat.lt_trichotomy (A.getD n 0) (Bs.getD n 0) with h | h | h
    · have := high_digit (y := wval B (Bs.take n)) la h
      rw [if_neg (by omega), if_pos h, if_neg (by omega), if_pos this]
    · rw [if_neg (by omega), if_neg (by omega), ih (by omega) (by omega), h]
      simp
    · have := high_digit (y := wval B (A.take n)) lb h
      rw [if_pos h, if_pos this]

theorem countWordsN_spec (B : Nat) (A : List Nat) (n : Nat) (h : n ≤ A.length) :
    countWordsN A n ≤ n ∧ wval B (A.take (countWordsN A n)) = wval B (A.take n) ∧
      (countWordsN A n ≠ 0 → A.getD (countWordsN A n - 1) 0 ≠ 0) := by
  induction n with
  | zero => exact ⟨Nat.le_refl _, rfl, by simp [countWordsN]⟩
  | succ n ih =>
    obtain ⟨h1, h2, h3⟩ := ih (by omega)
    unfold countWordsN
    split
    · rename_i hz
      refine ⟨by omega, ?_, h3⟩
      rw [h2, wval_take_succ B A n (by omega), hz]; simp
    · rename_i hz
      exact ⟨Nat.le_refl _, rfl, fun _ => by simpa using hz⟩

theorem countWords_le (A : List Nat) : countWords A ≤ A.length := (countWordsN_spec 2 A A.length (Nat.le_refl _)).1

theorem wval_take_countWords (B : Nat) (A : List Nat) : wval B (A.take (countWords A)) = wval B A := by
  have := (countWordsN_spec B A A.length (Nat.le_refl _)).2.1
  rwa [List.take_length] at this

theorem countWords_top (A : List Nat) (h : countWords A ≠ 0) : A.getD (countWords A - 1) 0 ≠ 0 :=
  (countWordsN_spec 2 A A.length (Nat.le_refl _)).2.2 h

theorem wval_lt_countWords {B : Nat} {A : List Nat} (hA : Words B A) : wval B A < B ^ countWords A := by
  rw [← wval_take_countWords B A]
  exact wval_take_lt hA _ (countWords_le A)

theorem countWords_pos_le {B : Nat} {A : List Nat} (hB : 0 < B) (h : countWords A ≠ 0) : B ^ (countWords A - 1) ≤ wval B A := by
  have hle := countWords_le A
  have htop := countWords_top A h
  rw [← wval_take_countWords B A]
  have e : countWords A = countWords A - 1 + 1 := by omega
  rw [show A.take (countWords A) = A.take (countWords A - 1 + 1) by rw [← e],
    wval_take_succ B A (countWords A - 1) (by omega)]
  have := Nat.mul_le_mul_left (B ^ (countWords A - 1)) (Nat.one_le_iff_ne_zero.mpr htop)
  omega

theorem countWords_eq_zero {B : Nat} {A : List Nat} (hB : 0 < B) : countWords A = 0 ↔ wval B A = 0 := by
  constructor
  · intro h
    rw [← wval_take_countWords B A, h]; rfl
  · intro h
    rcases Nat.eq_zero_or_pos (countWords A) with h' | h'
    · exact h'
    · have := countWords_pos_le hB (by omega : countWords A ≠ 0)
      have := Nat.pow_pos (n := countWords A - 1) hB
      omega

/-- The words above the word count are all zero. -/
theorem drop_ge_countWords {B : Nat} {A : List Nat} (hB : 0 < B) (hA : Words B A) (n : Nat) (h : countWords A ≤ n)
    (hn : n ≤ A.length) : wval B (A.take n) = wval B A ∧ wval B (A.drop n) = 0 := by
  have h1 := wval_take_drop B A n hn
  have h2 := wval_lt_countWords hA
  have h3 := Nat.pow_le_pow_right hB h
  have h4 : wval B (A.drop n) = 0 := by
    rcases Nat.eq_zero_or_pos (wval B (A.drop n)) with e | e
    · exact e
    · have := Nat.mul_le_mul_left (B ^ n) e
      omega
  rw [h4] at h1
  exact ⟨by omega, h4⟩

theorem wval_eq_zero {B : Nat} (hB : 0 < B) {A : List Nat} (h : wval B A = 0) : A = List.replicate A.length 0 := by
  induction A with
  | nil => rfl
  | cons w ws ih =>
    simp only [wval] at h
    have h1 : w = 0 := by omega
    have h2 : B * wval B ws = 0 := by omega
    have h3 : wval B ws = 0 := by
      rcases Nat.mul_eq_zero.mp h2 with h | h
      · omega
      · exact h
    rw [h1, List.length_cons, List.replicate_succ, ← ih h3]

/-! ### Multiplication by a word -/

theorem linearMultiply_spec {B : Nat} (b : Nat) (hb : b < B) (A : List Nat) (hA : Words B A) : ∀ (c : Nat), c < B →
    (linearMultiply B b c A).1.length = A.length ∧ Words B (linearMultiply B b c A).1 ∧ (linearMultiply B b c A).2 < B ∧
      wval B (linearMultiply B b c A).1 + B ^ A.length * (linearMultiply B b c A).2 = wval B A * b + c := by
  induction A with
  | nil => intro c hc; exact ⟨rfl, Words.nil, hc, by simp [linearMultiply, wval]⟩
  | cons a as ih =>
    intro c hc
    have ha := hA.head
    have hB : 0 < B := by omega
    have hp : (a * b + c) / B < B := by
      apply Nat.div_lt_of_lt_mul
      have : a * b ≤ (B - 1) * (B - 1) := Nat.mul_le_mul (by omega) (by omega)
      have e : (B - 1) * (B - 1) + (B - 1) + (B - 1) + 1 = B * B := by
        obtain ⟨k, rfl⟩ : ∃ k, B = k + 1 := ⟨B - 1, by omega⟩
        simp only [Nat.add_sub_cancel, Nat.add_mul, Nat.mul_add]
        omega
      omega
    obtain ⟨h1, h2, h3, h4⟩ := ih hA.tail _ hp
    simp only [linearMultiply]
    refine ⟨by simp [h1], Words.cons (Nat.mod_lt _ hB) h2, h3, ?_⟩
    simp only [wval, List.length_cons, Nat.pow_succ]
    have e1 : B * (wval B (linearMultiply B b ((a * b + c) / B) as).1 + B ^ as.length * (linearMultiply B b ((a * b + c) / B) as).2)
        = B * (wval B as * b + (a * b + c) / B) := by rw [h4]
    have e2 := Nat.mod_add_div (a * b + c) B
    rw [Nat.mul_add, Nat.mul_add, ← Nat.mul_assoc, Nat.mul_comm B (B ^ as.length)] at e1
    rw [Nat.add_mul, Nat.mul_assoc B]
    omega

/-! ### Overwriting -/

theorem writeAt_length {r : List Nat} {off : Nat} {src : List Nat} (h : off + src.length ≤ r.length) :
    (writeAt r off src).length = r.length := by
  simp only [writeAt, List.length_append, List.length_take, List.length_drop]
  omega

theorem Words.writeAt {B : Nat} {r src : List Nat} (hr : Words B r) (hs : Words B src) (off : Nat) :
    Words B (writeAt r off src) := ((hr.take off).append hs).append (hr.drop _)

end Verif.Integer
