import Verif.Drbg.Spec
import Mathlib.Tactic.Ring
import Mathlib.Tactic.Linarith

/-! # The carry loops of `Hash_Generate` add big-endian numbers -/
namespace Verif.Drbg
open Verif.Hash

/-- The number in the last `d` bytes. -/
def low (d : Nat) (a : List Byte) : Nat := leVal (a.reverse.take d)

theorem low_zero (a : List Byte) : low 0 a = 0 := rfl

theorem low_all (d : Nat) (a : List Byte) (h : a.length ≤ d) : low d a = beVal a := by
  unfold low beVal
  rw [List.take_of_length_le (by simpa using h)]

theorem getD_fromEnd (a : List Byte) (d : Nat) (h : d < a.length) : a.getD (a.length - 1 - d) 0 = a.reverse[d]'(by simpa using h) := by
  rw [List.getD_eq_getElem?_getD, List.getElem?_eq_getElem (by omega), Option.getD_some, List.getElem_reverse]

theorem low_succ (a : List Byte) (d : Nat) (h : d < a.length) : low (d + 1) a = low d a + 256 ^ d * (a.reverse[d]'(by simpa using h)).toNat := by
  unfold low
  rw [List.take_succ_eq_append_getElem (by simpa using h), leVal_append]
  simp [leVal, Nat.min_eq_left (Nat.le_of_lt h)]

theorem reverse_set (v : List Byte) (d : Nat) (b : Byte) (h : d < v.length) : (v.set (v.length - 1 - d) b).reverse = v.reverse.set d b := by
  apply List.ext_getElem
  · simp
  · intro i h1 h2
    simp only [List.length_reverse, List.length_set] at h1 h2
    rw [List.getElem_reverse, List.getElem_set, List.getElem_set]
    simp only [List.length_set]
    by_cases e : d = i
    · subst e; simp
    · rw [if_neg (by omega), if_neg e, List.getElem_reverse]

def total (d : Nat) (terms : List (List Byte)) : Nat := (terms.map (low d)).sum

theorem sumAt_spec (d : Nat) (terms : List (List Byte)) (h : ∀ a ∈ terms, d < a.length) :
    ∃ y, sumAt d terms = .ok y ∧ total (d + 1) terms = total d terms + 256 ^ d * y := by
  induction terms with
  | nil => exact ⟨0, rfl, rfl⟩
  | cons a as ih =>
    obtain ⟨y, e, ht⟩ := ih (fun a ha => h a (List.mem_cons_of_mem _ ha))
    have ha := h a List.mem_cons_self
    refine ⟨(a.reverse[d]'(by simpa using ha)).toNat + y, ?_, ?_⟩
    · simp only [sumAt, fromEnd, if_pos ha, e, getD_fromEnd a d ha]; rfl
    · have := low_succ a d ha
      simp only [total, List.map_cons, List.sum_cons] at ht ⊢
      rw [this, ht]; ring

theorem low_set (v : List Byte) (d : Nat) (b : Byte) (h : d < v.length) : low (d + 1) (v.set (v.length - 1 - d) b) = low d v + 256 ^ d * b.toNat := by
  have hl : d < (v.set (v.length - 1 - d) b).length := by simpa using h
  rw [low_succ _ _ hl]
  unfold low
  simp only [reverse_set v d b h]
  rw [List.take_set_of_le (Nat.le_refl d), List.getElem_set_self]

theorem carryLoop_spec (terms : List (List Byte)) (v0 : List Byte) (base : Nat) : ∀ (n : Nat) (v : List Byte) (d c : Nat), v.length = v0.length → v.reverse.drop d = v0.reverse.drop d →
    d + n ≤ v0.length → (∀ a ∈ terms, d + n ≤ a.length) → low d v + 256 ^ d * c = low d v0 + (base + total d terms) →
    ∃ v' c', carryLoop terms n (v, d, c) = .ok (v', d + n, c') ∧ v'.length = v0.length ∧ v'.reverse.drop (d + n) = v0.reverse.drop (d + n) ∧
      low (d + n) v' + 256 ^ (d + n) * c' = low (d + n) v0 + (base + total (d + n) terms) := by
  intro n
  induction n with
  | zero => intro v d c h1 h2 _ _ h5; exact ⟨v, c, rfl, h1, h2, h5⟩
  | succ n ih =>
    intro v d c h1 h2 h3 h4 h5
    have hd : d < v.length := by omega
    have hd0 : d < v0.length := by omega
    obtain ⟨y, e, ht⟩ := sumAt_spec d terms (fun a ha => by have := h4 a ha; omega)
    simp only [carryLoop, fromEnd, if_pos hd, e, getD_fromEnd v d hd]
    have hb : v.reverse[d]'(by simpa using hd) = v0.reverse[d]'(by simpa using hd0) := by
      have := congrArg (fun l => l[0]?) h2
      simpa [List.getElem?_drop, hd, hd0] using this
    have hs0 := low_succ v0 d hd0
    rw [← hb] at hs0
    generalize hx : (v.reverse[d]'(by simpa using hd)).toNat = x at *
    have := ih (v.set (v.length - 1 - d) (BitVec.ofNat 8 (x + y + c))) (d + 1) ((x + y + c) >>> 8) (by simpa using h1) ?_ (by omega) (fun a ha => by have := h4 a ha; omega) ?_
    · obtain ⟨v', c', e', q1, q2, q3⟩ := this
      have ee : d + 1 + n = d + (n + 1) := by omega
      rw [ee] at e' q2 q3
      exact ⟨v', c', e', q1, q2, q3⟩
    · rw [reverse_set v d _ hd, List.drop_set_of_lt (by omega)]
      have := congrArg (List.drop 1) h2
      simpa [List.drop_drop] using this
    · rw [low_set v d _ hd, hs0, ht, BitVec.toNat_ofNat, Nat.shiftRight_eq_div_pow]
      have hm := Nat.mod_add_div (x + y + c) (2 ^ 8)
      have h6 : (x + y + c) % 2 ^ 8 + 256 * ((x + y + c) / 2 ^ 8) = x + y + c := hm
      generalize (x + y + c) % 2 ^ 8 = r at h6 ⊢
      generalize (x + y + c) / 2 ^ 8 = q at h6 ⊢
      generalize low d v = a at *
      generalize low d v0 = a0 at *
      generalize total d terms = t at *
      rw [pow_succ]
      generalize 256 ^ d = p at *
      have h7 : p * r + p * 256 * q = p * (x + y + c) := by rw [← h6]; ring
      have h8 : p * (x + y + c) = p * x + p * y + p * c := by ring
      have h9 : a + p * c = a0 + (base + t) := h5
      have h10 : a + p * r + p * 256 * q = a0 + p * x + (base + (t + p * y)) := by omega
      exact h10

/-- All rounds: the sum, as many bytes as `v` has. -/
theorem carry_end (v0 v : List Byte) (c base : Nat) (hl : v.length = v0.length) (h : low v0.length v + 256 ^ v0.length * c = low v0.length v0 + base) :
    v = beBytes v0.length (beVal v0 + base) := by
  rw [low_all _ _ (by omega), low_all _ _ (by omega)] at h
  rw [← h, ← beBytes_mod, Nat.add_mul_mod_self_left, beBytes_mod, ← hl, beBytes_beVal]

theorem total_nil (d : Nat) : total d [] = 0 := rfl
theorem total_cons (d : Nat) (a : List Byte) (as : List (List Byte)) : total d (a :: as) = low d a + total d as := rfl

/-- Step 2 of `Hash_Generate`. -/
theorem mix_carry (v temp : List Byte) (h : temp.length ≤ v.length) : ∃ r1 r2, carryLoop [temp] temp.length (v, 0, 0) = .ok r1 ∧ carryLoop [] (v.length - temp.length) r1 = .ok r2 ∧
    r2.1 = beBytes v.length (beVal v + beVal temp) := by
  obtain ⟨v1, c1, e1, l1, d1, q1⟩ := carryLoop_spec [temp] v 0 temp.length v 0 0 rfl rfl (by omega) (by intro a ha; simp only [List.mem_singleton] at ha; subst ha; omega) rfl
  rw [Nat.zero_add] at e1 d1 q1
  obtain ⟨v2, c2, e2, l2, _, q2⟩ := carryLoop_spec [] v (beVal temp) (v.length - temp.length) v1 temp.length c1 l1 d1 (by omega) (by simp) (by
    rw [q1, total_cons, total_nil, low_all _ temp (Nat.le_refl _)]; omega)
  rw [Nat.add_sub_cancel' h] at e2 q2
  refine ⟨_, _, e1, e2, ?_⟩
  exact carry_end v v2 c2 (beVal temp) l2 (by rw [q2, total_nil, Nat.add_zero])

/-- Steps 4 to 7. -/
theorem next_carry (v c temp : List Byte) (w : Nat) (hc : c.length = v.length) (h : temp.length ≤ v.length) (h8 : 8 ≤ temp.length) :
    ∃ r1 r2 r3, carryLoop [c, temp, beBytes 8 w] 8 (v, 0, 0) = .ok r1 ∧ carryLoop [c, temp] (temp.length - 8) r1 = .ok r2 ∧ carryLoop [c] (v.length - temp.length) r2 = .ok r3 ∧
      r3.1 = beBytes v.length (beVal v + beVal temp + beVal c + w % 256 ^ 8) := by
  obtain ⟨v1, c1, e1, l1, d1, q1⟩ := carryLoop_spec [c, temp, beBytes 8 w] v 0 8 v 0 0 rfl rfl (by omega) (by
    intro a ha; simp only [List.mem_cons, List.not_mem_nil, or_false] at ha; rcases ha with rfl | rfl | rfl
    · omega
    · omega
    · simp) rfl
  rw [Nat.zero_add] at e1 d1 q1
  obtain ⟨v2, c2, e2, l2, d2, q2⟩ := carryLoop_spec [c, temp] v (w % 256 ^ 8) (temp.length - 8) v1 8 c1 l1 d1 (by omega) (by
    intro a ha; simp only [List.mem_cons, List.not_mem_nil, or_false] at ha; rcases ha with rfl | rfl <;> omega) (by
    rw [q1, total_cons, total_cons, total_cons, total_cons, total_cons, total_nil, low_all 8 (beBytes 8 w) (by simp), beVal_beBytes]; omega)
  rw [Nat.add_sub_cancel' h8] at e2 d2 q2
  obtain ⟨v3, c3, e3, l3, _, q3⟩ := carryLoop_spec [c] v (w % 256 ^ 8 + beVal temp) (v.length - temp.length) v2 temp.length c2 l2 d2 (by omega) (by
    intro a ha; simp only [List.mem_singleton] at ha; subst ha; omega) (by
    rw [q2, total_cons, total_cons, total_cons, total_nil, low_all _ temp (Nat.le_refl _)]; omega)
  rw [Nat.add_sub_cancel' h] at e3 q3
  refine ⟨_, _, _, e1, e2, e3, ?_⟩
  have := carry_end v v3 c3 (w % 256 ^ 8 + beVal temp + beVal c) l3 (by rw [q3, total_cons, total_nil, low_all _ c (by omega)]; rfl)
  show v3 = _
  rw [this]
  congr 1
  generalize w % 256 ^ 8 = u
  omega

end Verif.Drbg
