import Verif.Ghash.Linear

/-! The tables hold what they should. -/
namespace Verif.Ghash

open Spec

theorem and_one (x : Nat) : x &&& 1 = x % 2 := Nat.and_two_pow_sub_one_eq_mod x 1

/-- A pair of words as a number. -/
def pairVal (v : Nat × Nat) : Nat := v.1 * 2 ^ 64 + v.2

theorem add_or_xor (a b n : Nat) (hb : b < 2 ^ n) : 2 ^ n * a + b = 2 ^ n * a ^^^ b := by
  apply Nat.eq_of_testBit_eq
  intro i
  rw [Nat.testBit_xor, Nat.testBit_two_pow_mul_add _ hb, Nat.testBit_two_pow_mul]
  by_cases h : i < n
  · simp [h, show ¬ n ≤ i by omega]
  · have : b.testBit i = false := Nat.testBit_lt_two_pow (Nat.lt_of_lt_of_le hb (Nat.pow_le_pow_right (by omega) (by omega)))
    simp [h, this, show n ≤ i by omega]

theorem shiftKey_val (v : Nat × Nat) (h1 : v.1 < 2 ^ 64) (h2 : v.2 < 2 ^ 64) :
    pairVal (shiftKey v) = next (pairVal v) ∧ (shiftKey v).1 < 2 ^ 64 ∧ (shiftKey v).2 < 2 ^ 64 := by
  obtain ⟨a, b⟩ := v
  simp only at h1 h2
  have e2 : (b >>> 1) ||| (a <<< 63 % 2 ^ 64) = 2 ^ 63 * (a % 2) + b / 2 := by
    rw [Nat.shiftRight_eq_div_pow, Nat.shiftLeft_eq, Nat.or_comm, show a * 2 ^ 63 % 2 ^ 64 = 2 ^ 63 * (a % 2) by omega, ← Nat.two_pow_add_eq_or_of_lt (show b / 2 ^ 1 < 2 ^ 63 by omega)]
  have hlt : (if (b &&& 1) ≠ 0 then 0xe1 <<< 56 else 0 : Nat) < 2 ^ 64 := by split <;> decide
  have e1 : pairVal (shiftKey (a, b)) = next (pairVal (a, b)) := by
    unfold pairVal shiftKey next
    simp only
    rw [e2, and_one, Nat.shiftRight_eq_div_pow]
    have hd : (a * 2 ^ 64 + b) / 2 = 2 ^ 64 * (a / 2) + (2 ^ 63 * (a % 2) + b / 2) := by omega
    have hm : (a * 2 ^ 64 + b) % 2 = b % 2 := by omega
    rw [hd, hm]
    by_cases h : b % 2 = 0
    · rw [if_neg (by simp [h]), if_pos h, Nat.xor_zero]; omega
    · rw [if_pos h, if_neg h, Nat.mul_comm _ (2 ^ 64), add_or_xor _ _ 64 (by omega), add_or_xor _ _ 64 (by omega)]
      have : 2 ^ 64 * (a / 2 ^ 1 ^^^ 0xe1 <<< 56) = (2 ^ 64 * (a / 2)) ^^^ R := by
        have := Nat.shiftLeft_xor_distrib (a := a / 2 ^ 1) (b := 0xe1 <<< 56) (i := 64)
        rw [Nat.shiftLeft_eq (_ ^^^ _), Nat.shiftLeft_eq (a / 2 ^ 1), Nat.mul_comm, Nat.mul_comm (a / 2 ^ 1)] at this
        rw [this]; rfl
      rw [this, Nat.xor_assoc, Nat.xor_comm R, ← Nat.xor_assoc]
  refine ⟨e1, ?_, ?_⟩
  · show (a >>> 1) ^^^ _ < _
    exact Nat.xor_lt_two_pow (by rw [Nat.shiftRight_eq_div_pow]; omega) hlt
  · show (b >>> 1) ||| _ < _
    rw [e2]; omega

theorem putBlock_eq (v : Nat × Nat) (h2 : v.2 < 2 ^ 64) : putBlock v = beBytes 16 (pairVal v) := by
  unfold putBlock pairVal
  have e := beBytes_append 8 8 (v.1 * 2 ^ 64 + v.2)
  rw [show (256 : Nat) ^ 8 = 2 ^ 64 by decide, show 8 + 8 = 16 by rfl] at e
  rw [e, show (v.1 * 2 ^ 64 + v.2) / 2 ^ 64 = v.1 by omega]
  congr 1
  rw [← beBytes_mod 8 (v.1 * 2 ^ 64 + v.2), show (256 : Nat) ^ 8 = 2 ^ 64 by decide, show (v.1 * 2 ^ 64 + v.2) % 2 ^ 64 = v.2 by omega]

theorem setT_same {α : Type} (t : Nat → α) (i : Nat) (b : α) : setT t i b i = b := if_pos rfl
theorem setT_ne {α : Type} (t : Nat → α) (i j : Nat) (b : α) (h : j ≠ i) : setT t i b j = t j := if_neg h

/-- What one round writes. -/
def putAt (o : Option Nat) (b : List Byte) (t : Nat → List Byte) : Nat → List Byte :=
  match o with
  | some p => setT t p b
  | none => t

theorem bitLoop_succ (pos : Nat → Option Nat) (n i : Nat) (v : Nat × Nat) (t : Nat → List Byte) :
    bitLoop pos (n + 1) i v t = bitLoop pos n (i + 1) (shiftKey v) (putAt (pos i) (putBlock v) t) := rfl

theorem bitLoop_spec (pos : Nat → Option Nat) (B : Nat) (hinj : ∀ i j p, i < B → j < B → pos i = some p → pos j = some p → i = j) (H : Nat) : ∀ (n i : Nat) (v : Nat × Nat) (t : Nat → List Byte), i + n ≤ B →
    v.1 < 2 ^ 64 → v.2 < 2 ^ 64 → pairVal v = P H i →
    (∀ j p, i ≤ j → j < i + n → pos j = some p → bitLoop pos n i v t p = beBytes 16 (P H j)) ∧
    (∀ p, (∀ j, i ≤ j → j < i + n → pos j ≠ some p) → bitLoop pos n i v t p = t p) := by
  intro n
  induction n with
  | zero => intro i v t _ _ _ _; exact ⟨fun j p h1 h2 => by omega, fun p _ => rfl⟩
  | succ n ih =>
    intro i v t hB h1 h2 hv
    obtain ⟨e1, e2, e3⟩ := shiftKey_val v h1 h2
    obtain ⟨g1, g2⟩ := ih (i + 1) (shiftKey v) (putAt (pos i) (putBlock v) t) (by omega) e2 e3 (by rw [e1, hv]; rfl)
    refine ⟨?_, ?_⟩
    · intro j p hj1 hj2 hp
      rw [bitLoop_succ]
      by_cases hij : j = i
      · subst hij
        rw [g2 p (fun k hk1 hk2 hk => by have := hinj _ _ _ (by omega) (by omega) hk hp; omega), hp]
        show setT _ _ _ _ = _
        rw [setT_same, putBlock_eq v h2, hv]
      · exact g1 j p (by omega) (by omega) hp
    · intro p hp
      rw [bitLoop_succ, g2 p (fun j hj1 hj2 => hp j (by omega) (by omega))]
      have := hp i (by omega) (by omega)
      generalize pos i = o at *
      cases o with
      | none => rfl
      | some q => exact setT_ne _ _ _ _ (fun e => this (by rw [e]))

section
variable {α : Type} (op : α → α → α)

/-- Ranges of `N` entries at the bases that do not overlap. -/
def Apart (N : Nat) (bases : List Nat) : Prop := bases.Pairwise fun a b => a + N ≤ b ∨ b + N ≤ a

theorem apart_sep (N : Nat) : ∀ (bases : List Nat), Apart N bases → ∀ b ∈ bases, ∀ c ∈ bases, b = c ∨ b + N ≤ c ∨ c + N ≤ b := by
  intro bases
  induction bases with
  | nil => intro _ b hb; simp at hb
  | cons a bs ih =>
    intro hap b hb c hc
    obtain ⟨ha, hap'⟩ := List.pairwise_cons.mp hap
    rcases List.mem_cons.mp hb with hb | hb
    · subst hb
      rcases List.mem_cons.mp hc with hc | hc
      · exact .inl hc.symm
      · exact .inr (ha c hc)
    · rcases List.mem_cons.mp hc with hc | hc
      · rw [hc]; have := ha b (by assumption); omega
      · exact ih hap' b hb c hc

theorem xorAt_spec (N j k : Nat) (hk : 0 < k) (hkj : k < j) (hN : j + k < N) : ∀ (bases : List Nat) (t : Nat → α), Apart N bases →
    (∀ b ∈ bases, xorAt op j k bases t (b + (j + k)) = op (t (b + j)) (t (b + k))) ∧ (∀ p, (∀ b ∈ bases, p ≠ b + (j + k)) → xorAt op j k bases t p = t p) := by
  intro bases
  induction bases with
  | nil => intro t _; exact ⟨fun b hb => by simp at hb, fun p _ => rfl⟩
  | cons a bs ih =>
    intro t hap
    obtain ⟨ha, hap'⟩ := List.pairwise_cons.mp hap
    obtain ⟨g1, g2⟩ := ih (setT t (a + (j + k)) (op (t (a + j)) (t (a + k)))) hap'
    refine ⟨?_, ?_⟩
    · intro b hb
      show xorAt op j k bs _ _ = _
      rcases List.mem_cons.mp hb with rfl | hb
      · rw [g2 _ (fun c hc => by have := ha c hc; omega), setT_same]
      · have := ha b hb
        rw [g1 b hb, setT_ne _ _ _ _ (by omega), setT_ne _ _ _ _ (by omega)]
    · intro p hp
      show xorAt op j k bs _ _ = _
      rw [g2 p (fun c hc => hp c (by simp [hc])), setT_ne _ _ _ _ (hp a (by simp))]

theorem xorRow_spec (N j : Nat) (bases : List Nat) (hap : Apart N bases) : ∀ (n k : Nat) (t : Nat → α), 0 < k → k + n ≤ j → 2 * j ≤ N →
    (∀ b ∈ bases, ∀ x, k ≤ x → x < k + n → xorRow op bases j n k t (b + (j + x)) = op (t (b + j)) (t (b + x))) ∧
    (∀ p, (∀ b ∈ bases, ∀ x, k ≤ x → x < k + n → p ≠ b + (j + x)) → xorRow op bases j n k t p = t p) := by
  intro n
  induction n with
  | zero => intro k t _ _ _; exact ⟨fun b _ x h1 h2 => by omega, fun p _ => rfl⟩
  | succ n ih =>
    intro k t hk hkn hN
    obtain ⟨f1, f2⟩ := xorAt_spec op N j k hk (by omega) (by omega) bases t hap
    obtain ⟨g1, g2⟩ := ih (k + 1) (xorAt op j k bases t) (by omega) (by omega) hN
    have sep : ∀ b ∈ bases, ∀ c ∈ bases, b = c ∨ b + N ≤ c ∨ c + N ≤ b := apart_sep _ bases hap
    refine ⟨?_, ?_⟩
    · intro b hb x h1 h2
      show xorRow op bases j n (k + 1) _ _ = _
      by_cases hx : x = k
      · subst hx
        rw [g2 _ (fun c hc y hy1 hy2 => by have := sep b hb c hc; omega), f1 b hb]
      · rw [g1 b hb x (by omega) (by omega), f2 _ (fun c hc => by have := sep b hb c hc; omega), f2 _ (fun c hc => by have := sep b hb c hc; omega)]
    · intro p hp
      show xorRow op bases j n (k + 1) _ _ = _
      rw [g2 p (fun b hb x h1 h2 => hp b hb x (by omega) (by omega)), f2 p (fun b hb => hp b hb k (by omega) (by omega))]

theorem xorRows_spec (m : Nat) (bases : List Nat) (hap : Apart (2 ^ (m + 1)) bases) (g : Nat → Nat → α)
    (hg : ∀ b s k, 0 < k → k < 2 ^ s → g b (2 ^ s + k) = op (g b (2 ^ s)) (g b k)) : ∀ (n s : Nat) (t : Nat → α), 1 ≤ s → s + n = m + 1 →
    (∀ b ∈ bases, (∀ x, x < 2 ^ s → t (b + x) = g b x) ∧ ∀ u, u ≤ m → t (b + 2 ^ u) = g b (2 ^ u)) →
    (∀ b ∈ bases, ∀ x, x < 2 ^ (m + 1) → xorRows op bases n (2 ^ s) t (b + x) = g b x) ∧
    (∀ p, (∀ b ∈ bases, ∀ x, x < 2 ^ (m + 1) → p ≠ b + x) → xorRows op bases n (2 ^ s) t p = t p) := by
  intro n
  induction n with
  | zero => intro s t _ hs h; exact ⟨fun b hb x hx => (h b hb).1 x (by rw [show s = m + 1 by omega]; exact hx), fun p _ => rfl⟩
  | succ n ih =>
    intro s t hs1 hs h
    have hpow : 2 * 2 ^ s ≤ 2 ^ (m + 1) := by rw [← Nat.pow_succ']; exact Nat.pow_le_pow_right (by omega) (by omega)
    have hp2 : 2 ≤ 2 ^ s := by have := Nat.pow_le_pow_right (show 0 < 2 by omega) hs1; omega
    obtain ⟨f1, f2⟩ := xorRow_spec op (2 ^ (m + 1)) (2 ^ s) bases hap (2 ^ s - 1) 1 t (by omega) (by omega) hpow
    have sep : ∀ b ∈ bases, ∀ c ∈ bases, b = c ∨ b + 2 ^ (m + 1) ≤ c ∨ c + 2 ^ (m + 1) ≤ b := apart_sep _ bases hap
    have step := ih (s + 1) (xorRow op bases (2 ^ s) (2 ^ s - 1) 1 t) (by omega) (by omega) (by
      intro b hb
      obtain ⟨h1, h2⟩ := h b hb
      have low : ∀ x, x ≤ 2 ^ s → xorRow op bases (2 ^ s) (2 ^ s - 1) 1 t (b + x) = t (b + x) := fun x hx =>
        f2 _ (fun c hc y hy1 hy2 => by have := sep b hb c hc; omega)
      refine ⟨?_, ?_⟩
      · intro x hx
        rw [Nat.pow_succ] at hx
        by_cases hlt : x < 2 ^ s
        · rw [low x (by omega), h1 x hlt]
        · obtain ⟨y, rfl⟩ : ∃ y, x = 2 ^ s + y := ⟨x - 2 ^ s, by omega⟩
          by_cases hy : y = 0
          · rw [hy, Nat.add_zero, low _ (Nat.le_refl _), h2 s (by omega)]
          · rw [f1 b hb y (by omega) (by omega), hg b s y (by omega) (by omega), h1 y (by omega), h2 s (by omega)]
      · intro u hu
        by_cases hus : u ≤ s
        · rw [low _ (Nat.pow_le_pow_right (by omega) hus), h2 u hu]
        · have hu2 : 2 * 2 ^ s ≤ 2 ^ u := by rw [← Nat.pow_succ']; exact Nat.pow_le_pow_right (by omega) (by omega)
          have hu3 : 2 ^ u < 2 ^ (m + 1) := Nat.pow_lt_pow_right (by omega) (by omega)
          rw [f2 _ (fun c hc y hy1 hy2 => by have := sep b hb c hc; omega), h2 u hu])
    obtain ⟨g1, g2⟩ := step
    rw [show (2 : Nat) ^ (s + 1) = 2 ^ s * 2 from Nat.pow_succ 2 s] at g1 g2
    refine ⟨fun b hb x hx => g1 b hb x hx, fun p hp => ?_⟩
    show xorRows op bases n (2 ^ s * 2) _ p = _
    rw [g2 p hp, f2 p (fun b hb x h1 h2 => hp b hb (2 ^ s + x) (by omega))]
end

theorem clear_spec (N : Nat) (hN : 0 < N) : ∀ (bases : List Nat) (t : Nat → List Byte), Apart N bases → (∀ b ∈ bases, clear bases t b = List.replicate 16 0) ∧
    (∀ p, (∀ b ∈ bases, p ≠ b) → clear bases t p = t p) := by
  intro bases
  induction bases with
  | nil => intro t _; exact ⟨fun b hb => by simp at hb, fun p _ => rfl⟩
  | cons a bs ih =>
    intro t hap
    obtain ⟨ha, hap'⟩ := List.pairwise_cons.mp hap
    obtain ⟨g1, g2⟩ := ih (setT t a (List.replicate 16 0)) hap'
    refine ⟨?_, ?_⟩
    · intro b hb
      rcases List.mem_cons.mp hb with rfl | hb
      · show clear bs _ _ = _
        rw [g2 _ (fun c hc => by have := ha c hc; omega), setT_same]
      · exact g1 b hb
    · intro p hp
      show clear bs _ _ = _
      rw [g2 p (fun c hc => hp c (by simp [hc])), setT_ne _ _ _ _ (hp a (by simp))]

/-- All parts: every entry of every part is the sum over the bits of its number. -/
theorem parts_spec (bases : Nat → List Nat) (m : Nat) (hap : ∀ i, Apart (2 ^ (m + 1)) (bases i))
    (hsep : ∀ i j b c, i ≠ j → b ∈ bases i → c ∈ bases j → b + 2 ^ (m + 1) ≤ c ∨ c + 2 ^ (m + 1) ≤ b) (F : Nat → Nat → Nat) (hF : ∀ b s, F b s < 256 ^ 16) : ∀ (n i : Nat) (t : Nat → List Byte),
    (∀ j, i ≤ j → j < i + n → ∀ b ∈ bases j, ∀ u, u ≤ m → t (b + 2 ^ u) = beBytes 16 (F b u)) →
    (∀ j, i ≤ j → j < i + n → ∀ b ∈ bases j, ∀ x, x < 2 ^ (m + 1) → parts bases m n i t (b + x) = beBytes 16 (comb (F b) (m + 1) x)) ∧
    (∀ p, (∀ j, i ≤ j → j < i + n → ∀ b ∈ bases j, ∀ x, x < 2 ^ (m + 1) → p ≠ b + x) → parts bases m n i t p = t p) := by
  have hcl : ∀ b n x, comb (F b) n x < 256 ^ 16 := by
    intro b n x
    rw [show (256 : Nat) ^ 16 = 2 ^ 128 by decide] at *
    induction n with
    | zero => simp only [comb]; decide
    | succ n ih => simp only [comb]; exact Nat.xor_lt_two_pow ih (by split; exact hF b n; decide)
  have hg : ∀ b s k, 0 < k → k < 2 ^ s → beBytes 16 (comb (F b) (m + 1) (2 ^ s + k)) = xorBytes (beBytes 16 (comb (F b) (m + 1) (2 ^ s))) (beBytes 16 (comb (F b) (m + 1) k)) := by
    intro b s k _ hk
    have := add_or_xor 1 k s hk
    rw [Nat.mul_one] at this
    rw [this, comb_xor]
    exact ByteOrder.bytes_xor .big 16 _ _ (hcl _ _ _) (hcl _ _ _)
  intro n
  induction n with
  | zero => intro i t _; exact ⟨fun j h1 h2 => by omega, fun p _ => rfl⟩
  | succ n ih =>
    intro i t h
    obtain ⟨c1, c2⟩ := clear_spec (2 ^ (m + 1)) (Nat.pow_pos (by omega)) (bases i) t (hap i)
    have rows := xorRows_spec xorBytes m (bases i) (hap i) (fun b x => beBytes 16 (comb (F b) (m + 1) x)) hg m 1 (clear (bases i) t) (Nat.le_refl 1) (by omega) (by
      intro b hb
      have nz : ∀ u, u ≤ m → clear (bases i) t (b + 2 ^ u) = beBytes 16 (comb (F b) (m + 1) (2 ^ u)) := by
        intro u hu
        have hlt : 2 ^ u < 2 ^ (m + 1) := Nat.pow_lt_pow_right (by omega) (by omega)
        have hpos : 0 < 2 ^ u := Nat.pow_pos (by omega)
        have sep : ∀ c ∈ bases i, b = c ∨ b + 2 ^ (m + 1) ≤ c ∨ c + 2 ^ (m + 1) ≤ b := apart_sep _ (bases i) (hap i) b hb
        rw [c2 _ (fun c hc => by have := sep c hc; omega), h i (by omega) (by omega) b hb u hu, comb_pow _ _ _ (by omega)]
      refine ⟨?_, nz⟩
      intro x hx
      rcases (show x = 0 ∨ x = 1 by omega) with rfl | rfl
      · simp only [Nat.add_zero]
        rw [c1 b hb, comb_zero]; rfl
      · exact nz 0 (by omega))
    rw [Nat.pow_one] at rows
    obtain ⟨r1, r2⟩ := rows
    have step := ih (i + 1) (xorRows xorBytes (bases i) m 2 (clear (bases i) t)) (by
      intro j hj1 hj2 b hb u hu
      have hlt : 2 ^ u < 2 ^ (m + 1) := Nat.pow_lt_pow_right (by omega) (by omega)
      have hup : 0 < 2 ^ u := Nat.pow_pos (by omega)
      rw [r2 _ (fun c hc x hx => by have := hsep j i b c (by omega) hb hc; omega), c2 _ (fun c hc => by have := hsep j i b c (by omega) hb hc; have := Nat.pow_pos (n := u) (show 0 < 2 by omega); omega)]
      exact h j (by omega) (by omega) b hb u hu)
    obtain ⟨g1, g2⟩ := step
    refine ⟨?_, ?_⟩
    · intro j hj1 hj2 b hb x hx
      show parts bases m n (i + 1) _ _ = _
      by_cases hij : j = i
      · subst hij
        rw [g2 _ (fun k hk1 hk2 c hc y hy => by have := hsep j k b c (by omega) hb hc; omega), r1 b hb x hx]
      · exact g1 j (by omega) (by omega) b hb x hx
    · intro p hp
      show parts bases m n (i + 1) _ _ = _
      have hpos : 0 < 2 ^ (m + 1) := Nat.pow_pos (by omega)
      rw [g2 p (fun j hj1 hj2 => hp j (by omega) (by omega)), r2 p (fun b hb => hp i (by omega) (by omega) b hb), c2 p (fun b hb => by have := hp i (by omega) (by omega) b hb 0 hpos; omega)]

theorem P_lt (H : Nat) (hH : H < 2 ^ 128) (i : Nat) : P H i < 256 ^ 16 := by
  rw [show (256 : Nat) ^ 16 = 2 ^ 128 by decide]
  induction i with
  | zero => exact hH
  | succ i ih =>
    show next (P H i) < _
    unfold next
    split
    · omega
    · exact Nat.xor_lt_two_pow (by omega) (by decide)

theorem keyWords (K : List Byte) (hK : K.length = 16) : pairVal (beVal (K.take 8), beVal (K.drop 8)) = beVal K ∧ beVal (K.take 8) < 2 ^ 64 ∧ beVal (K.drop 8) < 2 ^ 64 := by
  have e := beVal_append (K.take 8) (K.drop 8)
  rw [List.take_append_drop] at e
  have h1 := beVal_lt (K.take 8)
  have h2 := beVal_lt (K.drop 8)
  have l1 : (K.take 8).length = 8 := by simp; omega
  have l2 : (K.drop 8).length = 8 := by simp; omega
  rw [l2] at e h2
  rw [l1] at h1
  rw [show (256 : Nat) ^ 8 = 2 ^ 64 by decide] at *
  exact ⟨e.symm, h1, h2⟩

theorem beVal_lt128 (K : List Byte) (hK : K.length = 16) : beVal K < 2 ^ 128 := by
  have := beVal_lt K
  rw [hK, show (256 : Nat) ^ 16 = 2 ^ 128 by decide] at this
  exact this

theorem pow_div16 (k : Nat) (h : k ≤ 7) : 2 ^ (11 - k) / 16 = 2 ^ (7 - k) := by
  rw [show 11 - k = (7 - k) + 4 by omega, Nat.pow_add]
  exact Nat.mul_div_cancel _ (by omega)

theorem pow_inj {a b : Nat} (h : 2 ^ a = 2 ^ b) : a = b := (Nat.pow_right_inj (by omega)).mp h

theorem table64 (K : List Byte) (hK : K.length = 16) (t : Nat → List Byte) (q b : Nat) (hq : q < 16) (hb : b < 256) :
    mulTable true K t (q * 256 + b) = beBytes 16 (byteMul (beVal K) q b) := by
  obtain ⟨hv, h1, h2⟩ := keyWords K hK
  have hpos : ∀ i, pos64 i = some (i / 8 * 256 + 2 ^ (7 - i % 8)) := by
    intro i; unfold pos64; rw [pow_div16 _ (by omega)]
  have hlt : ∀ i : Nat, 2 ^ (7 - i % 8) < 256 ∧ 0 < 2 ^ (7 - i % 8) := fun i =>
    ⟨by have := Nat.pow_le_pow_right (show 0 < 2 by omega) (show 7 - i % 8 ≤ 7 by omega); omega, Nat.pow_pos (by omega)⟩
  obtain ⟨f1, _⟩ := bitLoop_spec pos64 128 (by
    intro i j p _ _ hi hj
    rw [hpos] at hi hj
    have e := Option.some.inj (hi.trans hj.symm)
    have a := hlt i; have b := hlt j
    have e1 : i / 8 = j / 8 := by omega
    have e2 : 7 - i % 8 = 7 - j % 8 := pow_inj (by omega)
    omega) (beVal K) 128 0 _ t (by omega) h1 h2 hv
  have key := parts_spec (fun i => [i * 256]) 7 (by intro i; simp [Apart])
    (by
      intro i j b c hij hb hc
      simp only [List.mem_singleton] at hb hc
      omega)
    (fun b s => P (beVal K) (8 * (b / 256) + 7 - s)) (fun b s => P_lt _ (beVal_lt128 K hK) _) 16 0 (bitLoop pos64 128 0 (beVal (K.take 8), beVal (K.drop 8)) t) (by
      intro j _ hj b hb u hu
      simp only [List.mem_singleton] at hb
      subst hb
      rw [Nat.mul_div_cancel _ (by omega)]
      apply f1 (8 * j + 7 - u) _ (by omega) (by omega)
      rw [hpos, show (8 * j + 7 - u) / 8 = j by omega, show 7 - (8 * j + 7 - u) % 8 = u by omega])
  have := key.1 q (by omega) (by omega) (q * 256) (by simp) b hb
  unfold mulTable
  simp only [if_true]
  rw [this, Nat.mul_div_cancel _ (by omega)]
  rfl

/-- The small table: low and high nibble of the first byte of each word. -/
theorem table2 (K : List Byte) (hK : K.length = 16) (t : Nat → List Byte) (q b : Nat) (hq : q < 4) (hb : b < 16) :
    mulTable false K t (q * 16 + b) = beBytes 16 (byteMul (beVal K) (4 * q) b) ∧ mulTable false K t (64 + q * 16 + b) = beBytes 16 (byteMul (beVal K) (4 * q) (16 * b)) := by
  obtain ⟨hv, h1, h2⟩ := keyWords K hK
  have hposA : ∀ i, i % 32 < 4 → pos2 i = some (64 + i / 32 * 16 + 2 ^ (3 - i % 32)) := by
    intro i hi
    unfold pos2
    simp only [hi, if_true]
    rw [show 7 - i % 32 = (3 - i % 32) + 4 by omega, Nat.pow_add, Nat.mul_div_cancel _ (by omega)]
  have hposB : ∀ i, ¬ i % 32 < 4 → i % 32 < 8 → pos2 i = some (i / 32 * 16 + 2 ^ (7 - i % 32)) := by
    intro i hi hi'
    unfold pos2
    simp only [hi, if_false, hi', if_true]
    rw [pow_div16 _ (by omega)]
  have hposC : ∀ i, ¬ i % 32 < 8 → pos2 i = none := by
    intro i hi
    unfold pos2
    simp only [show ¬ i % 32 < 4 by omega, if_false, hi]
  have hlt : ∀ k : Nat, k ≤ 3 → 2 ^ k < 16 ∧ 0 < 2 ^ k := fun k hk =>
    ⟨by have := Nat.pow_le_pow_right (show 0 < 2 by omega) hk; omega, Nat.pow_pos (by omega)⟩
  obtain ⟨f1, _⟩ := bitLoop_spec pos2 (128 - 24) (by
    intro i j p hin hjn hi hj
    by_cases a1 : i % 32 < 4
    · rw [hposA i a1] at hi
      have l1 := hlt (3 - i % 32) (by omega)
      by_cases a2 : j % 32 < 4
      · rw [hposA j a2] at hj
        have l2 := hlt (3 - j % 32) (by omega)
        have e := Option.some.inj (hi.trans hj.symm)
        have e1 : i / 32 = j / 32 := by omega
        have e2 : 3 - i % 32 = 3 - j % 32 := pow_inj (by omega)
        omega
      · by_cases a3 : j % 32 < 8
        · rw [hposB j a2 a3] at hj
          have l2 := hlt (7 - j % 32) (by omega)
          have e := Option.some.inj (hi.trans hj.symm)
          omega
        · rw [hposC j a3] at hj; cases hj
    · by_cases a1' : i % 32 < 8
      · rw [hposB i a1 a1'] at hi
        have l1 := hlt (7 - i % 32) (by omega)
        by_cases a2 : j % 32 < 4
        · rw [hposA j a2] at hj
          have l2 := hlt (3 - j % 32) (by omega)
          have e := Option.some.inj (hi.trans hj.symm)
          omega
        · by_cases a3 : j % 32 < 8
          · rw [hposB j a2 a3] at hj
            have l2 := hlt (7 - j % 32) (by omega)
            have e := Option.some.inj (hi.trans hj.symm)
            have e1 : i / 32 = j / 32 := by omega
            have e2 : 7 - i % 32 = 7 - j % 32 := pow_inj (by omega)
            omega
          · rw [hposC j a3] at hj; cases hj
      · rw [hposC i a1'] at hi; cases hi) (beVal K) (128 - 24) 0 _ t (by omega) h1 h2 hv
  have key := parts_spec (fun i => if i < 4 then [i * 16, 64 + i * 16] else []) 3 (by
      intro i
      by_cases h : i < 4
      · simp only [h, if_true, Apart]
        exact List.pairwise_cons.mpr ⟨fun a ha => by simp at ha; omega, by simp⟩
      · simp [h, Apart])
    (by
      intro i j b c hij hb hc
      by_cases h : i < 4 <;> by_cases h' : j < 4 <;> simp [h, h'] at hb hc
      omega)
    (fun b s => if b < 64 then P (beVal K) (8 * (4 * (b / 16)) + 7 - s) else P (beVal K) (8 * (4 * ((b - 64) / 16)) + 7 - (4 + s)))
    (fun b s => by split <;> exact P_lt _ (beVal_lt128 K hK) _) 4 0 (bitLoop pos2 (128 - 24) 0 (beVal (K.take 8), beVal (K.drop 8)) t) (by
      intro j _ hj b hb u hu
      simp only [show j < 4 by omega, if_true, List.mem_cons, List.not_mem_nil, or_false] at hb
      rcases hb with rfl | rfl
      · simp only [show j * 16 < 64 by omega, if_true, Nat.mul_div_cancel _ (show 0 < 16 by omega)]
        apply f1 (8 * (4 * j) + 7 - u) _ (by omega) (by omega)
        rw [hposB _ (by omega) (by omega), show (8 * (4 * j) + 7 - u) / 32 = j by omega, show 7 - (8 * (4 * j) + 7 - u) % 32 = u by omega]
      · simp only [show ¬ 64 + j * 16 < 64 by omega, if_false, show 64 + j * 16 - 64 = j * 16 by omega, Nat.mul_div_cancel _ (show 0 < 16 by omega)]
        apply f1 (8 * (4 * j) + 7 - (4 + u)) _ (by omega) (by omega)
        rw [hposA _ (by omega), show (8 * (4 * j) + 7 - (4 + u)) / 32 = j by omega, show 3 - (8 * (4 * j) + 7 - (4 + u)) % 32 = u by omega])
  have hparts : parts (fun i => [i * 16, 64 + i * 16]) 3 4 0 (bitLoop pos2 (128 - 24) 0 (beVal (K.take 8), beVal (K.drop 8)) t)
      = parts (fun i => if i < 4 then [i * 16, 64 + i * 16] else []) 3 4 0 (bitLoop pos2 (128 - 24) 0 (beVal (K.take 8), beVal (K.drop 8)) t) := rfl
  unfold mulTable
  simp only [Bool.false_eq_true, if_false]
  rw [hparts]
  refine ⟨?_, ?_⟩
  · rw [key.1 q (by omega) (by omega) (q * 16) (by simp [hq]) b hb]
    simp only [show q * 16 < 64 by omega, if_true, Nat.mul_div_cancel _ (show 0 < 16 by omega)]
    have := comb_split (fun s => P (beVal K) (8 * (4 * q) + 7 - s)) 4 4 0 b hb
    rw [Nat.mul_zero, Nat.zero_add, comb_zero, Nat.xor_zero] at this
    rw [byteMul, ← this]
  · rw [key.1 q (by omega) (by omega) (64 + q * 16) (by simp [hq]) b hb]
    simp only [show ¬ 64 + q * 16 < 64 by omega, if_false, show 64 + q * 16 - 64 = q * 16 by omega, Nat.mul_div_cancel _ (show 0 < 16 by omega)]
    have := comb_split (fun s => P (beVal K) (8 * (4 * q) + 7 - s)) 4 4 b 0 (by omega)
    rw [Nat.add_zero, comb_zero, Nat.zero_xor] at this
    rw [byteMul, show (8 : Nat) = 4 + 4 from rfl, show (16 : Nat) = 2 ^ 4 from rfl]
    exact congrArg _ this.symm

theorem reverse16_xor (a b : Nat) (ha : a < 2 ^ 16) (hb : b < 2 ^ 16) : reverse16 (a ^^^ b) = reverse16 a ^^^ reverse16 b := by
  unfold reverse16
  have e := ByteOrder.bytes_xor .big 2 a b (by omega) (by omega)
  simp only [ByteOrder.bytes] at e
  rw [e, leVal_xor _ _ (by simp)]

theorem reductionLoop_spec : ∀ (n s x : Nat) (t : Nat → Nat), 1 ≤ s → s + n ≤ 8 → x = 0x01c2 * 2 ^ (s - 1) → (∀ y, y < 2 ^ s → t y = reverse16 (fold8 y)) →
    ∀ y, y < 2 ^ (s + n) → reductionLoop n (2 ^ s) x t y = reverse16 (fold8 y) := by
  intro n
  induction n with
  | zero => intro s x t _ _ _ h y hy; exact h y hy
  | succ n ih =>
    intro s x t h1 h8 hx h y hy
    unfold reductionLoop
    simp only
    have hs2 : 2 ≤ 2 ^ s := by have := Nat.pow_le_pow_right (show 0 < 2 by omega) h1; omega
    have hps : 2 ^ (s - 1) ≤ 2 ^ 6 := Nat.pow_le_pow_right (by omega) (by omega)
    have hpe : 2 ^ s = 2 * 2 ^ (s - 1) := by rw [← Nat.pow_succ', show (s - 1).succ = s by omega]
    have hx2 : x <<< 1 % 2 ^ 16 = 0x01c2 * 2 ^ s := by rw [Nat.shiftLeft_eq, hx, hpe]; omega
    have hfs : fold8 (2 ^ s) = 0x01c2 * 2 ^ s := comb_pow _ _ _ (by omega)
    obtain ⟨f1, f2⟩ := xorRow_spec (· ^^^ ·) (2 ^ (s + 1)) (2 ^ s) [0] (by simp [Apart]) (2 ^ s - 1) 1 (setT t (2 ^ s) (reverse16 (x <<< 1 % 2 ^ 16))) (by omega) (by omega) (by rw [Nat.pow_succ]; omega)
    rw [← Nat.pow_succ]
    apply ih (s + 1) _ _ (by omega) (by omega) (by rw [hx2]; rfl) _ y (by rw [show s + 1 + n = s + (n + 1) by omega]; exact hy)
    intro z hz
    rw [Nat.pow_succ] at hz
    by_cases hlt : z < 2 ^ s
    · rw [f2 z (fun b hb x hx1 hx2 => by simp at hb; omega), setT_ne _ _ _ _ (by omega), h z hlt]
    · obtain ⟨w, rfl⟩ : ∃ w, z = 2 ^ s + w := ⟨z - 2 ^ s, by omega⟩
      by_cases hw : w = 0
      · subst hw
        rw [f2 _ (fun b hb x hx1 hx2 => by simp at hb; omega), Nat.add_zero, setT_same, hx2, hfs]
      · have := f1 0 (by simp) w (by omega) (by omega)
        simp only [Nat.zero_add] at this
        rw [this, setT_same, setT_ne _ _ _ _ (by omega), h w (by omega), hx2, ← hfs]
        have h256 : 2 ^ s ≤ 2 ^ 7 := Nat.pow_le_pow_right (by omega) (by omega)
        rw [← reverse16_xor _ _ (fold8_lt _ (by omega)) (fold8_lt _ (by omega))]
        have e := add_or_xor 1 w s (by omega)
        rw [Nat.mul_one] at e
        rw [e]
        exact congrArg _ (comb_xor _ _ _ _).symm

/-- The table of reductions. -/
theorem reduction_entry (t : Nat → Nat) (b : Nat) (hb : b < 256) : reductionTable t b = reverse16 (fold8 b) := by
  refine reductionLoop_spec 7 1 0x01c2 _ (by omega) (by omega) (by decide) ?_ b hb
  intro y hy
  rcases (show y = 0 ∨ y = 1 by omega) with rfl | rfl
  · rw [setT_ne _ _ _ _ (by omega), setT_same]; decide
  · rw [setT_same]; decide

end Verif.Ghash
