import Verif.Nbt.Proofs
import Mathlib.FieldTheory.Finite.Basic
import Mathlib.Algebra.Field.ZMod
import Mathlib.Tactic.LinearCombination

namespace Verif.Nbt
open Verif.Rsa (powMod crt modularRoot)
open NumberTheorySymbols

variable {p : Nat} [hp : Fact p.Prime]

theorem cast_emod (a : Int) : ((a % p : Int) : ZMod p) = (a : ZMod p) := ZMod.intCast_mod a p

theorem cast_powMod (a e : Int) : ((powMod a e p : Int) : ZMod p) = (a : ZMod p) ^ e.toNat := by
  unfold powMod; rw [cast_emod, Int.cast_pow]

/-- A residue and the element it stands for. -/
def Res (p : Nat) (x : Int) (z : ZMod p) : Prop := 0 ≤ x ∧ x < p ∧ (x : ZMod p) = z

omit hp in
theorem Res.inj {x y : Int} {z : ZMod p} (h1 : Res p x z) (h2 : Res p y z) : x = y := by
  have h : ((x - y : Int) : ZMod p) = 0 := by rw [Int.cast_sub, h1.2.2, h2.2.2, sub_self]
  have := (ZMod.intCast_zmod_eq_zero_iff_dvd _ p).1 h
  obtain ⟨k, hk⟩ := this
  have a1 := h1.1; have a2 := h1.2.1; have a3 := h2.1; have a4 := h2.2.1
  rcases lt_trichotomy k 0 with hk0 | rfl | hk0
  · nlinarith
  · omega
  · nlinarith

theorem pp : (0 : Int) < p := by exact_mod_cast hp.out.pos

theorem res_mod (a : Int) : Res p (a % p) (a : ZMod p) := ⟨Int.emod_nonneg _ pp.ne', Int.emod_lt_of_pos _ pp, cast_emod a⟩

theorem res_powMod (a e : Int) : Res p (powMod a e p) ((a : ZMod p) ^ e.toNat) :=
  ⟨Int.emod_nonneg _ pp.ne', Int.emod_lt_of_pos _ pp, cast_powMod a e⟩

theorem res_one : Res p 1 (1 : ZMod p) := ⟨by omega, by exact_mod_cast hp.out.one_lt, by simp⟩

theorem Res.one_iff {x : Int} {z : ZMod p} (h : Res p x z) : x = 1 ↔ z = 1 :=
  ⟨fun e => by rw [← h.2.2, e]; simp, fun e => by subst e; exact h.inj res_one⟩

theorem halve_spec : ∀ (f : Nat) (q : Int) (r : Nat), 0 < q → q < f → ∃ q' k, halve f q r = .ok (q', r + k) ∧ q = q' * 2 ^ k ∧ q' % 2 = 1
  | 0, _, _, _, _ => by omega
  | f + 1, q, r, h0, hf => by
    rw [halve]
    by_cases h : q % 2 = 0
    · rw [if_pos h]
      obtain ⟨q', k, e, h1, h2⟩ := halve_spec f (q / 2) (r + 1) (by omega) (by omega)
      refine ⟨q', k + 1, by rw [e]; congr 2; omega, ?_, h2⟩
      rw [pow_succ, ← mul_assoc, ← h1]; omega
    · rw [if_neg h]
      exact ⟨q, 0, rfl, by simp, by omega⟩

omit hp in
theorem nonResidue_spec (F : Nat) (hF : p ≤ F) (h2 : p % 2 = 1) : ∀ (f : Nat) (n d : Nat), d < f → J(((n + d : Nat) : Int) | p) = -1 →
    ∃ m : Nat, nonResidue F p f n = .ok (m : Int) ∧ n ≤ m ∧ m ≤ n + d ∧ J((m : Int) | p) = -1
  | 0, _, _, h, _ => by omega
  | f + 1, n, d, hd, hj => by
    rw [nonResidue, jacobi_spec F n p h2 hF]
    by_cases h : J((n : Int) | p) = -1
    · refine ⟨n, ?_, le_refl _, by omega, h⟩
      show (if J((n : Int) | p) ≠ -1 then _ else _) = _
      rw [if_neg (by simpa using h)]
    · show ∃ m, (if J((n : Int) | p) ≠ -1 then nonResidue F p f (n + 1) else _) = _ ∧ _
      rw [if_pos h]
      have h0 : d ≠ 0 := by rintro rfl; exact h (by simpa using hj)
      obtain ⟨m, e, h1, h3, h4⟩ := nonResidue_spec F hF h2 f (n + 1) (d - 1) (by omega) (by rw [show n + 1 + (d - 1) = n + d by omega]; exact hj)
      exact ⟨m, by rw [← e]; push_cast; rfl, by omega, by omega, h4⟩

theorem euler_of_neg {n : Int} (h : J(n | p) = -1) : (n : ZMod p) ^ (p / 2) = -1 := by
  rw [← jacobiSym.legendreSym.to_jacobiSym] at h
  rw [← legendreSym.eq_pow, h]; simp

theorem exists_neg (h2 : p % 2 = 1) : ∃ n : Nat, 2 ≤ n ∧ n < p ∧ J((n : Int) | p) = -1 := by
  obtain ⟨a, ha⟩ := FiniteField.exists_nonsquare (F := ZMod p) (by rw [ZMod.ringChar_zmod_n]; omega)
  have hv : ((a.val : Nat) : ZMod p) = a := ZMod.natCast_zmod_val a
  refine ⟨a.val, ?_, ZMod.val_lt a, ?_⟩
  · by_contra h
    have h' : a.val = 0 ∨ a.val = 1 := by omega
    rcases h' with h | h
    · apply ha; rw [← hv, h]; exact ⟨0, by simp⟩
    · apply ha; rw [← hv, h]; exact ⟨1, by simp⟩
  · refine (ZMod.nonsquare_iff_jacobiSym_eq_neg_one (p := p)).2 ?_
    rw [Int.cast_natCast, hv]; exact ha

theorem orderLoop_spec (r : Nat) : ∀ (f : Nat) (b : Int) (m : Nat) (B : ZMod p), Res p b B → B ≠ 1 → m < r → r < m + f → 
    ∃ o, orderLoop p r f b m = .ok o ∧ (o = none → ∀ k, m + k < r → B ^ 2 ^ k ≠ 1) ∧ ∀ k, o = some k → m < k ∧ k < r ∧ B ^ 2 ^ (k - m) = 1 ∧ B ^ 2 ^ (k - m - 1) ≠ 1
  | 0, _, _, _, _, _, _, h => by omega
  | f + 1, b, m, B, hb, h1, hm, hf => by
    rw [orderLoop]
    have hb' : Res p (b * b % p) (B ^ 2) := by
      have := res_mod (p := p) (b * b)
      rwa [Int.cast_mul, hb.2.2, ← pow_two B] at this
    by_cases hr : m + 1 = r
    · refine ⟨none, by simp only [hr, if_true], fun _ k hk => ?_, by simp⟩
      have : k = 0 := by omega
      subst this; simpa using h1
    · by_cases h : b * b % p = 1
      · refine ⟨some (m + 1), by simp only [if_neg hr, h]; rfl, by simp, ?_⟩
        rintro k ⟨⟩
        refine ⟨by omega, by omega, ?_, ?_⟩
        · rw [show m + 1 - m = 1 by omega]; exact hb'.one_iff.1 h
        · rw [show m + 1 - m - 1 = 0 by omega]; simpa using h1
      · obtain ⟨o, e, h3, h4⟩ := orderLoop_spec r f (b * b % p) (m + 1) (B ^ 2) hb' (fun e => h (hb'.one_iff.2 e)) (by omega) (by omega)
        refine ⟨o, by simp only [if_neg hr, ne_eq, h, not_false_eq_true, if_true]; exact e, fun ho k hk => ?_, fun k ho => ?_⟩
        · cases k with
          | zero => simpa using h1
          | succ k =>
            have := h3 ho k (by omega)
            rwa [← pow_mul, ← pow_succ'] at this
        · obtain ⟨a1, a2, a3, a4⟩ := h4 k ho
          refine ⟨by omega, a2, ?_, ?_⟩
          · rwa [← pow_mul, ← pow_succ', show k - (m + 1) + 1 = k - m by omega] at a3
          · rwa [← pow_mul, ← pow_succ', show k - (m + 1) - 1 + 1 = k - m - 1 by omega] at a4

theorem squarings_spec : ∀ (n : Nat) (t : Int) (T : ZMod p), Res p t T → Res p (squarings p n t) (T ^ 2 ^ n)
  | 0, _, _, h => by simpa [squarings] using h
  | n + 1, t, T, h => by
    rw [squarings, show T ^ 2 ^ (n + 1) = (T ^ 2) ^ 2 ^ n by rw [← pow_mul, ← pow_succ']]
    refine squarings_spec n _ _ ?_
    have := res_mod (p := p) (t * t)
    rwa [Int.cast_mul, h.2.2, ← pow_two T] at this

theorem res_mul {x y : Int} {X Y : ZMod p} (hx : Res p x X) (hy : Res p y Y) : Res p (x * y % p) (X * Y) := by
  have := res_mod (p := p) (x * y)
  rwa [Int.cast_mul, hx.2.2, hy.2.2] at this

theorem rootLoop_spec (F : Nat) (A : ZMod p) : ∀ (f r : Nat) (y x b : Int) (Y X B : ZMod p), r < f → r < F → Res p y Y → Res p x X → Res p b B → 0 < r →
    Y ^ 2 ^ (r - 1) = -1 → B ^ 2 ^ (r - 1) = 1 → X ^ 2 = A * B → ∃ s, rootLoop F p f r y x b = .ok s ∧ ∃ S, Res p s S ∧ S ^ 2 = A
  | 0, _, _, _, _, _, _, _, h, _, _, _, _, _, _, _, _ => by omega
  | f + 1, r, y, x, b, Y, X, B, hf, hF, hy, hx, hb, hr, h1, h2, h3 => by
    rw [rootLoop]
    by_cases hb1 : b = 1
    · rw [if_pos hb1]
      exact ⟨x, rfl, X, hx, by rw [h3, hb.one_iff.1 hb1, mul_one]⟩
    · rw [if_neg hb1]
      have hB : B ≠ 1 := fun e => hb1 (hb.one_iff.2 e)
      obtain ⟨o, e, hn, hs⟩ := orderLoop_spec r F b 0 B hb hB hr (by omega)
      rw [e]
      cases o with
      | none => exact absurd h2 (hn rfl (r - 1) (by omega))
      | some k =>
        obtain ⟨a1, a2, a3, a4⟩ := hs k rfl
        rw [Nat.sub_zero] at a3 a4
        have hneg : B ^ 2 ^ (k - 1) = -1 := by
          have : (B ^ 2 ^ (k - 1)) * (B ^ 2 ^ (k - 1)) = 1 := by
            rw [← pow_two, ← pow_mul, ← pow_succ, show k - 1 + 1 = k by omega]; exact a3
          rcases mul_self_eq_one_iff.1 this with h | h
          · exact absurd h a4
          · exact h
        have ht := squarings_spec (r - k - 1) y Y hy
        have hY : (Y ^ 2 ^ (r - k - 1) * Y ^ 2 ^ (r - k - 1)) ^ 2 ^ (k - 1) = -1 := by
          rw [← pow_two, ← pow_mul Y, ← pow_succ, ← pow_mul, ← pow_add, show r - k - 1 + 1 + (k - 1) = r - 1 by omega]; exact h1
        refine rootLoop_spec F A f k _ _ _ _ _ _ (by omega) (by omega) (res_mul ht ht) (res_mul hx ht) (res_mul hb (res_mul ht ht)) a1 hY ?_ ?_
        · rw [mul_pow, hneg, hY]; ring
        · linear_combination (Y ^ 2 ^ (r - k - 1)) ^ 2 * h3

theorem rootLoop_none (F f r : Nat) (hr : 0 < r) (hF : r < F) (hf : 0 < f) (y x b : Int) (B : ZMod p) (hb : Res p b B) (h : ∀ k, k < r → B ^ 2 ^ k ≠ 1) :
    rootLoop F p f r y x b = .ok 0 := by
  obtain ⟨f, rfl⟩ : ∃ g, f = g + 1 := ⟨f - 1, by omega⟩
  have hB : B ≠ 1 := by simpa using h 0 hr
  rw [rootLoop, if_neg (fun e => hB (hb.one_iff.1 e))]
  obtain ⟨o, e, hn, hs⟩ := orderLoop_spec r F b 0 B hb hB hr (by omega)
  rw [e]
  cases o with
  | none => rfl
  | some k =>
    obtain ⟨a1, a2, a3, a4⟩ := hs k rfl
    exact absurd a3 (h _ (by omega))

theorem modularSquareRoot_loop (fuel : Nat) (hF : p ≤ fuel) (h2 : p % 2 = 1) (h4 : ¬(p : Int) % 4 = 3) (a : Int) :
    ∃ (q : Nat) (r : Nat) (y x b : Int) (Y X : ZMod p), modularSquareRoot fuel a p = rootLoop fuel p fuel r y x b ∧ 0 < q ∧ 0 < r ∧ r < fuel ∧ q * 2 ^ (r - 1) = p / 2 ∧
      Res p y Y ∧ Res p x X ∧ Res p b ((a : ZMod p) ^ q) ∧ Y ^ 2 ^ (r - 1) = -1 ∧ X ^ 2 = a * (a : ZMod p) ^ q := by
  unfold modularSquareRoot
  rw [if_neg h4]
  obtain ⟨q, r, e, hq, hqo⟩ := halve_spec fuel ((p : Int) - 1) 0 (by have := hp.out.two_le; omega) (by omega)
  rw [e]
  have hq0 : 0 < q := by
    by_contra h
    have : q * 2 ^ r ≤ 0 := Int.mul_nonpos_of_nonpos_of_nonneg (by omega) (by positivity)
    have := hp.out.two_le
    omega
  have hr : r ≠ 0 := by rintro rfl; simp at hq; omega
  obtain ⟨n0, hn1, hn2, hn3⟩ := exists_neg (p := p) h2
  obtain ⟨n, en, _, _, hn⟩ := nonResidue_spec fuel hF h2 fuel 2 (n0 - 2) (by omega) (by rw [show 2 + (n0 - 2) = n0 by omega]; exact hn3)
  simp only [zero_add]
  rw [show ((2 : Int)) = ((2 : Nat) : Int) from rfl, en]
  simp only
  have hpr : q.toNat * 2 ^ (r - 1) = p / 2 := by
    have h1 : (q.toNat : Int) * 2 ^ r = p - 1 := by rw [Int.toNat_of_nonneg hq0.le, ← hq]
    have h3 : q.toNat * 2 ^ r = p - 1 := by have := hp.out.two_le; zify [show 1 ≤ p by omega]; exact h1
    have : q.toNat * 2 ^ r = 2 * (q.toNat * 2 ^ (r - 1)) := by
      rw [show r = (r - 1) + 1 by omega, pow_succ]; simp; ring
    omega
  have hrf : r < fuel := by
    have : r < 2 ^ r := Nat.lt_two_pow_self
    have h1 : (1 : Int) * 2 ^ r ≤ q * 2 ^ r := Int.mul_le_mul_of_nonneg_right (by omega) (by positivity)
    zify at this
    omega
  have hx := res_powMod (p := p) a ((q - 1) / 2)
  have ha := res_mod (p := p) a
  have hX : Res p (a * powMod a ((q - 1) / 2) p % p) ((a : ZMod p) * (a : ZMod p) ^ ((q - 1) / 2).toNat) := by
    have := res_mod (p := p) (a * powMod a ((q - 1) / 2) p)
    rwa [Int.cast_mul, cast_powMod] at this
  have hB : Res p (powMod a ((q - 1) / 2) p * powMod a ((q - 1) / 2) p % p * a % p) ((a : ZMod p) ^ q.toNat) := by
    have := res_mod (p := p) (powMod a ((q - 1) / 2) p * powMod a ((q - 1) / 2) p % p * a)
    rw [Int.cast_mul, cast_emod, Int.cast_mul, cast_powMod, ← pow_add, ← pow_succ] at this
    rwa [show ((q - 1) / 2).toNat + ((q - 1) / 2).toNat + 1 = q.toNat by omega] at this
  refine ⟨q.toNat, r, _, _, _, _, _, rfl, by omega, by omega, hrf, hpr, res_powMod _ _, hX, hB, ?_, ?_⟩
  · rw [← pow_mul, hpr, Int.cast_natCast]; exact_mod_cast euler_of_neg hn
  · rw [← pow_succ', ← pow_mul, ← pow_succ']; congr 1; omega

theorem modularSquareRoot_spec (fuel : Nat) (hF : p ≤ fuel) (h2 : p % 2 = 1) (a : Int) (hs : IsSquare (a : ZMod p)) :
    ∃ s, modularSquareRoot fuel a p = .ok s ∧ ∃ S, Res p s S ∧ S ^ 2 = (a : ZMod p) := by
  have heuler : (a : ZMod p) ≠ 0 → (a : ZMod p) ^ (p / 2) = 1 := fun h => (ZMod.euler_criterion p h).1 hs
  by_cases h4 : (p : Int) % 4 = 3
  · unfold modularSquareRoot
    rw [if_pos h4]
    refine ⟨_, rfl, _, res_powMod _ _, ?_⟩
    rw [← pow_mul]
    have : (((p : Int) + 1) / 4).toNat * 2 = p / 2 + 1 := by omega
    rw [this]
    by_cases h : (a : ZMod p) = 0
    · rw [h]; simp
    · rw [pow_succ, heuler h, one_mul]
  · obtain ⟨q, r, y, x, b, Y, X, e, hq0, hr, hrf, hpr, hy, hX, hB, h1, h3⟩ := modularSquareRoot_loop fuel hF h2 h4 a
    rw [e]
    by_cases h0 : (a : ZMod p) = 0
    · rw [h0, zero_pow (by omega)] at hB
      refine ⟨0, rootLoop_none fuel fuel r (by omega) hrf (by omega) _ _ _ _ hB (fun k _ => ?_), 0, ⟨le_refl _, pp, by simp⟩, by rw [h0]; simp⟩
      rw [zero_pow (by positivity)]; exact zero_ne_one
    · exact rootLoop_spec fuel (a : ZMod p) fuel r _ _ _ _ _ _ hrf hrf hy hX hB hr h1 (by rw [← pow_mul, hpr]; exact heuler h0) h3

theorem modularSquareRoot_none (fuel : Nat) (hF : p ≤ fuel) (h4 : p % 4 = 1) (a : Int) (hs : ¬IsSquare (a : ZMod p)) :
    modularSquareRoot fuel a p = .ok 0 := by
  obtain ⟨q, r, y, x, b, Y, X, e, hq0, hr, hrf, hpr, hy, hX, hB, h1, h3⟩ := modularSquareRoot_loop fuel hF (by omega) (by omega) a
  rw [e]
  have h0 : (a : ZMod p) ≠ 0 := fun h => hs (by rw [h]; exact ⟨0, by simp⟩)
  refine rootLoop_none fuel fuel r hr hrf (by omega) _ _ _ _ hB (fun k hk hk1 => hs ((ZMod.euler_criterion p h0).2 ?_))
  rw [← hpr, pow_mul, show r - 1 = k + (r - 1 - k) by omega, pow_add, pow_mul, hk1, one_pow]

end Verif.Nbt
