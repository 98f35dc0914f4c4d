import Verif.Nbt.Proofs6

/-! # Number theory

The greatest common divisor, least common multiple, Chinese remainder, Jacobi symbol, square and other modular roots, quadratic equations and Lucas sequences
(C28); prime tests, provable primes and generators (C56).  `fuel` is the number of rounds each loop is given: a theorem about it says the loop ends within it. -/
namespace Verif.Nbt
open Verif.Dl (invMod)
open Verif.Rsa (powMod crt modularRoot)
open NumberTheorySymbols

/-! ## C28 -/

/-- `GCD(a, b)` is the greatest common divisor for all non-negative numbers, and up to its sign for all numbers. -/
theorem gcd_exact (a b : Int) (fuel : Nat) (hf : a.natAbs < fuel) :
    ∃ g, gcd fuel a b = .ok g ∧ g.natAbs = Int.gcd a b ∧ (0 ≤ a → 0 ≤ b → g = Int.gcd a b) := by
  obtain ⟨g, h1, h2, h3⟩ := gcdLoop_spec fuel b a hf
  rw [Int.gcd_comm] at h2
  exact ⟨g, h1, h2, fun ha hb => by have := h3 hb ha; omega⟩

example : ∃ g, gcd 1000 48 180 = .ok g ∧ g.natAbs = Int.gcd 48 180 ∧ (0 ≤ (48 : Int) → 0 ≤ (180 : Int) → g = Int.gcd 48 180) :=
  gcd_exact 48 180 1000 (by decide)

/-- The sign of the result is not always positive: `GCD(0, -5)` is -5, and `RelativelyPrime(0, -1)` is false. -/
theorem gcd_negative : gcd 1000 0 (-5) = .ok (-5) ∧ Int.gcd 0 (-1) = 1 ∧ relativelyPrime 1000 0 (-1) = .ok false := by
  refine ⟨rfl, rfl, rfl⟩

/-- `RelativelyPrime` answers correctly for non-negative numbers. -/
theorem relativelyPrime_exact (a b : Int) (ha : 0 ≤ a) (hb : 0 ≤ b) (fuel : Nat) (hf : a.natAbs < fuel) :
    ∃ r, relativelyPrime fuel a b = .ok r ∧ (r = true ↔ Int.gcd a b = 1) := by
  obtain ⟨g, h1, -, h3⟩ := gcd_exact a b fuel hf
  refine ⟨g == 1, by unfold relativelyPrime; rw [h1]; rfl, ?_⟩
  rw [beq_iff_eq, h3 ha hb]
  omega

example : ∃ r, relativelyPrime 1000 35 64 = .ok r ∧ (r = true ↔ Int.gcd 35 64 = 1) := relativelyPrime_exact 35 64 (by decide) (by decide) 1000 (by decide)

/-- `LCM(a, b)` is the least common multiple of non-negative numbers, not both zero. -/
theorem lcm_exact (a b : Int) (ha : 0 ≤ a) (hb : 0 ≤ b) (h0 : a ≠ 0 ∨ b ≠ 0) (fuel : Nat) (hf : a.natAbs < fuel) : lcm fuel a b = .ok (Int.lcm a b) := by
  obtain ⟨g, h1, -, h3⟩ := gcd_exact a b fuel hf
  have hg := h3 ha hb
  subst hg
  have hne : Int.gcd a b ≠ 0 := by
    intro h; have := Int.gcd_eq_zero_iff.1 h; omega
  unfold lcm
  rw [h1]
  show (if ((Int.gcd a b : Nat) : Int) = 0 then _ else _) = _
  rw [if_neg (by omega)]
  obtain ⟨a, rfl⟩ : ∃ k : Nat, a = k := ⟨a.toNat, by omega⟩
  obtain ⟨b, rfl⟩ : ∃ k : Nat, b = k := ⟨b.toNat, by omega⟩
  show (Except.ok _ : Except Err Int) = _
  congr 1
  rw [Int.gcd_natCast_natCast, Int.lcm_natCast_natCast]
  have e : (a / Nat.gcd a b) * b = Nat.lcm a b := by
    rw [Nat.lcm, Nat.mul_comm a b, Nat.mul_div_assoc _ (Nat.gcd_dvd_left a b), Nat.mul_comm]
  rw [← e]; push_cast; rfl

example : lcm 1000 4 6 = .ok 12 := lcm_exact 4 6 (by decide) (by decide) (by decide) 1000 (by decide)

/-- `LCM(0, 0)` throws. -/
theorem lcm_zero : lcm 1000 0 0 = .error .divideByZero := rfl

/-- `CRT(xp, p, xq, q, u)` is the one number in `[0, pq)` that is `xp` modulo `p` and `xq` modulo `q`. -/
theorem crt_exact (xp p xq q u : Int) (hp : 0 ≤ xp) (hxp : xp < p) (hq : 0 < q) (hu : u * p ≡ 1 [ZMOD q]) (x : Int) :
    x = crt xp p xq q u ↔ (0 ≤ x ∧ x < p * q) ∧ x ≡ xp [ZMOD p] ∧ x ≡ xq [ZMOD q] := by
  obtain ⟨h1, h2, h3⟩ := Rsa.crt_spec xp p xq q u hq hp hxp hu
  constructor
  · rintro rfl; exact ⟨h1, h2, h3⟩
  · rintro ⟨⟨h4, h5⟩, h6, h7⟩
    have hd : Int.gcd p q = 1 := by
      have h8 : q ∣ 1 - u * p := hu.dvd
      have h9 : ((Int.gcd p q : Nat) : Int) ∣ 1 := by
        have := dvd_add (dvd_trans (Int.gcd_dvd_right p q) h8) (Dvd.dvd.mul_left (Int.gcd_dvd_left p q) u)
        rwa [sub_add_cancel] at this
      have := Int.eq_one_of_dvd_one (by omega) h9
      omega
    have d1 : p ∣ x - crt xp p xq q u := (h2.trans h6.symm).dvd
    have d2 : q ∣ x - crt xp p xq q u := (h3.trans h7.symm).dvd
    have d3 : p * q ∣ x - crt xp p xq q u := IsCoprime.mul_dvd (Int.isCoprime_iff_gcd_eq_one.2 hd) d1 d2
    have := Int.eq_zero_of_abs_lt_dvd d3 (by rw [abs_lt]; omega)
    omega

example : crt 3 7 5 11 8 = 38 := ((crt_exact 3 7 5 11 8 (by decide) (by decide) (by decide) (by decide) 38).2 ⟨by decide, by decide, by decide⟩).symm

/-- `Jacobi(a, m)` is the Jacobi symbol for every integer `a` and every odd positive `m`. -/
theorem jacobi_exact (a : Int) (m : Nat) (hm : m % 2 = 1) (fuel : Nat) (hf : m ≤ fuel) : jacobi fuel a m = .ok J(a | m) := jacobi_spec fuel a m hm hf

example : jacobi 1000 (-5) ((21 : Nat) : Int) = .ok J(-5 | 21) := jacobi_exact (-5) 21 rfl 1000 (by decide)

/-- `Integer::SquareRoot` is the floor of the square root, and 0 for negative numbers. -/
theorem squareRoot_exact (n : Int) (fuel : Nat) (hf : 2 * n.natAbs < fuel) : squareRoot fuel n = .ok ((Nat.sqrt n.toNat : Nat) : Int) := squareRoot_spec n fuel hf

example : squareRoot 1000 99 = .ok 9 := (squareRoot_exact 99 1000 (by decide)).trans (by rw [show Nat.sqrt (99 : Int).toNat = 9 from by decide +kernel]; rfl)

/-- `Integer::IsSquare` is true exactly for squares. -/
theorem isSquare_exact (n : Int) (fuel : Nat) (hf : 2 * n.natAbs < fuel) : ∃ b, isSquare fuel n = .ok b ∧ (b = true ↔ ∃ r : Int, r * r = n) :=
  isSquare_spec n fuel hf

example : ∃ b, isSquare 1000 81 = .ok b ∧ (b = true ↔ ∃ r : Int, r * r = 81) := isSquare_exact 81 1000 (by decide)

/-- `ModularSquareRoot(a, p)`, for every odd prime `p` and every `a` that has a square root modulo `p`, is such a root, in `[0, p)`. -/
theorem modularSquareRoot_exact (p : Nat) (hp : p.Prime) (h2 : p ≠ 2) (a : Int) (fuel : Nat) (hf : p ≤ fuel) (ha : ∃ x : Int, x * x ≡ a [ZMOD p]) :
    ∃ s, modularSquareRoot fuel a p = .ok s ∧ 0 ≤ s ∧ s < p ∧ s * s ≡ a [ZMOD p] := by
  have := Fact.mk hp
  obtain ⟨x, hx⟩ := ha
  obtain ⟨s, e, S, ⟨h3, h4, h5⟩, h6⟩ := modularSquareRoot_spec (p := p) fuel hf (by rcases hp.eq_two_or_odd with h | h <;> omega) a
    ⟨x, by rw [← Int.cast_mul]; exact ((ZMod.intCast_eq_intCast_iff _ _ p).2 hx).symm⟩
  refine ⟨s, e, h3, h4, (ZMod.intCast_eq_intCast_iff _ _ p).1 ?_⟩
  rw [Int.cast_mul, h5, ← pow_two, h6]

example : ∃ s, modularSquareRoot 100 2 ((17 : Nat) : Int) = .ok s ∧ 0 ≤ s ∧ s < (17 : Nat) ∧ s * s ≡ 2 [ZMOD (17 : Nat)] :=
  modularSquareRoot_exact 17 (by norm_num) (by decide) 2 100 (by decide) ⟨6, by decide⟩

/-- For a number without a square root it is 0 when `p` is 1 modulo 4.  When `p` is 3 modulo 4 it is a number that is not a root: 3 has none modulo 7. -/
theorem modularSquareRoot_nonsquare (p : Nat) (hp : p.Prime) (h4 : p % 4 = 1) (a : Int) (fuel : Nat) (hf : p ≤ fuel) (ha : ¬∃ x : Int, x * x ≡ a [ZMOD p]) :
    modularSquareRoot fuel a p = .ok 0 := by
  have := Fact.mk hp
  refine modularSquareRoot_none (p := p) fuel hf h4 a ?_
  rintro ⟨x, hx⟩
  refine ha ⟨(x.val : Int), (ZMod.intCast_eq_intCast_iff _ _ p).1 ?_⟩
  push_cast
  rw [ZMod.natCast_zmod_val, hx]

example : modularSquareRoot 100 3 ((17 : Nat) : Int) = .ok 0 :=
  modularSquareRoot_nonsquare 17 (by norm_num) (by decide) 3 100 (by decide) (by
    rintro ⟨x, hx⟩
    have h1 : (x % 17) * (x % 17) % 17 = 3 := by rw [← Int.mul_emod]; exact hx
    have h2 := Int.emod_nonneg x (show (17 : Int) ≠ 0 by decide)
    have h3 := Int.emod_lt_of_pos x (show (0 : Int) < 17 by decide)
    generalize x % 17 = y at *
    interval_cases y <;> omega)

theorem modularSquareRoot_three_mod_four_nonsquare : modularSquareRoot 100 3 7 = .ok 2 ∧ ¬(2 : Int) * 2 ≡ 3 [ZMOD 7] := by
  refine ⟨by decide +kernel, by decide⟩

/-- The search for a non-residue never ends when `p` is 2: `Jacobi(n, 2)` is never -1. -/
theorem modularSquareRoot_two_diverges (fuel : Nat) (a : Int) : modularSquareRoot fuel a 2 = .error .diverges := by
  unfold modularSquareRoot
  rw [if_neg (by decide)]
  have key : ∀ (f : Nat) (n : Int), nonResidue fuel 2 f n = .error .diverges := by
    intro f
    induction f with
    | zero => intro n; rfl
    | succ f ih =>
      intro n
      rw [nonResidue]
      have hj : jacobi fuel n 2 = .error .diverges ∨ jacobi fuel n 2 = .ok 0 ∨ jacobi fuel n 2 = .ok 1 := by
        unfold jacobi
        rw [if_neg (by decide)]
        match fuel with
        | 0 => exact .inl rfl
        | 1 =>
          rcases Int.emod_two_eq_zero_or_one n with h | h <;> rw [h]
          · exact .inr (.inl rfl)
          · exact .inl rfl
        | k + 2 =>
          rcases Int.emod_two_eq_zero_or_one n with h | h <;> rw [h]
          · exact .inr (.inl rfl)
          · exact .inr (.inr rfl)
      rcases hj with h | h | h <;> rw [h]
      · exact ih _
      · exact ih _
  match fuel with
  | 0 => rfl
  | k + 1 =>
    rw [show halve (k + 1) ((2 : Int) - 1) 0 = .ok (1, 0) from rfl]
    simp only []
    rw [key]

/-- `SolveModularQuadraticEquation(r1, r2, a, b, c, p)`, for every odd prime `p` that does not divide `a`: it returns false only when no number solves
`a x² + b x + c = 0` modulo `p`, and otherwise the solutions are exactly the numbers congruent to one of its two roots. -/
theorem solveQuadratic_exact (p : Nat) (hp : p.Prime) (h2 : p ≠ 2) (a b c : Int) (ha : ¬(p : Int) ∣ a) (fuel : Nat) (hf : p ≤ fuel) :
    ∃ o, solveQuadratic fuel a b c p = .ok o ∧ (o = none → ∀ x : Int, ¬a * x ^ 2 + b * x + c ≡ 0 [ZMOD p]) ∧
      ∀ r1 r2, o = some (r1, r2) → (0 ≤ r1 ∧ r1 < p) ∧ (0 ≤ r2 ∧ r2 < p) ∧
        ∀ x : Int, a * x ^ 2 + b * x + c ≡ 0 [ZMOD p] ↔ x ≡ r1 [ZMOD p] ∨ x ≡ r2 [ZMOD p] := by
  have := Fact.mk hp
  obtain ⟨o, e, h3, h4⟩ := solveQuadratic_spec (p := p) fuel hf (by rcases hp.eq_two_or_odd with h | h <;> omega) a b c
    (fun h => ha ((ZMod.intCast_zmod_eq_zero_iff_dvd a p).1 h))
  have tr : ∀ x : Int, a * x ^ 2 + b * x + c ≡ 0 [ZMOD p] ↔ (a : ZMod p) * (x : ZMod p) ^ 2 + b * x + c = 0 := by
    intro x; rw [← ZMod.intCast_eq_intCast_iff]; push_cast; rfl
  refine ⟨o, e, fun ho x hx => h3 ho _ ((tr x).1 hx), fun r1 r2 ho => ?_⟩
  obtain ⟨k1, k2, k3⟩ := h4 r1 r2 ho
  refine ⟨k1, k2, fun x => ?_⟩
  rw [tr, k3, ZMod.intCast_eq_intCast_iff, ZMod.intCast_eq_intCast_iff]

example : ∃ o, solveQuadratic 100 3 1 4 ((17 : Nat) : Int) = .ok o ∧ (o = none → ∀ x : Int, ¬3 * x ^ 2 + 1 * x + 4 ≡ 0 [ZMOD (17 : Nat)]) ∧
      ∀ r1 r2, o = some (r1, r2) → (0 ≤ r1 ∧ r1 < (17 : Nat)) ∧ (0 ≤ r2 ∧ r2 < (17 : Nat)) ∧
        ∀ x : Int, 3 * x ^ 2 + 1 * x + 4 ≡ 0 [ZMOD (17 : Nat)] ↔ x ≡ r1 [ZMOD (17 : Nat)] ∨ x ≡ r2 [ZMOD (17 : Nat)] :=
  solveQuadratic_exact 17 (by norm_num) (by decide) 3 1 4 (by decide) 100 (by decide)

/-- When `p` divides `a` it returns true and 0 for both roots, whether or not 0 is a solution: here of `2 x + 1 = 0` modulo 7, which 3 solves. -/
theorem solveQuadratic_linear_wrong : solveQuadratic 100 7 2 1 7 = .ok (some (0, 0)) ∧ ¬(7 : Int) * 0 ^ 2 + 2 * 0 + 1 ≡ 0 [ZMOD 7] ∧
    (7 : Int) * 3 ^ 2 + 2 * 3 + 1 ≡ 0 [ZMOD 7] := by
  refine ⟨by decide +kernel, by decide, by decide⟩

/-- `ModularRoot(a, e, p, q)`, for odd primes `p ≠ q` and every `e` prime to `(p-1)(q-1)`, is an `e`-th root of `a` modulo `pq`, in `[0, pq)`. -/
theorem modularRoot_exact (p q : Nat) (hp : p.Prime) (hq : q.Prime) (hne : p ≠ q) (hp2 : p ≠ 2) (hq2 : q ≠ 2) (a : Int) (e : Nat)
    (h1 : Nat.Coprime e (p - 1)) (h2 : Nat.Coprime e (q - 1)) :
    0 ≤ root a e p q ∧ root a e p q < p * q ∧ root a e p q ^ e ≡ a [ZMOD p * q] := by
  have := Fact.mk hp
  have := Fact.mk hq
  have hp3 : 2 < p := by have := hp.two_le; omega
  have hq3 : 2 < q := by have := hq.two_le; omega
  have hg : Int.gcd (p : Int) q = 1 := by
    rw [Int.gcd_natCast_natCast]; exact (Nat.coprime_primes hp hq).2 hne
  have hu : invMod (p : Int) q * p ≡ 1 [ZMOD q] := by
    rw [mul_comm]; exact Dl.mul_invMod p q (by omega) hg
  have g1 : Int.gcd (e : Int) ((p : Int) - 1) = 1 := by
    rw [show ((p : Int) - 1) = ((p - 1 : Nat) : Int) by omega, Int.gcd_natCast_natCast]; exact h1
  have g2 : Int.gcd (e : Int) ((q : Int) - 1) = 1 := by
    rw [show ((q : Int) - 1) = ((q - 1 : Nat) : Int) by omega, Int.gcd_natCast_natCast]; exact h2
  obtain ⟨⟨c1, c2⟩, c3, c4⟩ := Rsa.crt_spec (powMod (a % p) (invMod e (p - 1)) p) p (powMod (a % q) (invMod e (q - 1)) q) q (invMod p q) (by omega)
    (Int.emod_nonneg _ (by omega)) (Int.emod_lt_of_pos _ (by omega)) hu
  refine ⟨c1, c2, ?_⟩
  have r1 := root_mod (p := p) hp3 a e _ (by omega) rfl g1
  have r2 := root_mod (p := q) hq3 a e _ (by omega) rfl g2
  rw [Int.toNat_natCast] at r1 r2
  have d1 : root a e p q ^ e ≡ a [ZMOD p] := (c3.pow e).trans ((ZMod.intCast_eq_intCast_iff _ _ p).1 (by rw [Int.cast_pow]; exact r1))
  have d2 : root a e p q ^ e ≡ a [ZMOD q] := (c4.pow e).trans ((ZMod.intCast_eq_intCast_iff _ _ q).1 (by rw [Int.cast_pow]; exact r2))
  exact Int.modEq_iff_dvd.2 (IsCoprime.mul_dvd (Int.isCoprime_iff_gcd_eq_one.2 hg) d1.dvd d2.dvd)

example : 0 ≤ root 5 3 (11 : Nat) (17 : Nat) ∧ root 5 3 (11 : Nat) (17 : Nat) < (11 : Nat) * (17 : Nat) ∧
    root 5 3 (11 : Nat) (17 : Nat) ^ 3 ≡ 5 [ZMOD (11 : Nat) * (17 : Nat)] :=
  modularRoot_exact 11 17 (by norm_num) (by norm_num) (by decide) (by decide) (by decide) 5 3 (by decide) (by decide)

/-- With `p = 2` the root is wrong: the inverse of `e` modulo 1 is 0, so the root modulo 2 is always 1. -/
theorem modularRoot_two_wrong : root 4 3 2 5 = 9 ∧ ¬(9 : Int) ^ 3 ≡ 4 [ZMOD 2 * 5] := by
  refine ⟨by decide +kernel, by decide⟩

/-- `Lucas(e, p, n)` is the term `V_e(p, 1)` of the Lucas sequence modulo `n`, for every non-negative `e`, every `p` and every odd `n` greater than 1. -/
theorem lucas_exact (e : Nat) (P : Int) (n : Nat) (hn : 1 < n) (h2 : n % 2 = 1) : lucas e P n = .ok (V P e % n) := by
  have := lucas_spec' e P (by omega) n (by omega) h2
  rwa [Int.toNat_natCast] at this

example : lucas (10 : Nat) 3 ((101 : Nat) : Int) = .ok (V 3 10 % (101 : Nat)) := lucas_exact 10 3 101 (by decide) rfl

/-- `InverseLucas(e, m, p, q, u)` is a number whose `e`-th Lucas term is `m` modulo `pq`, for odd primes `p ≠ q`, when `e` is prime to `p ± 1` and `q ± 1`
(the signs those of the symbols of `m² - 4`) and `m` is not -2 modulo either prime. -/
theorem inverseLucas_exact (p q : Nat) (hp : p.Prime) (hq : q.Prime) (hne : p ≠ q) (hp2 : p ≠ 2) (hq2 : q ≠ 2) (e : Nat) (m u : Int)
    (h1 : Int.gcd e (p - J(m * m - 4 | p)) = 1) (h2 : Int.gcd e (q - J(m * m - 4 | q)) = 1) (hu : u * p ≡ 1 [ZMOD q])
    (hmp : ¬m ≡ -2 [ZMOD p]) (hmq : ¬m ≡ -2 [ZMOD q]) (fuel : Nat) (hf : p ≤ fuel) (hfq : q ≤ fuel) :
    ∃ x, inverseLucas fuel e m p q u = .ok x ∧ (0 ≤ x ∧ x < p * q) ∧ V x e ≡ m [ZMOD p * q] := by
  have := Fact.mk hp
  have := Fact.mk hq
  have hpo : p % 2 = 1 := by rcases hp.eq_two_or_odd with h | h <;> omega
  have hqo : q % 2 = 1 := by rcases hq.eq_two_or_odd with h | h <;> omega
  have hp3 : 2 < p := by have := hp.two_le; omega
  have hq3 : 2 < q := by have := hq.two_le; omega
  have hg : Int.gcd (p : Int) q = 1 := by
    rw [Int.gcd_natCast_natCast]; exact (Nat.coprime_primes hp hq).2 hne
  have hn : ∀ r : Nat, 2 < r → 0 ≤ invMod (e : Int) (r - J(m * m - 4 | r)) := by
    intro r hr
    unfold Dl.invMod
    split
    · refine Int.emod_nonneg _ ?_
      rcases jacobiSym.trichotomy (m * m - 4) r with h | h | h <;> rw [h] <;> omega
    · exact le_refl _
  have l1 := lucas_spec' (invMod (e : Int) (p - J(m * m - 4 | p))) m (hn p hp3) p hp3 hpo
  have l2 := lucas_spec' (invMod (e : Int) (q - J(m * m - 4 | q))) m (hn q hq3) q hq3 hqo
  obtain ⟨c1, c3, c4⟩ := Rsa.crt_spec (V m (invMod (e : Int) (p - J(m * m - 4 | p))).toNat % p) p (V m (invMod (e : Int) (q - J(m * m - 4 | q))).toNat % q) q u (by omega)
    (Int.emod_nonneg _ (by omega)) (Int.emod_lt_of_pos _ (by omega)) hu
  refine ⟨_, ?_, c1, ?_⟩
  · unfold inverseLucas
    simp only []
    rw [jacobi_spec fuel _ p hpo hf, jacobi_spec fuel _ q hqo hfq]
    show (do let p2 ← lucas (invMod (e : Int) (p - J(m * m - 4 | p))) m p
             let q2 ← lucas (invMod (e : Int) (q - J(m * m - 4 | q))) m q
             return crt p2 p q2 q u) = _
    rw [l1, l2]
    rfl
  · have n1 : ((m + 2 : Int) : ZMod p) ≠ 0 := fun h => hmp (Int.modEq_iff_dvd.2 (by
      have := (ZMod.intCast_zmod_eq_zero_iff_dvd _ p).1 h
      rw [show -2 - m = -(m + 2) by ring]; exact (dvd_neg).2 this))
    have n2 : ((m + 2 : Int) : ZMod q) ≠ 0 := fun h => hmq (Int.modEq_iff_dvd.2 (by
      have := (ZMod.intCast_zmod_eq_zero_iff_dvd _ q).1 h
      rw [show -2 - m = -(m + 2) by ring]; exact (dvd_neg).2 this))
    have s1 := inverse_side (p := p) hpo e m (by omega) h1 n1 _ (((ZMod.intCast_eq_intCast_iff _ _ p).2 c3).trans (cast_emod _))
    have s2 := inverse_side (p := q) hqo e m (by omega) h2 n2 _ (((ZMod.intCast_eq_intCast_iff _ _ q).2 c4).trans (cast_emod _))
    rw [Int.toNat_natCast] at s1 s2
    have d1 := (ZMod.intCast_eq_intCast_iff _ _ p).1 s1
    have d2 := (ZMod.intCast_eq_intCast_iff _ _ q).1 s2
    exact Int.modEq_iff_dvd.2 (IsCoprime.mul_dvd (Int.isCoprime_iff_gcd_eq_one.2 hg) d1.dvd d2.dvd)

example : ∃ x, inverseLucas 1000 (7 : Nat) 5 ((11 : Nat) : Int) ((17 : Nat) : Int) 14 = .ok x ∧ (0 ≤ x ∧ x < ((11 : Nat) : Int) * (17 : Nat)) ∧
    V x 7 ≡ 5 [ZMOD ((11 : Nat) : Int) * (17 : Nat)] :=
  inverseLucas_exact 11 17 (by norm_num) (by norm_num) (by decide) (by decide) (by decide) 7 5 14
    (by rw [show J(5 * 5 - 4 | 11) = -1 from Except.ok.inj ((jacobi_exact (5 * 5 - 4) 11 rfl 100 (by decide)).symm.trans (by decide +kernel))]; decide) (by rw [show J(5 * 5 - 4 | 17) = 1 from Except.ok.inj ((jacobi_exact (5 * 5 - 4) 17 rfl 100 (by decide)).symm.trans (by decide +kernel))]; decide) (by decide) (by decide) (by decide) 1000
    (by decide) (by decide)

/-- It is wrong when `m` is -2 modulo `p` and the inverse of `e` modulo `p` is even: the root it finds for 9 with `e = 7`, `p = 11`, `q = 5` is 24, and
`V_7(24, 1)` is 2 modulo 11, not 9. -/
theorem inverseLucas_minus_two_wrong : ∃ x, inverseLucas 1000 7 9 11 5 1 = .ok x ∧ ¬V x 7 ≡ 9 [ZMOD 11 * 5] ∧ V 9 7 ≡ 9 [ZMOD 11] := by
  refine ⟨24, by decide +kernel, by decide +kernel, by decide +kernel⟩

/-! ## C56 -/

/-- `IsSmallPrime` is true exactly for the primes up to 32719. -/
theorem isSmallPrime_exact (p : Int) : isSmallPrime p = true ↔ p ≤ 32719 ∧ p.toNat.Prime := by
  constructor
  · intro h
    have hle : p ≤ 32719 := by
      unfold isSmallPrime at h
      rw [table_last, Bool.and_eq_true, Bool.and_eq_true, decide_eq_true_iff, decide_eq_true_iff] at h
      exact h.1.2
    exact ⟨hle, (isSmallPrime_spec p hle).1 h⟩
  · exact fun h => (isSmallPrime_spec p h.1).2 h.2

example : isSmallPrime 32719 = true := (isSmallPrime_exact 32719).2 ⟨by decide, prime_32719⟩

/-- `TrialDivision(p, bound)` is true exactly when a prime up to `bound` divides `p`, for every bound the table reaches. -/
theorem trialDivision_exact (p : Int) (bound : Nat) (hb : bound ≤ 32719) :
    ∃ b, trialDivision p bound = .ok b ∧ (b = true ↔ ∃ q : Nat, q.Prime ∧ q ≤ bound ∧ (q : Int) ∣ p) := trialDivision_spec p bound hb

example : ∃ b, trialDivision 1001 10 = .ok b ∧ (b = true ↔ ∃ q : Nat, q.Prime ∧ q ≤ 10 ∧ (q : Int) ∣ 1001) := trialDivision_exact 1001 10 (by decide)

/-- Beyond the table the loop reads past its end: here for `p = 32749`, which is prime. -/
theorem trialDivision_beyond_table_undefined : trialDivision 32749 32720 = .error .undefinedBehaviour := by
  unfold trialDivision
  have : ∀ ts : List Nat, (∀ t ∈ ts, t < 32720 ∧ (32749 : Int) % t ≠ 0) → trialLoop 32749 32720 ts = .error .undefinedBehaviour := by
    intro ts
    induction ts with
    | nil => intro _; rfl
    | cons t ts ih =>
      intro h
      rw [trialLoop, if_pos (h t (by simp)).1, if_neg (h t (by simp)).2]
      exact ih (fun s hs => h s (by simp [hs]))
  refine this table (fun t ht => ⟨by have := table_le t ht; omega, fun h => ?_⟩)
  have hp : Nat.Prime 32749 := by norm_num
  have ht' := (mem_table t (table_le t ht)).1 ht
  have hd : t ∣ 32749 := by exact_mod_cast Int.dvd_of_emod_eq_zero h
  rcases (Nat.dvd_prime hp).1 hd with h | h
  · exact ht'.one_lt.ne' h
  · have := table_le t ht; omega

/-- No prime test rejects a prime: the Fermat and strong probable prime tests for every base the prime does not divide, and both Lucas tests for every prime
from 17 on (smaller ones are looked up). -/
theorem tests_accept_primes (p : Nat) (hp : p.Prime) (fuel : Nat) (hf : 2 * p < fuel) :
    (∀ b : Int, ¬(p : Int) ∣ b → isFermat p b = true) ∧ (∀ b : Int, 0 ≤ b → b < fuel → ¬(p : Int) ∣ b → isStrong fuel p b = .ok true) ∧
      (17 ≤ p → isLucas fuel p = .ok true ∧ isStrongLucas fuel p = .ok true) := by
  have := Fact.mk hp
  have hp2 := hp.two_le
  refine ⟨fun b hb => ?_, fun b h0 h1 hb => isStrong_spec fuel (by omega) b h0 h1 (fun h => hb ((ZMod.intCast_zmod_eq_zero_iff_dvd b p).1 h)), fun h =>
    ⟨isLucas_spec fuel hf h, isStrongLucas_spec fuel hf h⟩⟩
  unfold isFermat
  split
  · next h =>
    rcases (show p = 2 ∨ p = 3 by omega) with rfl | rfl <;> rfl
  · rw [beq_iff_eq, (res_powMod (p := p) b (p - 1)).one_iff]
    rw [show ((p : Int) - 1).toNat = p - 1 by omega]
    exact ZMod.pow_card_sub_one_eq_one (fun h => hb ((ZMod.intCast_zmod_eq_zero_iff_dvd b p).1 h))

example : isStrong 1000 ((97 : Nat) : Int) 10 = .ok true ∧ isStrongLucas 1000 ((97 : Nat) : Int) = .ok true :=
  have h := tests_accept_primes 97 (by norm_num) 1000 (by decide)
  ⟨h.2.1 10 (by decide) (by decide) (by decide), (h.2.2 (by decide)).2⟩

/-- `IsPrime` accepts every prime. -/
theorem isPrime_accepts (p : Nat) (hp : p.Prime) (fuel : Nat) (hf : 2 * p < fuel) : isPrime fuel p = .ok true := by
  have := Fact.mk hp
  exact isPrime_of_prime fuel hf

theorem powMod_nat (a e m : Nat) : powMod a e m = ((a ^ e % m : Nat) : Int) := by
  unfold powMod; rw [Int.toNat_natCast]; push_cast; rfl

theorem proves_beyond : provePrime 10000000000 ((1073870923 : Nat) : Int) ((2053 : Nat) : Int) = .ok true := by
  unfold provePrime
  have hr : (((1073870923 : Nat) : Int) - 1) / ((2053 : Nat) : Int) = ((523074 : Nat) : Int) := by decide +kernel
  simp only [hr]
  rw [show isSquare 10000000000 (((523074 : Nat) : Int) % ((2053 : Nat) : Int) * (((523074 : Nat) : Int) % ((2053 : Nat) : Int)) -
    4 * (((523074 : Nat) : Int) / ((2053 : Nat) : Int))) = .ok false by decide +kernel]
  obtain ⟨ts, hts⟩ : ∃ ts, table.take 50 = 2 :: ts := ⟨_, rfl⟩
  rw [hts]
  show (Except.ok (proveLoop _ _ _ (2 :: ts)) : Except Err Bool) = _
  rw [proveLoop]
  rw [powMod_nat, show (2 ^ 523074 % 1073870923 : Nat) = 286579267 by decide +kernel, if_pos (by decide), powMod_nat]
  rw [show (286579267 ^ 2053 % 1073870923 : Nat) = 1 by decide +kernel]
  rfl

/-- A prime beyond the range of trial division. -/
theorem prime_beyond : Nat.Prime 1073870923 :=
  provePrime_sound 10000000000 1073870923 2053 (by decide) (by norm_num) (by decide) (by decide) proves_beyond

example : isPrime 10000000000 ((1073870923 : Nat) : Int) = .ok true := isPrime_accepts 1073870923 prime_beyond 10000000000 (by decide)

/-- `IsPrime` is exact for every number up to 32719². -/
theorem isPrime_exact (n : Int) (hn : n ≤ 32719 * 32719) (fuel : Nat) : ∃ b, isPrime fuel n = .ok b ∧ (b = true ↔ n.toNat.Prime) := isPrime_small fuel n hn

example : ∃ b, isPrime 0 1000000007 = .ok b ∧ (b = true ↔ (1000000007 : Int).toNat.Prime) := isPrime_exact 1000000007 (by decide) 0

/-- `RabinMillerTest` and `VerifyPrime` accept every prime, whatever bases the generator gives. -/
theorem verifyPrime_accepts (p : Nat) (hp : p.Prime) (fuel : Nat) (hf : 2 * p < fuel) (level : Nat) (b1 : Int) (bs : List Int)
    (hb : ∀ b ∈ b1 :: bs, 3 < p → 2 ≤ b ∧ b ≤ p - 2) : rabinMiller fuel p bs = .ok true ∧ verifyPrime fuel p level b1 bs = .ok true := by
  have := Fact.mk hp
  have hp2 := hp.two_le
  have key : ∀ bs : List Int, (∀ b ∈ bs, 3 < p → 2 ≤ b ∧ b ≤ p - 2) → rabinMiller fuel p bs = .ok true := by
    intro bs
    induction bs with
    | nil =>
      intro _
      unfold rabinMiller
      split
      · next h => rcases (show p = 2 ∨ p = 3 by omega) with rfl | rfl <;> rfl
      · rfl
    | cons b bs ih =>
      intro h
      unfold rabinMiller
      split
      · next h => rcases (show p = 2 ∨ p = 3 by omega) with rfl | rfl <;> rfl
      · obtain ⟨h1, h2⟩ := h b (by simp) (by omega)
        simp only []
        rw [(tests_accept_primes p hp fuel hf).2.1 b (by omega) (by omega) (fun hd => by have := Int.le_of_dvd (by omega) hd; omega)]
        exact ih (fun c hc => h c (by simp [hc]))
  refine ⟨key bs (fun b hb' => hb b (by simp [hb'])), ?_⟩
  unfold verifyPrime
  rw [isPrime_of_prime fuel hf]
  show (do let pass ← rabinMiller fuel p [b1]; if 1 ≤ level then (if pass then rabinMiller fuel p bs else pure false) else pure pass) = _
  rw [key [b1] (fun b hb' => hb b (by simp at hb'; simp [hb']))]
  show (if 1 ≤ level then rabinMiller fuel p bs else .ok true) = _
  rw [key bs (fun b hb' => hb b (by simp [hb']))]
  split <;> rfl

example : verifyPrime 1000 ((97 : Nat) : Int) 1 5 [7, 95] = .ok true :=
  (verifyPrime_accepts 97 (by norm_num) 1000 (by decide) 1 5 [7, 95] (by decide)).2

/-- What `VerifyPrime` accepts is prime when it is at most 32719². -/
theorem verifyPrime_exact (n : Int) (hn : n ≤ 32719 * 32719) (fuel level : Nat) (b1 : Int) (bs : List Int) (h : verifyPrime fuel n level b1 bs = .ok true) :
    n.toNat.Prime := by
  obtain ⟨b, e, hb⟩ := isPrime_exact n hn fuel
  cases b with
  | true => exact hb.1 rfl
  | false =>
    unfold verifyPrime at h
    rw [e] at h
    cases h

/-- `MihailescuProvablePrime(rng, pbits)` returns only primes of `pbits` bits, whatever the generator gives. -/
theorem mihailescu_prime (fuel pbits : Nat) (p : Int) (h : Mihailescu fuel pbits p) : p.toNat.Prime ∧ 2 ^ (pbits - 1) ≤ p ∧ p < 2 ^ pbits := mihailescu_sound h

/-- One with the prime `q = 2053` of 12 bits behind it. -/
example : Mihailescu 10000000000 31 ((1073870923 : Nat) : Int) := by
  refine .step (extra := 0) (q := ((2053 : Nat) : Int)) (by decide) (by decide) (.small (by decide) (by decide) (by decide) ?_) (by decide) (by decide) (by decide)
    ((tests_accept_primes 1073870923 prime_beyond 10000000000 (by decide)).2.1 2 (by decide) (by decide) (by decide)) ?_
  · exact isPrime_accepts 2053 (by norm_num) 10000000000 (by decide)
  · exact proves_beyond

/-- `MaurerProvablePrime(rng, bits)`, for `bits` at least 2, returns only primes less than `2^bits` as long as every size drawn for the smaller prime is more
than half of `bits`.  The prime is at least three quarters of `2^(bits-1)`. -/
theorem maurer_prime_partial (fuel bits : Nat) (hb : 2 ≤ bits) (p : Int) (h : Maurer fuel (fun b s => maurerSize b s ∧ b < 2 * s) bits p) :
    p.toNat.Prime ∧ 3 * 2 ^ (bits - 1) ≤ 4 * p ∧ p < 2 ^ bits := maurer_sound (fun _ _ h => h) hb h

/-- The last step of `MaurerProvablePrime`, on natural numbers. -/
theorem maurer_step (fuel : Nat) (sz : Nat → Nat → Prop) (bits size q R a b P : Nat) (hP : R * q * 2 + 1 = P) (hb : ¬bits < 29) (hz : sz bits size)
    (hq : Maurer fuel sz size q) (h1 : 2 ^ (bits - 2) / q ≤ R) (h2 : R ≤ 2 ^ (bits - 2) / q * 2)
    (ht : trialDivision P (min (table.getLastD 0) (bits * bits / 10)) = .ok false) (ha : 2 ≤ a) (ha2 : a < P)
    (hbb : a ^ ((P - 1) / q) % P = b) (hg : gcd fuel ((b : Int) - 1) P = .ok 1) (hp : b ^ q % P = 1) : Maurer fuel sz bits P := by
  have e : ((R : Int) * q * 2 + 1) = (P : Int) := by rw [← hP]; push_cast; rfl
  have e2 : ((P : Int) - 1) / q = (((P - 1) / q : Nat) : Int) := by push_cast [show 1 ≤ P by omega]; rfl
  have := Maurer.step (fuel := fuel) (sz := sz) (bits := bits) (size := size) (q := q) (R := R) (a := a) hb hz hq (by exact_mod_cast h1) (by exact_mod_cast h2)
    (by rw [e]; exact ht) (by omega) (by omega) (by rw [e, e2, powMod_nat, hbb]; exact hg) (by rw [e, e2, powMod_nat, hbb, powMod_nat, hp]; rfl)
  rwa [e] at this

example : Maurer 1000 (fun b s => maurerSize b s ∧ b < 2 * s) 29 ((268483961 : Nat) : Int) :=
  maurer_step 1000 _ 29 15 16411 8180 2 223068179 268483961 (by decide) (by decide) ⟨by unfold maurerSize; decide, by decide⟩
    (.small (by decide) (by decide) (by decide) (by decide) (by decide +kernel)) (by decide) (by decide) (by decide +kernel) (by decide) (by decide)
    (by decide +kernel) (by decide +kernel) (by decide +kernel)

/-- A composite number can come out when the size drawn is exactly half: 16487² for 29 bits, from the 14-bit prime 8243, with 16487 = 2 · 8243 + 1. -/
theorem maurer_composite : Maurer 1000 maurerSize 29 ((271821169 : Nat) : Int) ∧ 271821169 = 16487 * 16487 := by
  refine ⟨maurer_step 1000 _ 29 14 8243 16488 140419781 144294240 271821169 (by decide) (by decide) (by unfold maurerSize; decide)
    (.small (by decide) (by decide) (by decide) (by decide) (by decide +kernel)) (by decide) (by decide) (by decide +kernel) (by decide) (by decide)
    (by decide +kernel) (by decide +kernel) (by decide +kernel), by decide⟩

/-- A prime can have fewer bits than asked for: 28 for 29. -/
theorem maurer_short : Maurer 1000 maurerSize 29 ((267918323 : Nat) : Int) ∧ 267918323 < 2 ^ 28 := by
  refine ⟨maurer_step 1000 _ 29 19 262151 511 2 57573944 267918323 (by decide) (by decide) (by unfold maurerSize; decide)
    (.small (by decide) (by decide) (by decide) (by decide) (by decide +kernel)) (by decide) (by decide) (by decide +kernel) (by decide) (by decide)
    (by decide +kernel) (by decide +kernel) (by decide +kernel), by decide⟩

/-- For one bit the result is 1, which is not a prime. -/
theorem maurer_one_bit : Maurer 1000 maurerSize 1 1 ∧ ¬Nat.Prime 1 :=
  ⟨.small (by decide) (by decide) (by decide) (by decide) (by decide +kernel), Nat.not_prime_one⟩

/-- The generator `PrimeAndGenerator` chooses for `p = 2q + 1`: it finds one, between 2 and 4, whose order modulo `p` is `q`. -/
theorem safeGenerator_exact (p q : Nat) (hp : p.Prime) (hq : q.Prime) (hpq : p = 2 * q + 1) (fuel : Nat) (hf : p ≤ fuel) :
    ∃ g, safeGenerator fuel p = .ok g ∧ 2 ≤ g ∧ g ≤ 4 ∧ orderOf ((g : Int) : ZMod p) = q := by
  have := hq.two_le
  obtain ⟨g, h1, h2, h3, h4⟩ := residue_spec p hp (by omega) fuel hf
  exact ⟨g, h1, h2, h3, safe_order p q hp hq hpq g h2 h3 h4⟩

example : ∃ g, safeGenerator 100 ((23 : Nat) : Int) = .ok g ∧ 2 ≤ g ∧ g ≤ 4 ∧ orderOf ((g : Int) : ZMod 23) = 11 :=
  safeGenerator_exact 23 11 (by norm_num) (by norm_num) rfl 100 (by decide)

/-- The generator it chooses otherwise, for primes `p` and `q` with `q` dividing `p - 1`, has order `q` modulo `p`, whatever values `h` takes. -/
theorem subgroupGenerator_exact (p q : Nat) (hp : p.Prime) (hq : q.Prime) (hd : q ∣ p - 1) (hs : List Int) (g : Int) (h : subgroupGenerator p q hs = .ok g) :
    1 < g ∧ g < p ∧ orderOf ((g : Int) : ZMod p) = q := subgroup_order p q hp hq hd hs g h

example : (1 : Int) < 25 ∧ (25 : Int) < (31 : Nat) ∧ orderOf (((25 : Int) : ZMod 31)) = 3 :=
  subgroupGenerator_exact 31 3 (by norm_num) (by norm_num) (by decide) [30, 29, 3] 25 (by decide +kernel)

end Verif.Nbt
