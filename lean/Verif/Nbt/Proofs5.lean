import Verif.Nbt.Proofs4

namespace Verif.Nbt
open Verif.Dl (invMod)
open Verif.Rsa (powMod crt modularRoot)
open NumberTheorySymbols

/-! ## Trial division -/

theorem trialLoop_spec (p : Int) (bound : Nat) : ∀ ts : List Nat, ts.Pairwise (· < ·) → (∃ t ∈ ts, bound ≤ t) →
    ∃ b, trialLoop p bound ts = .ok b ∧ (b = true ↔ ∃ t ∈ ts, t ≤ bound ∧ p % t = 0)
  | [], _, h => by obtain ⟨t, ht, _⟩ := h; simp at ht
  | t :: ts, hs, h => by
    rw [trialLoop]
    by_cases ht : t < bound
    · rw [if_pos ht]
      by_cases h0 : p % t = 0
      · rw [if_pos h0]
        exact ⟨true, rfl, by simp only [true_iff]; exact ⟨t, List.mem_cons_self, ht.le, h0⟩⟩
      · rw [if_neg h0]
        obtain ⟨s, hs1, hs2⟩ := h
        have hst : s ∈ ts := by
          rcases List.mem_cons.1 hs1 with rfl | h
          · omega
          · exact h
        obtain ⟨b, e, hb⟩ := trialLoop_spec p bound ts hs.of_cons ⟨s, hst, hs2⟩
        refine ⟨b, e, hb.trans ⟨fun ⟨u, hu, h1⟩ => ⟨u, List.mem_cons_of_mem _ hu, h1⟩, fun ⟨u, hu, h1, h2⟩ => ?_⟩⟩
        rcases List.mem_cons.1 hu with rfl | hu
        · exact absurd h2 h0
        · exact ⟨u, hu, h1, h2⟩
    · rw [if_neg ht]
      refine ⟨_, rfl, ?_⟩
      rw [Bool.and_eq_true, beq_iff_eq, beq_iff_eq]
      constructor
      · rintro ⟨rfl, h0⟩
        exact ⟨bound, List.mem_cons_self, le_refl _, h0⟩
      · rintro ⟨u, hu, h1, h2⟩
        rcases List.mem_cons.1 hu with rfl | hu
        · have : bound = u := by omega
          subst this; exact ⟨rfl, h2⟩
        · have := List.rel_of_pairwise_cons hs hu
          omega

theorem prime_32719 : Nat.Prime 32719 := by norm_num

theorem mem_last : 32719 ∈ table := (mem_table 32719 (le_refl _)).2 prime_32719

theorem trialDivision_spec (p : Int) (bound : Nat) (hb : bound ≤ 32719) :
    ∃ b, trialDivision p bound = .ok b ∧ (b = true ↔ ∃ q : Nat, q.Prime ∧ q ≤ bound ∧ (q : Int) ∣ p) := by
  obtain ⟨b, e, h⟩ := trialLoop_spec p bound table table_sorted ⟨32719, mem_last, hb⟩
  refine ⟨b, e, h.trans ⟨fun ⟨t, h1, h2, h3⟩ => ⟨t, (mem_table t (table_le t h1)).1 h1, h2, Int.dvd_of_emod_eq_zero h3⟩, fun ⟨q, h1, h2, h3⟩ => ?_⟩⟩
  exact ⟨q, (mem_table q (by omega)).2 h1, h2, Int.emod_eq_zero_of_dvd h3⟩

theorem smallDivisorsTest_spec (p : Int) : ∃ b, smallDivisorsTest p = .ok b ∧ (b = true ↔ ∀ q : Nat, q.Prime → q ≤ 32719 → ¬(q : Int) ∣ p) := by
  obtain ⟨b, e, h⟩ := trialDivision_spec p 32719 (le_refl _)
  refine ⟨!b, by unfold smallDivisorsTest; rw [table_last, e]; rfl, ?_⟩
  rw [Bool.not_eq_true', ← Bool.not_eq_true, h]
  push Not
  exact ⟨fun h q a b c => h q a b c, fun h q a b c => h q a b c⟩

theorem isSmallPrime_spec (p : Int) (hp : p ≤ 32719) : isSmallPrime p = true ↔ p.toNat.Prime := by
  unfold isSmallPrime
  rw [table_last, Bool.and_eq_true, Bool.and_eq_true, decide_eq_true_iff, decide_eq_true_iff, List.contains_iff_mem, mem_table p.toNat (by omega)]
  constructor
  · exact fun h => h.2
  · intro h
    have := h.two_le
    exact ⟨⟨by omega, by omega⟩, h⟩

/-- Below the square of the last small prime trial division decides. -/
theorem smallDivisors_prime (n : Nat) (h1 : 32719 < n) (h2 : n ≤ 32719 * 32719) : (∀ q : Nat, q.Prime → q ≤ 32719 → ¬(q : Int) ∣ n) ↔ n.Prime := by
  constructor
  · intro h
    by_contra hc
    have hm := Nat.minFac_sq_le_self (by omega) hc
    refine h n.minFac (Nat.minFac_prime (by omega)) ?_ (Int.natCast_dvd_natCast.2 (Nat.minFac_dvd n))
    nlinarith
  · intro h q hq hle hd
    rcases (Nat.dvd_prime h).1 (Int.natCast_dvd_natCast.1 hd) with h | h
    · exact hq.one_lt.ne' h
    · omega

variable {p : Nat} [hp : Fact p.Prime]

theorem smallDivisors_of_prime (h1 : 32719 < p) : smallDivisorsTest p = .ok true := by
  obtain ⟨b, e, h⟩ := smallDivisorsTest_spec p
  rw [e, h.2]
  intro q hq hle hd
  rcases (Nat.dvd_prime hp.out).1 (Int.natCast_dvd_natCast.1 hd) with h | h
  · exact hq.one_lt.ne' h
  · omega

/-! ## Strong probable primes -/

theorem res_neg_one : Res p (p - 1) (-1 : ZMod p) := ⟨by have := pp (p := p); omega, by omega, by simp⟩

theorem strongLoop_spec : ∀ (k : Nat) (z : Int) (Z : ZMod p), Res p z Z → Z ≠ 1 → Z ≠ -1 → Z ^ 2 ^ (k + 1) = 1 → strongLoop p k z = true
  | 0, z, Z, _, h1, h2, h3 => by
    exfalso
    rw [zero_add, pow_one, pow_two] at h3
    rcases mul_self_eq_one_iff.1 h3 with h | h
    · exact h1 h
    · exact h2 h
  | k + 1, z, Z, hz, h1, h2, h3 => by
    rw [strongLoop]
    have hz2 := res_mul hz hz
    by_cases hn : Z * Z = -1
    · simp only [show z * z % (p : Int) = p - 1 from (hn ▸ hz2).inj res_neg_one, if_true]
    · have hm : z * z % (p : Int) ≠ p - 1 := fun e => hn (by rw [← hz2.2.2, e]; simp)
      have ho : Z * Z ≠ 1 := fun e => by
        rcases mul_self_eq_one_iff.1 e with h | h
        · exact h1 h
        · exact h2 h
      have ho' : z * z % (p : Int) ≠ 1 := fun e => ho (hz2.one_iff.1 e)
      simp only [if_neg hm, if_neg ho']
      refine strongLoop_spec k _ _ hz2 ho hn ?_
      rw [← pow_two, ← pow_mul, ← pow_succ']; exact h3

theorem isStrong_spec (fuel : Nat) (hF : p ≤ fuel) (b : Int) (hb0 : 0 ≤ b) (hbf : b < fuel) (hb : (b : ZMod p) ≠ 0) : isStrong fuel p b = .ok true := by
  unfold isStrong
  have h2 := hp.out.two_le
  by_cases h3 : (p : Int) ≤ 3
  · rw [if_pos h3]
    have : p = 2 ∨ p = 3 := by omega
    rcases this with rfl | rfl <;> rfl
  · rw [if_neg h3]
    have hodd : p % 2 = 1 := by
      rcases hp.out.eq_two_or_odd with h | h
      · omega
      · exact h
    rw [if_neg (by omega)]
    obtain ⟨g, eg, hg, hg0⟩ := gcdLoop_spec fuel p b (by omega)
    have hbp : b % p ≠ 0 := fun h => hb ((ZMod.intCast_zmod_eq_zero_iff_dvd b p).2 (Int.dvd_of_emod_eq_zero h))
    have hg1 : g = 1 := by
      have h1 := Dl.gcd_prime' p hp.out b hbp
      have := hg0 (by omega) hb0
      rw [Int.gcd_comm, h1] at hg
      omega
    unfold gcd
    rw [eg]
    simp only [hg1, ne_eq, not_true_eq_false, if_false]
    obtain ⟨a, c, ea, hac, hc⟩ := lowBit_ok ((p : Int) - 1).natAbs (by omega) fuel (by omega)
    rw [ea]
    have hpc : p - 1 = 2 ^ a * c := by rw [← hac]; omega
    have hm : ((p : Int) - 1) / 2 ^ a = c := by
      have : ((p : Int) - 1) = 2 ^ a * (c : Int) := by
        have : ((p - 1 : Nat) : Int) = ((2 ^ a * c : Nat) : Int) := by rw [hpc]
        push_cast [show 1 ≤ p by omega] at this
        exact this
      rw [this, Int.mul_ediv_cancel_left _ (by positivity)]
    simp only [hm]
    have hz := res_powMod (p := p) b c
    rw [Int.toNat_natCast] at hz
    have ha : a ≠ 0 := by rintro rfl; rw [pow_zero, one_mul] at hpc; omega
    by_cases h : powMod b c p = 1 ∨ powMod b c p = (p : Int) - 1
    · rw [if_pos h]
    · rw [if_neg h]
      congr 1
      refine strongLoop_spec (a - 1) _ _ hz (fun e => h (Or.inl (hz.one_iff.2 e))) (fun e => h (Or.inr ((e ▸ hz).inj res_neg_one))) ?_
      rw [← pow_mul, show a - 1 + 1 = a by omega, mul_comm, ← hpc]
      exact ZMod.pow_card_sub_one_eq_one hb

/-! ## Strong Lucas probable primes -/

theorem symbol_pm {k : Nat} (h0 : 0 < k) (hk : k < p) : J((k : Int) | p) = 1 ∨ J((k : Int) | p) = -1 := by
  refine jacobiSym.eq_one_or_neg_one ?_
  rw [Int.gcd_natCast_natCast]
  exact ((Nat.Prime.coprime_iff_not_dvd hp.out).2 (Nat.not_dvd_of_pos_of_lt h0 hk)).symm

/-- Among the odd numbers from 3 to `p - 4` there is one whose discriminant has the symbol -1. -/
theorem lucasBase_exists (h17 : 17 ≤ p) : ∃ b : Nat, b % 2 = 1 ∧ 3 ≤ b ∧ b ≤ p - 4 ∧ J((b * b - 4 : Int) | p) = -1 := by
  have hodd : p % 2 = 1 := by
    rcases hp.out.eq_two_or_odd with h | h
    · omega
    · exact h
  by_contra hcon
  push Not at hcon
  -- every number from 3 to p - 3 has the symbol 1
  have nz : ∀ b : Nat, 3 ≤ b → b ≤ p - 3 → J((b * b - 4 : Int) | p) = J(((b - 2 : Nat) : Int) | p) * J(((b + 2 : Nat) : Int) | p) := fun b h1 h2 => by
    rw [← jacobiSym.mul_left]
    congr 1
    push_cast [show 2 ≤ b by omega]
    ring
  have h1 : ∀ b : Nat, 3 ≤ b → b ≤ p - 3 → J((b * b - 4 : Int) | p) = 1 := by
    have hoddc : ∀ b : Nat, b % 2 = 1 → 3 ≤ b → b ≤ p - 4 → J((b * b - 4 : Int) | p) = 1 := fun b h h3 h4 => by
      have := hcon b h h3 h4
      rw [nz b h3 (by omega)] at this ⊢
      rcases symbol_pm (p := p) (k := b - 2) (by omega) (by omega) with e1 | e1 <;> rcases symbol_pm (p := p) (k := b + 2) (by omega) (by omega) with e2 | e2 <;>
        rw [e1, e2] at this ⊢ <;> simp at this ⊢
    intro b h3 h4
    by_cases hb : b % 2 = 1
    · exact hoddc b hb h3 (by omega)
    · rw [← hoddc (p - b) (by omega) (by omega) (by omega)]
      refine jacobiSym.mod_left' ?_
      have : ((p - b : Nat) : Int) = p - b := by omega
      rw [this]
      refine (Int.modEq_iff_dvd).2 ⟨p - 2 * b, ?_⟩
      ring
  have step : ∀ c : Nat, 1 ≤ c → c + 5 ≤ p → J((c : Int) | p) = J(((c + 4 : Nat) : Int) | p) := fun c h3 h4 => by
    have e := h1 (c + 2) (by omega) (by omega)
    rw [nz (c + 2) (by omega) (by omega), show c + 2 - 2 = c by omega, show c + 2 + 2 = c + 4 by omega] at e
    rcases symbol_pm (p := p) (k := c) (by omega) (by omega) with e1 | e1 <;> rcases symbol_pm (p := p) (k := c + 4) (by omega) (by omega) with e2 | e2 <;>
      rw [e1, e2] at e ⊢ <;> simp at e
  have h4 : J(((4 : Nat) : Int) | p) = 1 := by
    have := jacobiSym.at_four (b := p) (Nat.odd_iff.2 hodd)
    exact_mod_cast this
  have h4k : ∀ k : Nat, 1 ≤ k → 4 * k + 1 ≤ p → J(((4 * k : Nat) : Int) | p) = 1 := by
    intro k hk
    induction k, hk using Nat.le_induction with
    | base => exact fun _ => h4
    | succ k hk ih =>
      intro h
      rw [show 4 * (k + 1) = 4 * k + 4 by ring, ← step (4 * k) (by omega) (by omega)]
      exact ih (by omega)
  have hk : ∀ k : Nat, 1 ≤ k → 4 * k < p → J((k : Int) | p) = 1 := fun k h h' => by
    have := h4k k h h'
    rwa [Nat.cast_mul, jacobiSym.mul_left, h4, one_mul] at this
  -- the least non-residue
  have hex : ∃ q : Nat, 0 < q ∧ J((q : Int) | p) = -1 := by
    obtain ⟨n, a, b, c⟩ := exists_neg (p := p) hodd
    exact ⟨n, by omega, c⟩
  classical
  obtain ⟨q, ⟨hq0, hqj⟩, hmin⟩ : ∃ q : Nat, (0 < q ∧ J((q : Int) | p) = -1) ∧ ∀ m < q, ¬(0 < m ∧ J((m : Int) | p) = -1) :=
    ⟨Nat.find hex, Nat.find_spec hex, fun m hm => Nat.find_min hex hm⟩
  have hqp : q < p := by
    obtain ⟨n, a, b, c⟩ := exists_neg (p := p) hodd
    by_contra h
    exact hmin n (by omega) ⟨by omega, c⟩
  have hres : ∀ m : Nat, 0 < m → m < q → J((m : Int) | p) = 1 := fun m h0 hlt =>
    (symbol_pm h0 (by omega)).resolve_right (fun h => hmin m hlt ⟨h0, h⟩)
  have hq4 : p < 4 * q := by
    by_contra h
    have h' : 4 * q ≤ p := by omega
    have : 4 * q ≠ p := fun e => by omega
    have := hk q hq0 (by omega)
    rw [this] at hqj
    exact absurd hqj (by decide)
  have hq1 : q ≠ 1 := by rintro rfl; omega
  have hr0 : p % q ≠ 0 := fun h => by
    rcases (Nat.dvd_prime hp.out).1 (Nat.dvd_of_mod_eq_zero h) with h | h
    · exact hq1 h
    · omega
  have hdm := Nat.div_add_mod p q
  have hml := Nat.mod_lt p hq0
  have hd3 : p / q ≤ 3 := Nat.lt_succ_iff.1 (Nat.div_lt_of_lt_mul (by omega))
  -- the multiple of q just above p
  have hmul : J(((p / q + 1 : Nat) : Int) | p) * J((q : Int) | p) = J(((q - p % q : Nat) : Int) | p) := by
    rw [← jacobiSym.mul_left]
    refine jacobiSym.mod_left' ?_
    have : (((p / q + 1 : Nat) : Int)) * q = ((q - p % q : Nat) : Int) + p := by
      have : (p / q + 1) * q = q - p % q + p := by
        have h1 : (p / q + 1) * q = q * (p / q) + q := by ring
        omega
      exact_mod_cast this
    rw [this, Int.add_emod_right]
  rw [hqj, hres (q - p % q) (by omega) (by omega), hres (p / q + 1) (Nat.succ_pos _) (by clear hmul; omega)] at hmul
  exact absurd hmul (by decide)

theorem lucasBase_spec (F : Nat) (hF : 2 * p < F) (h2 : p % 2 = 1) : ∀ (f d b i : Nat), d < f → 3 ≤ b → b + 2 * d ≤ p - 4 →
    J((((b + 2 * d : Nat) : Int) * ((b + 2 * d : Nat) : Int) - 4) | p) = -1 →
    ∃ b' : Nat, lucasBase F p f b i = .ok (some ((b' : Int), -1)) ∧ J(((b' : Int) * b' - 4) | p) = -1
  | 0, _, _, _, h, _, _, _ => by omega
  | f + 1, d, b, i, hd, hb, hbd, hj => by
    rw [lucasBase, jacobi_spec F _ p h2 (by omega)]
    have hpm : J(((b : Int) * b - 4) | p) = 1 ∨ J(((b : Int) * b - 4) | p) = -1 := by
      have : ((b : Int) * b - 4) = ((b - 2 : Nat) : Int) * ((b + 2 : Nat) : Int) := by push_cast [show 2 ≤ b by omega]; ring
      rw [this, jacobiSym.mul_left]
      rcases symbol_pm (p := p) (k := b - 2) (by omega) (by omega) with e1 | e1 <;> rcases symbol_pm (p := p) (k := b + 2) (by omega) (by omega) with e2 | e2 <;>
        rw [e1, e2] <;> simp
    have hsq : isSquare F p = .ok false := by
      obtain ⟨s, es, hs⟩ := isSquare_spec (p : Int) F (by omega)
      rw [es]
      congr 1
      rw [← Bool.not_eq_true, hs]
      rintro ⟨r, hr⟩
      have h1 : r.natAbs * r.natAbs = p := by
        have := congrArg Int.natAbs hr
        rwa [Int.natAbs_mul, Int.natAbs_natCast] at this
      rcases (Nat.dvd_prime hp.out).1 ⟨r.natAbs, h1.symm⟩ with h | h
      · rw [h, one_mul] at h1; exact absurd h1 hp.out.one_lt.ne
      · rw [h] at h1; nlinarith [hp.out.two_le]
    rcases hpm with h | h
    · have hd0 : d ≠ 0 := by
        rintro rfl
        rw [Nat.mul_zero, Nat.add_zero, h] at hj
        exact absurd hj (by decide)
      have ih := lucasBase_spec F hF h2 f (d - 1) (b + 2) (i + 1) (by omega) (by omega) (by omega) (by rw [show b + 2 + 2 * (d - 1) = b + 2 * d by omega]; exact hj)
      have hc : (((b + 2 : Nat)) : Int) = (b : Int) + 2 := by push_cast; rfl
      rw [hc] at ih
      simp only [h, if_true, hsq, Bool.false_eq_true, if_false, ite_self]
      exact ih
    · refine ⟨b, ?_, h⟩
      simp only [h]
      rfl

theorem res_two (h3 : 3 ≤ p) : Res p 2 (2 : ZMod p) := ⟨by omega, by omega, by simp⟩
theorem res_neg_two (h3 : 3 ≤ p) : Res p (p - 2) (-2 : ZMod p) := ⟨by omega, by omega, by simp⟩

theorem strongLucasLoop_spec (h3 : 3 ≤ p) : ∀ (k : Nat) (z : Int) (W U : K p), W * U = 1 → 0 ≤ z → z < p → W + U = (z : K p) → z ≠ 2 → z ≠ p - 2 →
    W ^ 2 ^ (k + 1) = 1 → strongLucasLoop p k z = true
  | 0, z, W, U, hWU, h0, hl, hz, hz2, hzn, hW => by
    exfalso
    rw [zero_add, pow_one, pow_two] at hW
    rcases mul_self_eq_one_iff.1 hW with h | h
    · have hU : U = 1 := by rw [h, one_mul] at hWU; exact hWU
      rw [h, hU] at hz
      have : ((z : Int) : ZMod p) = ((2 : Int) : ZMod p) := (cast_K _ _).1 (by rw [← hz]; push_cast; ring)
      exact hz2 (Res.inj ⟨h0, hl, this⟩ (by exact_mod_cast res_two h3))
    · have hU : U = -1 := by rw [h] at hWU; linear_combination -hWU
      rw [h, hU] at hz
      have : ((z : Int) : ZMod p) = ((-2 : Int) : ZMod p) := (cast_K _ _).1 (by rw [← hz]; push_cast; ring)
      exact hzn (Res.inj ⟨h0, hl, this⟩ (by exact_mod_cast res_neg_two h3))
  | k + 1, z, W, U, hWU, h0, hl, hz, hz2, hzn, hW => by
    rw [strongLucasLoop]
    have hpp := pp (p := p)
    have hz' : W ^ 2 + U ^ 2 = (((z * z - 2) % p : Int) : K p) := by
      rw [(cast_K ((z * z - 2) % p) (z * z - 2)).2 (cast_emod _), Int.cast_sub, Int.cast_mul, ← hz]
      push_cast
      linear_combination -2 * hWU
    by_cases h1 : (z * z - 2) % (p : Int) = p - 2
    · simp only [h1, if_true]
    · by_cases h2 : (z * z - 2) % (p : Int) = 2
      · exfalso
        rw [h2] at hz'
        have hWU2 : W ^ 2 * U ^ 2 = 1 := by rw [← mul_pow, hWU, one_pow]
        have : (W ^ 2 - 1) ^ 2 = 0 := by push_cast at hz'; linear_combination W ^ 2 * hz' - hWU2
        have hW1 : W * W = 1 := by have := pow_eq_zero_iff (two_ne_zero) |>.1 this; linear_combination this
        have hs := strongLucasLoop_spec h3 0 z W U hWU h0 hl hz hz2 hzn (by rw [zero_add, pow_one, pow_two]; exact hW1)
        simp [strongLucasLoop] at hs
      · simp only [if_neg h1, if_neg h2]
        refine strongLucasLoop_spec h3 k _ (W ^ 2) (U ^ 2) (by rw [← mul_pow, hWU, one_pow]) (Int.emod_nonneg _ hpp.ne') (Int.emod_lt_of_pos _ hpp) hz' h2 h1 ?_
        rw [← pow_mul, ← pow_succ']; exact hW

theorem search (fuel : Nat) (hF : 2 * p < fuel) (h17 : 17 ≤ p) : ∃ b : Nat, lucasBase fuel p fuel 3 0 = .ok (some ((b : Int), -1)) ∧ J(((b : Int) * b - 4) | p) = -1 := by
  have hodd : p % 2 = 1 := by
    rcases hp.out.eq_two_or_odd with h | h
    · omega
    · exact h
  obtain ⟨b, h1, h2, h3, h4⟩ := lucasBase_exists (p := p) h17
  have := lucasBase_spec fuel hF hodd fuel ((b - 3) / 2) 3 0 (by omega) (by omega) (by omega) (by rw [show 3 + 2 * ((b - 3) / 2) = b by omega]; exact h4)
  exact this

theorem isStrongLucas_spec (fuel : Nat) (hF : 2 * p < fuel) (h17 : 17 ≤ p) : isStrongLucas fuel p = .ok true := by
  have hodd : p % 2 = 1 := by
    rcases hp.out.eq_two_or_odd with h | h
    · omega
    · exact h
  obtain ⟨b, e, hj⟩ := search fuel hF h17
  unfold isStrongLucas
  rw [if_neg (by omega), if_neg (by omega), e]
  obtain ⟨a, c, ea, hac, hc⟩ := lowBit_ok ((p : Int) + 1).natAbs (by omega) fuel (by omega)
  have hpc : p + 1 = 2 ^ a * c := by rw [← hac]; omega
  have hm : ((p : Int) + 1) / 2 ^ a = c := by
    have : ((p : Int) + 1) = 2 ^ a * (c : Int) := by exact_mod_cast hpc
    rw [this, Int.mul_ediv_cancel_left _ (by positivity)]
  have ha : a ≠ 0 := by rintro rfl; rw [pow_zero, one_mul] at hpc; omega
  simp only [show ¬((-1 : Int) = 0) by decide, if_false, ea, hm, lucas_spec' (c : Int) (b : Int) (by omega) p (by omega) hodd, Int.toNat_natCast]
  by_cases h : V b c % (p : Int) = 2 ∨ V b c % (p : Int) = p - 2
  · rw [if_pos h]
  · rw [if_neg h]
    congr 1
    have hpp := pp (p := p)
    obtain ⟨α, β, hab, hs, _, _, h3, _⟩ := roots (p := p) hodd (b : Int)
    have hα := h3 hj
    refine strongLucasLoop_spec (by omega) (a - 1) _ (α ^ c) (β ^ c) (by rw [← mul_pow, hab, one_pow]) (Int.emod_nonneg _ hpp.ne') (Int.emod_lt_of_pos _ hpp) ?_
      (fun e => h (Or.inl e)) (fun e => h (Or.inr e)) ?_
    · rw [(cast_K (V b c % p) (V b c)).2 (cast_emod _), V_roots _ hab hs]
    · rw [← pow_mul, show a - 1 + 1 = a by omega, mul_comm, ← hpc]; exact hα

theorem isLucas_spec (fuel : Nat) (hF : 2 * p < fuel) (h17 : 17 ≤ p) : isLucas fuel p = .ok true := by
  have hodd : p % 2 = 1 := by
    rcases hp.out.eq_two_or_odd with h | h
    · omega
    · exact h
  obtain ⟨b, e, hj⟩ := search fuel hF h17
  unfold isLucas
  rw [if_neg (by omega), if_neg (by omega), e]
  simp only [show ¬((-1 : Int) = 0) by decide, if_false, lucas_spec' ((p : Int) + 1) (b : Int) (by omega) p (by omega) hodd]
  rw [show ((p : Int) + 1).toNat = p + 1 by omega]
  congr 1
  rw [beq_iff_eq]
  obtain ⟨α, β, hab, hs, _, _, h3, _⟩ := roots (p := p) hodd (b : Int)
  have hα := h3 hj
  have hβ : β ^ (p + 1) = 1 := by
    have : (α * β) ^ (p + 1) = 1 := by rw [hab, one_pow]
    rwa [mul_pow, hα, one_mul] at this
  have hV : ((V b (p + 1) : Int) : ZMod p) = ((2 : Int) : ZMod p) := (cast_K _ _).1 (by rw [V_roots _ hab hs, hα, hβ]; push_cast; ring)
  have := res_mod (p := p) (V b (p + 1))
  rw [hV] at this
  exact this.inj (by exact_mod_cast res_two (by omega))

/-- No prime is rejected. -/
theorem isPrime_of_prime (fuel : Nat) (hF : 2 * p < fuel) : isPrime fuel p = .ok true := by
  unfold isPrime lastSmallPrime
  by_cases h1 : (p : Int) ≤ (32719 : Nat)
  · rw [if_pos h1]; congr 1
    exact (isSmallPrime_spec p (by omega)).2 (by rw [Int.toNat_natCast]; exact hp.out)
  · rw [if_neg h1]
    have hs := smallDivisors_of_prime (p := p) (by omega)
    split
    · exact hs
    · have h3 : ((3 : Int) : ZMod p) ≠ 0 := fun h => by
        have h' := (ZMod.intCast_zmod_eq_zero_iff_dvd 3 p).1 h
        have := Int.le_of_dvd (by omega) h'
        omega
      rw [hs, isStrong_spec fuel (by omega) 3 (by omega) (by omega) h3, isStrongLucas_spec fuel hF (by omega)]
      rfl

theorem isPrime_small (fuel : Nat) (n : Int) (hn : n ≤ 32719 * 32719) : ∃ b, isPrime fuel n = .ok b ∧ (b = true ↔ n.toNat.Prime) := by
  unfold isPrime lastSmallPrime
  by_cases h1 : n ≤ (32719 : Nat)
  · rw [if_pos h1]
    exact ⟨_, rfl, isSmallPrime_spec n (by omega)⟩
  · rw [if_neg h1, if_pos (by omega)]
    obtain ⟨b, e, hb⟩ := smallDivisorsTest_spec n
    refine ⟨b, e, hb.trans ?_⟩
    obtain ⟨m, rfl⟩ : ∃ m : Nat, n = m := ⟨n.toNat, by omega⟩
    rw [Int.toNat_natCast]
    exact smallDivisors_prime m (by omega) (by omega)

end Verif.Nbt
