import Mathlib.FieldTheory.Finite.Basic
import Verif.Dl.Proofs
import Verif.Rsa.Model

namespace Verif.Rsa
open Verif.Dl

/-- Fermat: an exponent that is 1 modulo `p - 1` does nothing modulo `p`. -/
theorem fermat (p : Nat) (hp : p.Prime) (a : Int) (k : Nat) (hk : 0 < k) (h : (k : Int) ≡ 1 [ZMOD (p - 1 : Int)]) : a ^ k ≡ a [ZMOD p] := by
  have hp1 := hp.one_lt
  by_cases hd : (p : Int) ∣ a
  · have h1 : a ≡ 0 [ZMOD p] := Int.modEq_zero_iff_dvd.mpr hd
    have h2 := h1.pow k
    rw [zero_pow (by omega)] at h2
    exact h2.trans h1.symm
  · have hc : IsCoprime a p := by
      refine IsCoprime.symm ?_
      exact ((Nat.prime_iff_prime_int.mp hp).coprime_iff_not_dvd).mpr hd
    have hf := Int.ModEq.pow_card_sub_one_eq_one hp hc
    have h' : ((p - 1 : Nat) : Int) ∣ ((k - 1 : Nat) : Int) := by
      have := h.symm.dvd
      rw [Nat.cast_sub (by omega), Nat.cast_sub (by omega)]
      exact_mod_cast this
    obtain ⟨c, hc⟩ := Int.natCast_dvd_natCast.mp h'
    have hk' : k = (p - 1) * c + 1 := by omega
    rw [hk', pow_succ, pow_mul]
    have := (hf.pow c).mul_right a
    rwa [one_pow, one_mul] at this

theorem powMod_modEq (a e m : Int) : powMod a e m ≡ a ^ e.toNat [ZMOD m] := Int.mod_modEq _ _

/-- The Chinese remainder theorem as the code computes it. -/
theorem crt_spec (xp p xq q u : Int) (hq : 0 < q) (hx : 0 ≤ xp) (hxp : xp < p) (hu : u * p ≡ 1 [ZMOD q]) :
    (0 ≤ crt xp p xq q u ∧ crt xp p xq q u < p * q) ∧ crt xp p xq q u ≡ xp [ZMOD p] ∧ crt xp p xq q u ≡ xq [ZMOD q] := by
  unfold crt
  have h0 := Int.emod_nonneg (u * (xq - xp)) (by omega : q ≠ 0)
  have h1 := Int.emod_lt_of_pos (u * (xq - xp)) hq
  refine ⟨⟨?_, ?_⟩, ?_, ?_⟩
  · have := Int.mul_nonneg (show 0 ≤ p by omega) h0; omega
  · generalize u * (xq - xp) % q = t at *
    have h2 : t ≤ q - 1 := by omega
    have := Int.mul_le_mul_of_nonneg_left h2 (show 0 ≤ p by omega)
    rw [mul_sub, mul_one] at this
    omega
  · rw [add_comm]; exact Int.modEq_add_fac_self
  · have : p * (u * (xq - xp) % q) ≡ p * (u * (xq - xp)) [ZMOD q] := Int.ModEq.mul_left _ (Int.mod_modEq _ _)
    calc p * (u * (xq - xp) % q) + xp ≡ p * (u * (xq - xp)) + xp [ZMOD q] := Int.ModEq.add_right _ this
      _ = (u * p) * (xq - xp) + xp := by ring
      _ ≡ 1 * (xq - xp) + xp [ZMOD q] := Int.ModEq.add_right _ (Int.ModEq.mul_right _ hu)
      _ = xq := by ring

/-- What a private key has to satisfy. -/
structure Key.Valid (k : Key) (p q : Nat) : Prop where
  hp : p.Prime
  hq : q.Prime
  ne : p ≠ q
  kp : k.p = p
  kq : k.q = q
  kn : k.n = p * q
  e_pos : 0 < k.e
  d_pos : 0 < k.d
  dp : k.dp = k.d % (p - 1)
  dq : k.dq = k.d % (q - 1)
  dp_pos : 0 < k.dp
  dq_pos : 0 < k.dq
  edp : k.e * k.d ≡ 1 [ZMOD (p - 1 : Int)]
  edq : k.e * k.d ≡ 1 [ZMOD (q - 1 : Int)]
  u : k.u * k.q ≡ 1 [ZMOD k.p]

variable {k : Key} {p q : Nat}

theorem modEq_pq (hp : p.Prime) (hq : q.Prime) (hne : p ≠ q) (a b : Int) (h1 : a ≡ b [ZMOD p]) (h2 : a ≡ b [ZMOD q]) : a ≡ b [ZMOD (p * q : Int)] := by
  have hc : IsCoprime (p : Int) (q : Int) := Nat.isCoprime_iff_coprime.mpr ((Nat.coprime_primes hp hq).mpr hne)
  exact (Int.modEq_iff_dvd.mpr (hc.mul_dvd h1.dvd h2.dvd))

theorem invMod_ne_zero (r n : Int) (hn : 1 < n) : invMod r n ≠ 0 ↔ Int.gcd r n = 1 := by
  constructor
  · intro h
    by_contra hc
    exact h (by unfold invMod; rw [if_neg hc])
  · intro h hc
    have := mul_invMod r n (by omega) h
    rw [hc, mul_zero] at this
    have h2 := Int.le_of_dvd (by omega) this.dvd
    omega

theorem root_eq (V : k.Valid p q) (w c : Int) (hc : c ≡ w ^ k.e.toNat [ZMOD k.n]) : modularRoot c k.dq k.dp k.q k.p k.u ≡ w [ZMOD k.n] := by
  have hp0 : (0 : Int) < p := by exact_mod_cast V.hp.pos
  have hq0 : (0 : Int) < q := by exact_mod_cast V.hq.pos
  have side : ∀ (t : Nat) (dt : Int), t.Prime → dt = k.d % (t - 1) → 0 < dt → k.e * k.d ≡ 1 [ZMOD (t - 1 : Int)] → c ≡ w ^ k.e.toNat [ZMOD t] → powMod (c % t) dt t ≡ w [ZMOD t] := by
    intro t dt ht hdt hdt0 hed hct
    have h1 : powMod (c % t) dt t ≡ (w ^ k.e.toNat) ^ dt.toNat [ZMOD t] :=
      (powMod_modEq _ _ _).trans (((Int.mod_modEq c t).trans hct).pow _)
    rw [← pow_mul] at h1
    refine h1.trans (fermat t ht w _ (Nat.mul_pos (by have := V.e_pos; omega) (by omega)) ?_)
    push_cast
    rw [Int.toNat_of_nonneg (le_of_lt V.e_pos), Int.toNat_of_nonneg (le_of_lt hdt0), hdt]
    exact (Int.ModEq.mul_left _ (Int.mod_modEq _ _)).trans hed
  have hcn := hc
  rw [V.kn] at hcn
  have h1 : c ≡ w ^ k.e.toNat [ZMOD p] := Int.ModEq.of_mul_right _ hcn
  have h2 : c ≡ w ^ k.e.toNat [ZMOD q] := Int.ModEq.of_mul_left _ hcn
  have s1 := side p k.dp V.hp V.dp V.dp_pos V.edp h1
  have s2 := side q k.dq V.hq V.dq V.dq_pos V.edq h2
  have hx : 0 ≤ powMod (c % k.q) k.dq k.q ∧ powMod (c % k.q) k.dq k.q < k.q := by
    rw [V.kq]; exact ⟨Int.emod_nonneg _ (by omega), Int.emod_lt_of_pos _ hq0⟩
  have hcrt := crt_spec (powMod (c % k.q) k.dq k.q) k.q (powMod (c % k.p) k.dp k.p) k.p k.u (by rw [V.kp]; exact hp0) hx.1 hx.2 V.u
  rw [V.kn]
  unfold modularRoot
  refine modEq_pq V.hp V.hq V.ne _ _ ?_ ?_
  · have := hcrt.2.2
    rw [V.kp] at this ⊢
    exact this.trans s1
  · have := hcrt.2.1
    rw [V.kq] at this ⊢
    exact this.trans s2

theorem inverse_eq (V : k.Valid p q) (hv : validate k 0 = true) (rs : List Int) (hr : ∃ r ∈ rs, Int.gcd r k.n = 1) (x : Int) (hx : 0 ≤ x) (hxn : x < k.n) :
    calculateInverse k rs (powMod x k.e k.n) = .ok x := by
  have hn : 1 < k.n := by
    rw [V.kn]
    have h1 := V.hp.one_lt
    have h2 := V.hq.one_lt
    exact_mod_cast Nat.lt_of_lt_of_le h1 (Nat.le_mul_of_pos_right p (by omega))
  unfold calculateInverse
  rw [hv]
  simp only [Bool.not_true, Bool.false_eq_true, if_false]
  cases hf : rs.find? (fun r => invMod r k.n != 0) with
  | none =>
    obtain ⟨r, hm, hg⟩ := hr
    have := List.find?_eq_none.mp hf r hm
    simp only [bne_iff_ne, ne_eq, Decidable.not_not] at this
    exact absurd this ((invMod_ne_zero r k.n hn).mpr hg)
  | some r =>
    simp only
    have hr0 : invMod r k.n ≠ 0 := by have := List.find?_some hf; simpa using this
    have hinv := mul_invMod r k.n (by omega) ((invMod_ne_zero r k.n hn).mp hr0)
    have hc : powMod r k.e k.n * powMod x k.e k.n % k.n ≡ (r * x) ^ k.e.toNat [ZMOD k.n] := by
      refine (Int.mod_modEq _ _).trans ?_
      rw [mul_pow]
      exact (powMod_modEq _ _ _).mul (powMod_modEq _ _ _)
    have hroot := root_eq V (r * x) _ hc
    have hy : modularRoot (powMod r k.e k.n * powMod x k.e k.n % k.n) k.dq k.dp k.q k.p k.u * invMod r k.n % k.n = x := by
      have : modularRoot (powMod r k.e k.n * powMod x k.e k.n % k.n) k.dq k.dp k.q k.p k.u * invMod r k.n ≡ x [ZMOD k.n] := by
        calc _ ≡ r * x * invMod r k.n [ZMOD k.n] := Int.ModEq.mul_right _ hroot
          _ = (r * invMod r k.n) * x := by ring
          _ ≡ 1 * x [ZMOD k.n] := Int.ModEq.mul_right _ hinv
          _ = x := by ring
      unfold Int.ModEq at this
      rw [this, Int.emod_eq_of_lt hx hxn]
    rw [hy]
    simp

theorem dvd_lcm (a b : Int) (ha : 0 < a) : a ∣ lcm a b ∧ b ∣ lcm a b := by
  unfold lcm
  obtain ⟨c, hc⟩ := Int.gcd_dvd_left (a := a) (b := b)
  have hg : (0 : Int) < Int.gcd a b := by have := Int.gcd_pos_of_ne_zero_left b (by omega : a ≠ 0); omega
  have e : a / Int.gcd a b = c := Int.ediv_eq_of_eq_mul_right (by omega) hc
  rw [e]
  obtain ⟨c', hc'⟩ := Int.gcd_dvd_right (a := a) (b := b)
  refine ⟨⟨c', ?_⟩, Dvd.intro_left _ rfl⟩
  calc c * b = c * (Int.gcd a b * c') := by rw [← hc']
    _ = (Int.gcd a b * c) * c' := by ring
    _ = a * c' := by rw [← hc]

theorem root_surj (V : k.Valid p q) (c : Int) (hc : 0 ≤ c) (hcn : c < k.n) : ∃ y, 0 ≤ y ∧ y < k.n ∧ powMod y k.e k.n = c := by
  have hn : 0 < k.n := by omega
  refine ⟨c ^ k.d.toNat % k.n, Int.emod_nonneg _ (by omega), Int.emod_lt_of_pos _ hn, ?_⟩
  have h : powMod (c ^ k.d.toNat % k.n) k.e k.n ≡ c [ZMOD k.n] := by
    refine (powMod_modEq _ _ _).trans (((Int.mod_modEq _ _).pow _).trans ?_)
    rw [← pow_mul]
    have hpos : 0 < k.d.toNat * k.e.toNat := Nat.mul_pos (by have := V.d_pos; omega) (by have := V.e_pos; omega)
    have hcast : ((k.d.toNat * k.e.toNat : Nat) : Int) = k.e * k.d := by
      push_cast
      rw [Int.toNat_of_nonneg (le_of_lt V.d_pos), Int.toNat_of_nonneg (le_of_lt V.e_pos), mul_comm]
    rw [V.kn]
    exact modEq_pq V.hp V.hq V.ne _ _ (fermat p V.hp c _ hpos (by rw [hcast]; exact V.edp)) (fermat q V.hq c _ hpos (by rw [hcast]; exact V.edq))
  unfold Int.ModEq at h
  have e : powMod (c ^ k.d.toNat % k.n) k.e k.n % k.n = powMod (c ^ k.d.toNat % k.n) k.e k.n := Int.emod_emod_of_dvd _ (dvd_refl _)
  rw [e, Int.emod_eq_of_lt hc hcn] at h
  exact h

/-- The checks of `Validate` at level 1 and the primality of the factors make a key valid. -/
theorem valid_of_validate (hv : validate k 1 = true) (hp : k.p = p) (hq : k.q = q) (hpp : p.Prime) (hqp : q.Prime) : k.Valid p q := by
  unfold validate validatePublic at hv
  simp only [Bool.and_eq_true, Bool.or_eq_true, decide_eq_true_eq, one_ne_zero, false_or] at hv
  obtain ⟨⟨⟨⟨⟨⟨⟨hvp, hP⟩, hQ⟩, hD⟩, hDP⟩, hDQ⟩, hU⟩, ⟨⟨⟨hpq, hed⟩, hdp⟩, hdq⟩, hu⟩ := hv
  obtain ⟨⟨⟨⟨hn1, hn2⟩, he1⟩, he2⟩, he3⟩ := hvp
  obtain ⟨⟨hp1, hp2⟩, hp3⟩ := hP
  obtain ⟨⟨hq1, hq2⟩, hq3⟩ := hQ
  have hL := dvd_lcm (k.p - 1) (k.q - 1) (by omega)
  have hed' : k.e * k.d ≡ 1 [ZMOD lcm (k.p - 1) (k.q - 1)] := by
    have := Int.mod_modEq (k.e * k.d) (lcm (k.p - 1) (k.q - 1))
    rw [hed] at this; exact this.symm
  exact {
    hp := hpp, hq := hqp, kp := hp, kq := hq
    ne := by
      intro h
      rw [hp, hq, h, Int.mul_emod_left] at hu
      omega
    kn := by rw [← hpq, hp, hq]
    e_pos := by omega
    d_pos := by omega
    dp := by rw [← hp]; exact hdp
    dq := by rw [← hq]; exact hdq
    dp_pos := by omega
    dq_pos := by omega
    edp := by rw [← hp]; exact hed'.of_dvd hL.1
    edq := by rw [← hq]; exact hed'.of_dvd hL.2
    u := by unfold Int.ModEq; rw [hu, Int.emod_eq_of_lt (by omega) hp1] }


theorem lcm_pos (a b : Int) (ha : 0 < a) (hb : 0 < b) : 0 < lcm a b := by
  unfold lcm
  have hg : (0 : Int) < Int.gcd a b := by have := Int.gcd_pos_of_ne_zero_left b (by omega : a ≠ 0); omega
  have h1 : 0 < a / Int.gcd a b := Int.ediv_pos_of_pos_of_dvd ha (by omega) (Int.gcd_dvd_left ..)
  exact Int.mul_pos h1 hb

theorem lcm_le (a b : Int) (ha : 0 < a) (hb : 0 < b) : lcm a b ≤ a * b := by
  unfold lcm
  exact Int.mul_le_mul_of_nonneg_right (Int.ediv_le_self _ (by omega)) (by omega)

theorem invMod_lt (a m : Int) (hm : 0 < m) : invMod a m < m := by
  unfold invMod; split
  · exact Int.emod_lt_of_pos _ hm
  · omega

theorem gcd_lcm (e a b : Int) (ha : Int.gcd e a = 1) (hb : Int.gcd e b = 1) : Int.gcd e (lcm a b) = 1 := by
  have h1 : IsCoprime e a := Int.isCoprime_iff_gcd_eq_one.mpr ha
  have h2 : IsCoprime e b := Int.isCoprime_iff_gcd_eq_one.mpr hb
  have h3 : IsCoprime e (a / Int.gcd a b) := by
    apply h1.of_isCoprime_of_dvd_right
    exact Int.ediv_dvd_of_dvd (Int.gcd_dvd_left ..)
  exact Int.isCoprime_iff_gcd_eq_one.mp (h3.mul_right h2)

/-- A generated key passes `Validate`, provided its CRT exponents are not 1. -/
theorem makeKey_validate (hp : p.Prime) (hq : q.Prime) (hne : p ≠ q) (hp2 : p ≠ 2) (hq2 : q ≠ 2) (e : Int) (he : 1 < e) (he2 : e % 2 = 1) (hen : e < p * q)
    (hep : Int.gcd e (p - 1) = 1) (heq : Int.gcd e (q - 1) = 1) (hdp : 1 < (makeKey p q e).dp) (hdq : 1 < (makeKey p q e).dq) : validate (makeKey p q e) 1 = true := by
  have hp3 : 3 ≤ p := by have := hp.two_le; omega
  have hq3 : 3 ≤ q := by have := hq.two_le; omega
  have hpo : p % 2 = 1 := hp.eq_two_or_odd.resolve_left hp2
  have hqo : q % 2 = 1 := hq.eq_two_or_odd.resolve_left hq2
  have hlp := lcm_pos (p - 1) (q - 1) (by omega) (by omega)
  have hll := lcm_le (p - 1) (q - 1) (by omega) (by omega)
  have hL := dvd_lcm (p - 1 : Int) (q - 1) (by omega)
  have hinv := mul_invMod e _ hlp (gcd_lcm e _ _ hep heq)
  have hd0 := invMod_nonneg e _ hlp
  have hd1 := invMod_lt e _ hlp
  have hu := mul_invMod (q : Int) p (by omega) (by
    rw [Int.gcd_natCast_natCast]; exact ((Nat.coprime_primes hq hp).mpr (fun h => hne h.symm)))
  have hu0 := invMod_nonneg (q : Int) p (by omega)
  have hu1 := invMod_lt (q : Int) p (by omega)
  have hpq1 : (p : Int) * 3 ≤ p * q := Int.mul_le_mul_of_nonneg_left (by omega) (by omega)
  have hpq2 : 3 * (q : Int) ≤ p * q := Int.mul_le_mul_of_nonneg_right (by omega) (by omega)
  have hodd : ((p : Int) * q) % 2 = 1 := by rw [Int.mul_emod, show (p : Int) % 2 = 1 by omega, show (q : Int) % 2 = 1 by omega]; rfl
  obtain ⟨d, hd⟩ : ∃ d, d = invMod e (lcm (p - 1) (q - 1)) := ⟨_, rfl⟩
  have hdn : (makeKey p q e).d = d := hd.symm
  have hdp' : (makeKey p q e).dp = d % (p - 1) := by rw [hd]; rfl
  have hdq' : (makeKey p q e).dq = d % (q - 1) := by rw [hd]; rfl
  rw [hdp'] at hdp
  rw [hdq'] at hdq
  rw [← hd] at hinv hd0 hd1
  have hdodd : d % 2 = 1 := by
    have h2 : (2 : Int) ∣ p - 1 := by omega
    have h3 := hinv.of_dvd (h2.trans hL.1)
    unfold Int.ModEq at h3
    rw [Int.mul_emod, he2] at h3
    omega
  have hmododd : ∀ t : Int, t % 2 = 1 → d % (t - 1) % 2 = 1 := by
    intro t ht
    rw [Int.emod_emod_of_dvd d (by omega : (2 : Int) ∣ t - 1)]; exact hdodd
  have hlt : d < (p : Int) * q := by
    have : ((p : Int) - 1) * (q - 1) = p * q - p - q + 1 := by ring
    omega
  have hd1' : 1 < d := by
    by_contra hc
    have : d = 0 ∨ d = 1 := by omega
    rcases this with h | h
    · rw [h] at hdodd; omega
    · rw [h] at hdp
      have := Int.emod_eq_of_lt (show (0:Int) ≤ 1 by omega) (show (1 : Int) < p - 1 by omega)
      omega
  have hupos : 0 < invMod (q : Int) p := by
    rcases Int.lt_or_eq_of_le hu0 with h | h
    · exact h
    · rw [← h, mul_zero] at hu
      have := Int.le_of_dvd (by omega) hu.dvd
      omega
  have hed : e * d % lcm (p - 1) (q - 1) = 1 := by
    have h4 : 1 < lcm (p - 1 : Int) (q - 1) := by
      have := Int.le_of_dvd hlp hL.1
      omega
    unfold Int.ModEq at hinv
    rw [hinv, Int.emod_eq_of_lt (by omega) h4]
  have huq : invMod (q : Int) p * q % p = 1 := by
    rw [mul_comm]
    unfold Int.ModEq at hu
    rw [hu, Int.emod_eq_of_lt (by omega) (by omega)]
  unfold validate validatePublic
  rw [hdn, hdp', hdq']
  have e1 : (makeKey p q e).n = p * q := rfl
  have e2 : (makeKey p q e).e = e := rfl
  have e3 : (makeKey p q e).p = p := rfl
  have e4 : (makeKey p q e).q = q := rfl
  have e5 : (makeKey p q e).u = invMod q p := rfl
  rw [e1, e2, e3, e4, e5, hed, huq, hodd, he2, hmododd p (by omega), hmododd q (by omega), hdodd, show (p : Int) % 2 = 1 by omega, show (q : Int) % 2 = 1 by omega]
  have l1 := Int.emod_lt_of_pos d (show (0 : Int) < p - 1 by omega)
  have l2 := Int.emod_lt_of_pos d (show (0 : Int) < q - 1 by omega)
  simp only [decide_true, Bool.and_true, Bool.true_and, Bool.or_true, Bool.and_eq_true, decide_eq_true_eq]
  repeat' apply And.intro
  all_goals omega

/-! ## ISO 9796 -/

theorem odd_neg_pow (n t : Int) (e : Nat) (he : e % 2 = 1) : (n - t) ^ e ≡ n - t ^ e [ZMOD n] := by
  have h1 : n - t ≡ -t [ZMOD n] := by
    have : n - t = -t + n * 1 := by ring
    rw [this]; exact Int.modEq_add_fac_self
  have h2 : n - t ^ e ≡ -(t ^ e) [ZMOD n] := by
    have : n - t ^ e = -(t ^ e) + n * 1 := by ring
    rw [this]; exact Int.modEq_add_fac_self
  refine (h1.pow e).trans (Int.ModEq.trans ?_ h2.symm)
  rw [Odd.neg_pow (Nat.odd_iff.mpr he)]

theorem powMod_neg (n t e : Int) (hn : 0 < n) (he : e.toNat % 2 = 1) (h : 0 < powMod t e n) : powMod (n - t) e n = n - powMod t e n := by
  have h1 := (odd_neg_pow n t e.toNat he)
  have h2 : n - t ^ e.toNat ≡ n - powMod t e n [ZMOD n] := Int.ModEq.sub_left _ (powMod_modEq t e n).symm
  have h3 := h1.trans h2
  unfold Int.ModEq at h3
  have h4 : powMod t e n < n := Int.emod_lt_of_pos _ hn
  rw [Int.emod_eq_of_lt (a := n - powMod t e n) (by omega) (by omega)] at h3
  exact h3

/-! ## The private key from the exponents -/

theorem squares_spec (hp : p.Prime) (hq : q.Prime) (hne : p ≠ q) (n : Int) (hn : n = p * q) (s f : Nat) (a : Int) (j : Nat) (ha : 0 ≤ a) (han : a < n) (ha1 : a ≠ 1) (t : Int)
    (h : squares n s f a j = .ok (some t)) : t = p ∨ t = q := by
  induction f generalizing a j with
  | zero => cases h
  | succ f ih =>
    unfold squares at h
    split at h
    · cases h
    · rename_i hn1
      simp only at h
      split at h
      · rename_i hb
        simp only [Except.ok.injEq, Option.some.injEq] at h
        have hP := Nat.prime_iff_prime_int.mp hp
        have hQ := Nat.prime_iff_prime_int.mp hq
        have hp0 : (0 : Int) < p := by exact_mod_cast hp.pos
        have hq0 : (0 : Int) < q := by exact_mod_cast hq.pos
        have hdn : n ∣ (a - 1) * (a + 1) := by
          have h1 : a * a ≡ 1 [ZMOD n] := by
            have := Int.mod_modEq (a * a) n
            rw [hb] at this; exact this.symm
          have := h1.symm.dvd
          have e : (a - 1) * (a + 1) = a * a - 1 := by ring
          rw [e]; exact this
        have hpd : (p : Int) ∣ n := ⟨q, hn⟩
        have hqd : (q : Int) ∣ n := ⟨p, by rw [hn]; ring⟩
        have hc : IsCoprime (p : Int) (q : Int) := Nat.isCoprime_iff_coprime.mpr ((Nat.coprime_primes hp hq).mpr hne)
        have notboth1 : ¬ ((p : Int) ∣ a - 1 ∧ (q : Int) ∣ a - 1) := by
          rintro ⟨h1, h2⟩
          have h3 := hc.mul_dvd h1 h2
          rw [← hn] at h3
          rcases Int.lt_trichotomy (a - 1) 0 with h4 | h4 | h4
          · have h0 : a = 0 := by omega
            rw [h0] at h1
            have := Int.le_of_dvd (by omega) ((dvd_neg).mpr h1)
            have := hp.one_lt
            omega
          · exact ha1 (by omega)
          · have := Int.le_of_dvd h4 h3; omega
        have notboth2 : ¬ ((p : Int) ∣ a + 1 ∧ (q : Int) ∣ a + 1) := by
          rintro ⟨h1, h2⟩
          have h3 := hc.mul_dvd h1 h2
          rw [← hn] at h3
          have := Int.le_of_dvd (by omega) h3
          omega
        have key : ∀ x y : Nat, x.Prime → y.Prime → n = x * y → (x : Int) ∣ a - 1 → ¬ (y : Int) ∣ a - 1 → ((Int.gcd (a - 1) n : Nat) : Int) = x := by
          intro x y hx hy hxy h1 h2
          have hcy : IsCoprime (y : Int) (a - 1) := ((Nat.prime_iff_prime_int.mp hy).coprime_iff_not_dvd).mpr h2
          have hg : Int.gcd (a - 1) n = x := by
            rw [hxy, Int.gcd_comm]
            obtain ⟨c, hcc⟩ := h1
            rw [hcc, Int.gcd_mul_left]
            have : IsCoprime (y : Int) c := by rw [hcc] at hcy; exact (IsCoprime.of_mul_right_right hcy)
            rw [Int.isCoprime_iff_gcd_eq_one.mp this]; simp
          rw [hg]
        rcases hP.dvd_or_dvd (hpd.trans hdn) with h1 | h1 <;> rcases hQ.dvd_or_dvd (hqd.trans hdn) with h2 | h2
        · exact absurd ⟨h1, h2⟩ notboth1
        · left; rw [← h]
          exact key p q hp hq hn h1 (fun h3 => notboth1 ⟨h1, h3⟩)
        · right; rw [← h]
          exact key q p hq hp (by rw [hn]; ring) h2 (fun h3 => notboth1 ⟨h3, h2⟩)
        · exact absurd ⟨h1, h2⟩ notboth2
      · rename_i hb
        split at h
        · cases h
        · have hn0 : 0 < n := by omega
          exact ih _ _ (Int.emod_nonneg _ (by omega)) (Int.emod_lt_of_pos _ hn0) hb h

theorem bases_spec (hp : p.Prime) (hq : q.Prime) (hne : p ≠ q) (n : Int) (hn : n = p * q) (r : Int) (s f : Nat) (i t : Int) (h : bases n r s f i = .ok t) : t = p ∨ t = q := by
  have hn0 : 0 < n := by rw [hn]; exact Int.mul_pos (by exact_mod_cast hp.pos) (by exact_mod_cast hq.pos)
  induction f generalizing i with
  | zero => cases h
  | succ f ih =>
    unfold bases at h
    simp only at h
    split at h
    · exact ih _ h
    · rename_i ha
      split at h
      · cases h
      · rename_i t' hs
        simp only [Except.ok.injEq] at h
        rw [← h]
        exact squares_spec hp hq hne n hn s _ _ _ (Int.emod_nonneg _ (by omega)) (Int.emod_lt_of_pos _ hn0) ha _ hs
      · exact ih _ h

theorem initKey_spec (hp : p.Prime) (hq : q.Prime) (hne : p ≠ q) (f : Nat) (e d : Int) (h : initKey f (p * q) e d = .ok k) :
    (k.n = p * q ∧ k.e = e ∧ k.d = d ∧ k.dp = d % (k.p - 1) ∧ k.dq = d % (k.q - 1) ∧ k.u = invMod k.q k.p) ∧ ((k.p = p ∧ k.q = q) ∨ (k.p = q ∧ k.q = p)) := by
  unfold initKey at h
  split at h
  · cases h
  · split at h
    · cases h
    · rename_i r s hs
      split at h
      · cases h
      · rename_i t ht
        simp only [Except.ok.injEq] at h
        have hp0 : (0 : Int) < p := by exact_mod_cast hp.pos
        have hq0 : (0 : Int) < q := by exact_mod_cast hq.pos
        rw [← h]
        refine ⟨⟨rfl, rfl, rfl, rfl, rfl, rfl⟩, ?_⟩
        rcases bases_spec hp hq hne _ rfl r s f 2 t ht with h1 | h1
        · left
          refine ⟨h1, ?_⟩
          show (p : Int) * q / t = q
          rw [h1]; exact Int.mul_ediv_cancel_left _ (by omega)
        · right
          refine ⟨h1, ?_⟩
          show (p : Int) * q / t = p
          rw [h1]; exact Int.mul_ediv_cancel _ (by omega)

theorem Key.Valid.swap_exp {x y : Nat} {e d : Int} (hx : x.Prime) (hy : y.Prime) (hne : x ≠ y) (hkn : k.n = x * y) (hke : k.e = e) (hkd : k.d = d) (kp : k.p = x) (kq : k.q = y) (kdp : k.dp = d % (k.p - 1)) (kdq : k.dq = d % (k.q - 1))
    (ku : k.u = invMod k.q k.p) (he : 0 < e) (hd : 0 < d) (h1 : e * d ≡ 1 [ZMOD (x - 1 : Int)]) (h2 : e * d ≡ 1 [ZMOD (y - 1 : Int)]) (hx2 : x ≠ 2) (hy2 : y ≠ 2) : k.Valid x y := by
  have pos : ∀ t : Nat, t.Prime → t ≠ 2 → e * d ≡ 1 [ZMOD (t - 1 : Int)] → 0 < d % (t - 1 : Int) := by
    intro t ht ht2 hm
    have h3 : 3 ≤ t := by have := ht.two_le; omega
    have h0 := Int.emod_nonneg d (by omega : (t : Int) - 1 ≠ 0)
    rcases Int.lt_or_eq_of_le h0 with h4 | h4
    · exact h4
    · exfalso
      have h5 : d ≡ 0 [ZMOD (t - 1 : Int)] := by unfold Int.ModEq; rw [← h4]; rfl
      have h6 := (Int.ModEq.mul_left e h5).symm.trans hm
      rw [mul_zero] at h6
      have := Int.le_of_dvd (by omega) h6.dvd
      omega
  exact {
    hp := hx, hq := hy, ne := hne, kp := kp, kq := kq, kn := hkn
    e_pos := by omega
    d_pos := by omega
    dp := by rw [kdp, kp, hkd]
    dq := by rw [kdq, kq, hkd]
    dp_pos := by rw [kdp, kp]; exact pos x hx hx2 h1
    dq_pos := by rw [kdq, kq]; exact pos y hy hy2 h2
    edp := by rw [hke, hkd]; exact h1
    edq := by rw [hke, hkd]; exact h2
    u := by
      rw [ku, kp, kq, mul_comm]
      exact mul_invMod _ _ (by exact_mod_cast hx.pos) (by rw [Int.gcd_natCast_natCast]; exact (Nat.coprime_primes hy hx).mpr (fun h => hne h.symm)) }

end Verif.Rsa
