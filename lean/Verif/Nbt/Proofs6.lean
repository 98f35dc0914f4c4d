import Verif.Nbt.Proofs5
import Mathlib.Data.Nat.Totient
import Mathlib.FieldTheory.Finite.Basic

namespace Verif.Nbt
open Verif.Dl (invMod)
open Verif.Rsa (powMod crt modularRoot)
open NumberTheorySymbols

/-! ## What returns is right, whatever the number of rounds -/

theorem sqrtLoop_ok (n : Nat) (hn : 0 < n) : ∀ (f x : Nat) (r : Int), n < (x + 1) * (x + 1) → 0 < x → sqrtLoop n f x = .ok r →
    ∃ s : Nat, r = s ∧ s * s ≤ n ∧ n < (s + 1) * (s + 1)
  | 0, _, _, _, _, h => by simp [sqrtLoop] at h
  | f + 1, x, r, hx, h0, h => by
    obtain ⟨s, e, h1, h2⟩ := sqrtLoop_spec n hn (f + 1 + x) x hx (by omega) h0
    have mono : ∀ (f g : Nat) (x : Int) (r : Int), sqrtLoop n f x = .ok r → sqrtLoop n (f + g) x = .ok r := by
      intro f
      induction f with
      | zero => intro g x r h; simp [sqrtLoop] at h
      | succ f ih =>
        intro g x r h
        rw [show f + 1 + g = (f + g) + 1 by omega]
        rw [sqrtLoop] at h ⊢
        by_cases hx : x = 0
        · simp [hx] at h
        · rw [if_neg hx] at h ⊢
          simp only at h ⊢
          split
          · next hlt => rw [if_pos hlt] at h; exact ih g _ _ h
          · next hlt => rw [if_neg hlt] at h; exact h
    have := mono (f + 1) x x r h
    rw [e] at this
    cases this
    exact ⟨s, rfl, h1, h2⟩

theorem isSquare_ok (n : Int) (fuel : Nat) (b : Bool) (h : isSquare fuel n = .ok b) : b = true ↔ ∃ r : Int, r * r = n := by
  have hs : ∀ r, squareRoot fuel n = .ok r → r = ((Nat.sqrt n.toNat : Nat) : Int) := by
    intro r hr
    unfold squareRoot at hr
    by_cases hn : n ≤ 0
    · rw [if_pos hn] at hr; cases hr; rw [show n.toNat = 0 by omega]; rfl
    · rw [if_neg hn] at hr
      obtain ⟨m, rfl⟩ : ∃ m : Nat, n = m := ⟨n.toNat, by omega⟩
      rw [Int.natAbs_natCast] at hr
      have hb := Misc.bitLen_lt m
      generalize Misc.bitLen m = L at *
      have hsq : 2 ^ L ≤ 2 ^ ((L + 1) / 2) * 2 ^ ((L + 1) / 2) := by
        rw [← pow_add]; exact Nat.pow_le_pow_right (by omega) (by omega)
      rw [show ((2 : Int) ^ ((L + 1) / 2)) = ((2 ^ ((L + 1) / 2) : Nat) : Int) by push_cast; rfl] at hr
      obtain ⟨s, rfl, h1, h2⟩ := sqrtLoop_ok m (by omega) fuel _ r (lt_of_lt_of_le (lt_of_lt_of_le hb hsq) (Nat.mul_le_mul (Nat.le_succ _) (Nat.le_succ _)))
        (Nat.two_pow_pos _) hr
      rw [Int.toNat_natCast, Nat.eq_sqrt.2 ⟨h1, h2⟩]
  unfold isSquare at h
  cases hr : squareRoot fuel n with
  | error e => rw [hr] at h; cases h
  | ok r =>
    rw [hr] at h
    have hh : (n == r * r) = b := by injection h
    have hr' := hs r hr
    subst hr'
    rw [← hh, beq_iff_eq]
    constructor
    · exact fun h => ⟨_, h.symm⟩
    · rintro ⟨r, rfl⟩
      have : r * r = ((r.natAbs * r.natAbs : Nat) : Int) := by rw [Int.natAbs_mul_self]
      rw [this, Int.toNat_natCast, Nat.sqrt_eq]
      push_cast; rfl

theorem gcdLoop_ok : ∀ (f : Nat) (g0 g1 g : Int), gcdLoop f g0 g1 = .ok g → g.natAbs = Int.gcd g0 g1
  | 0, _, _, _, h => by simp [gcdLoop] at h
  | f + 1, g0, g1, g, h => by
    rw [gcdLoop] at h
    by_cases hz : g1 = 0
    · rw [if_pos hz] at h; cases h; subst hz; simp
    · rw [if_neg hz] at h
      rw [gcdLoop_ok f _ _ _ h, Int.gcd_comm g1, Int.gcd_emod]

/-! ## Numbers with a proof -/

/-- A number with an element of prime order `q` has a prime divisor that is 1 modulo `q`. -/
theorem exists_factor {P q : Nat} (hP : 1 < P) (hq : q.Prime) (hqP : ¬q ∣ P) (b : ZMod P) (hb : b ^ q = 1) (hb1 : b ≠ 1) : ∃ f, f.Prime ∧ f ∣ P ∧ q ∣ f - 1 := by
  have : NeZero P := ⟨by omega⟩
  have := Fact.mk hq
  let u : (ZMod P)ˣ := Units.ofPowEqOne b q hb hq.ne_zero
  have hu : orderOf u = q := by
    refine orderOf_eq_prime (Units.ext ?_) (fun h => hb1 ?_)
    · simp [u]
    · have := congrArg Units.val h; simpa [u] using this
  have hd : q ∣ P.totient := by
    rw [← ZMod.card_units_eq_totient, ← hu]; exact orderOf_dvd_card
  rw [Nat.totient_eq_prod_factorization (by omega)] at hd
  obtain ⟨f, hf, hqf⟩ := (Prime.dvd_finsetProd_iff hq.prime _).1 hd
  have hfp : f.Prime := Nat.prime_of_mem_primeFactors (by rwa [Nat.support_factorization] at hf)
  have hfd : f ∣ P := Nat.dvd_of_mem_primeFactors (by rwa [Nat.support_factorization] at hf)
  refine ⟨f, hfp, hfd, ?_⟩
  rcases (hq.dvd_mul).1 hqf with h | h
  · exfalso
    have := (Nat.prime_dvd_prime_iff_eq hq hfp).1 (hq.dvd_of_dvd_pow h)
    exact hqP (this ▸ hfd)
  · exact h

/-- Quisquater's test. -/
theorem prove_sound {P q : Nat} (hP : 1 < P) (hq : q.Prime) (hm : P % q = 1) (hlt : P < q ^ 3) (b : ZMod P) (hb : b ^ q = 1) (hb1 : b ≠ 1)
    (hsq : ¬∃ r : Int, r * r = ((((P - 1) / q % q : Nat) : Int)) * ((((P - 1) / q % q : Nat) : Int)) - 4 * (((P - 1) / q / q : Nat) : Int)) : P.Prime := by
  have hq2 := hq.two_le
  obtain ⟨f, hf, ⟨s, hs⟩, x, hx⟩ := exists_factor hP hq (fun h => by rw [Nat.mod_eq_zero_of_dvd h] at hm; omega) b hb hb1
  have hf2 := hf.two_le
  have hfx : f = q * x + 1 := by omega
  have hx0 : 0 < x := by
    rcases Nat.eq_zero_or_pos x with rfl | h
    · simp at hfx; omega
    · exact h
  have hsm : s % q = 1 := by
    have : (q * x + 1) * s % q = s % q := by
      rw [show (q * x + 1) * s = s + q * (x * s) by ring, Nat.add_mul_mod_self_left]
    rw [← this, ← hfx, ← hs, hm]
  obtain ⟨y, hy⟩ : ∃ y, s = q * y + 1 := ⟨s / q, by rw [← hsm]; exact (Nat.div_add_mod s q).symm⟩
  rcases Nat.eq_zero_or_pos y with rfl | hy0
  · have : P = f := by rw [hs, hy]; ring
    rw [this]; exact hf
  · exfalso
    apply hsq
    have hP1 : P - 1 = q * (q * (x * y) + (x + y)) := by
      have : P = q * (q * (x * y) + (x + y)) + 1 := by rw [hs, hfx, hy]; ring
      omega
    have hPeq : P = q * q * (x * y) + q * (x + y) + 1 := by rw [hs, hfx, hy]; ring
    have hxy : x * y < q := by
      by_contra h
      have : q * q * q ≤ q * q * (x * y) := Nat.mul_le_mul_left _ (by omega)
      have e : q ^ 3 = q * q * q := by ring
      omega
    have hsum : x + y ≤ x * y + 1 := by
      obtain ⟨x', rfl⟩ : ∃ k, x = k + 1 := ⟨x - 1, by omega⟩
      obtain ⟨y', rfl⟩ : ∃ k, y = k + 1 := ⟨y - 1, by omega⟩
      have : (x' + 1) * (y' + 1) = x' * y' + x' + y' + 1 := by ring
      omega
    have hlt' : x + y < q := by
      by_contra h
      have e1 : x + y = q := by omega
      have e2 : x * y = q - 1 := by omega
      have e3 : q * q * (x * y) + q * q = q * q * q := by
        rw [e2]
        obtain ⟨k, rfl⟩ : ∃ k, q = k + 1 := ⟨q - 1, by omega⟩
        rw [Nat.add_sub_cancel]; ring
      have e : q ^ 3 = q * q * q := by ring
      rw [e1] at hPeq
      omega
    rw [hP1, Nat.mul_div_cancel_left _ (by omega), Nat.mul_add_mod, Nat.mod_eq_of_lt hlt', Nat.mul_add_div (by omega), Nat.div_eq_of_lt hlt', add_zero]
    exact ⟨(x : Int) - y, by push_cast; ring⟩

theorem proveLoop_spec (r q : Int) (P : Nat) (hP : 1 < P) (hq : 0 ≤ q) : ∀ ts : List Nat, proveLoop r q P ts = true → ∃ b : ZMod P, b ^ q.toNat = 1 ∧ b ≠ 1
  | [], h => by simp [proveLoop] at h
  | t :: ts, h => by
    rw [proveLoop] at h
    by_cases hb : powMod t r P = 1
    · rw [if_neg (by simpa using hb)] at h
      exact proveLoop_spec r q P hP hq ts h
    · rw [if_pos hb, beq_iff_eq] at h
      refine ⟨((powMod t r P : Int) : ZMod P), ?_, fun e => hb ?_⟩
      · have := congrArg (Int.cast : Int → ZMod P) h
        unfold powMod at this ⊢
        rw [ZMod.intCast_mod, Int.cast_pow, Int.cast_one] at this
        exact this
      · have h1 := (ZMod.intCast_eq_intCast_iff (powMod t r P) 1 P).1 (by simpa using e)
        have h2 : powMod t r P % P = powMod t r P := by unfold powMod; exact Int.emod_emod_of_dvd _ dvd_rfl
        have h3 : (1 : Int) % P = 1 := Int.emod_eq_of_lt (by omega) (by omega)
        unfold Int.ModEq at h1
        rw [h2, h3] at h1
        exact h1

theorem provePrime_sound (fuel : Nat) (P q : Nat) (hP : 1 < P) (hq : q.Prime) (hm : P % q = 1) (hlt : P < q ^ 3) (h : provePrime fuel P q = .ok true) : P.Prime := by
  unfold provePrime at h
  have e1 : ((P : Int) - 1) / q = (((P - 1) / q : Nat) : Int) := by push_cast [show 1 ≤ P by omega]; rfl
  simp only [e1] at h
  have e2 : ((((P - 1) / q : Nat) : Int)) % q = (((P - 1) / q % q : Nat) : Int) := by push_cast; rfl
  have e3 : ((((P - 1) / q : Nat) : Int)) / q = (((P - 1) / q / q : Nat) : Int) := by push_cast; rfl
  rw [e2, e3] at h
  cases hs : isSquare fuel ((((P - 1) / q % q : Nat) : Int) * (((P - 1) / q % q : Nat) : Int) - 4 * (((P - 1) / q / q : Nat) : Int)) with
  | error e => rw [hs] at h; cases h
  | ok s =>
    rw [hs] at h
    cases s with
    | true => cases h
    | false =>
      have h' : proveLoop (((P - 1) / q : Nat) : Int) q P (table.take 50) = true := by
        have : (Except.ok (proveLoop (((P - 1) / q : Nat) : Int) q P (table.take 50)) : Except Err Bool) = .ok true := h
        injection this
      obtain ⟨b, hb, hb1⟩ := proveLoop_spec _ _ P hP (by omega) _ h'
      rw [Int.toNat_natCast] at hb
      exact prove_sound hP hq hm hlt b hb hb1 (fun hr => by have := (isSquare_ok _ _ _ hs).2 hr; simp at this)

theorem mihailescu_sound {fuel pbits : Nat} {p : Int} (h : Mihailescu fuel pbits p) : p.toNat.Prime ∧ 2 ^ (pbits - 1) ≤ p ∧ p < 2 ^ pbits := by
  induction h with
  | @small pbits p hb h1 h2 hp =>
    obtain ⟨b, e, hb'⟩ := isPrime_small fuel p (by unfold lastSmallPrime at hb; push_cast at hb; omega)
    rw [e] at hp
    injection hp with hp
    exact ⟨hb'.1 hp, h1, by omega⟩
  | @step pbits extra p q hb he hq h1 h2 hm hs hp ih =>
    obtain ⟨i1, i2, i3⟩ := ih
    refine ⟨?_, h1, by omega⟩
    obtain ⟨q, rfl⟩ : ∃ k : Nat, q = k := ⟨q.toNat, by
      have : (0 : Int) < 2 ^ ((pbits + 2) / 3 + 1 + extra - 1) := by positivity
      omega⟩
    have hp0 : (0 : Int) < 2 ^ (pbits - 1) := by positivity
    obtain ⟨p, rfl⟩ : ∃ k : Nat, p = k := ⟨p.toNat, by omega⟩
    rw [Int.toNat_natCast] at i1 ⊢
    have i2' : 2 ^ ((pbits + 2) / 3 + 1 + extra - 1) ≤ q := by exact_mod_cast i2
    have hq2 := i1.two_le
    have hmq : p % (q * 2) = 1 := by exact_mod_cast hm
    have hpq : p % q = 1 := by
      have : p % (q * 2) % q = p % q := Nat.mod_mod_of_dvd p ⟨2, rfl⟩
      rw [← this, hmq, Nat.mod_eq_of_lt (by omega)]
    have h2' : p < 2 ^ pbits := by
      have : (p : Int) < 2 ^ pbits := by omega
      exact_mod_cast this
    refine provePrime_sound fuel p q ?_ i1 hpq ?_ hp
    · by_contra hle
      have hp1 : pbits ≤ 1 := by
        by_contra hc
        have : (2 : Int) ^ 1 ≤ 2 ^ (pbits - 1) := pow_le_pow_right₀ (by omega) (by omega)
        omega
      apply hb
      have : (2 : Int) ^ pbits ≤ 2 ^ 1 := pow_le_pow_right₀ (by omega) hp1
      unfold lastSmallPrime
      push_cast
      omega
    · have a1 : 2 ^ pbits ≤ (2 ^ ((pbits + 2) / 3 + 1 + extra - 1)) ^ 3 := by
        rw [← pow_mul]; exact Nat.pow_le_pow_right (by omega) (by omega)
      have a2 := Nat.pow_le_pow_left i2' 3
      omega

/-- Pocklington's test. -/
theorem pocklington {P q : Nat} (hP : 1 < P) (hodd : P % 2 = 1) (hq : q.Prime) (hq2 : q ≠ 2) (hlt : P < (2 * q + 1) * (2 * q + 1)) (b : Int) (hb : b ^ q % P = 1)
    (hg : Int.gcd (b - 1) P = 1) : P.Prime := by
  by_contra hc
  have hf := Nat.minFac_prime (show P ≠ 1 by omega)
  have hfd := Nat.minFac_dvd P
  have hsq := Nat.minFac_sq_le_self (by omega) hc
  generalize P.minFac = f at *
  have := Fact.mk hf
  have := Fact.mk hq
  have hb' : ((b : Int) : ZMod f) ^ q = 1 := by
    have h1 : ((P : Nat) : Int) ∣ b ^ q - 1 := Int.dvd_of_emod_eq_zero (by
      rw [Int.sub_emod, hb, Int.emod_eq_of_lt (by omega : (0 : Int) ≤ 1) (by omega)]; simp)
    have h2 : ((f : Nat) : Int) ∣ b ^ q - 1 := dvd_trans (by exact_mod_cast hfd) h1
    have h3 := (ZMod.intCast_zmod_eq_zero_iff_dvd (b ^ q - 1) f).2 h2
    push_cast at h3
    exact sub_eq_zero.1 h3
  have hb1 : ((b : Int) : ZMod f) ≠ 1 := by
    intro h
    have h2 : ((f : Nat) : Int) ∣ b - 1 := (ZMod.intCast_zmod_eq_zero_iff_dvd (b - 1) f).1 (by push_cast; rw [h, sub_self])
    have h3 := Int.dvd_gcd h2 (by exact_mod_cast hfd : ((f : Nat) : Int) ∣ (P : Int))
    rw [hg] at h3
    exact hf.one_lt.ne' (Nat.dvd_one.1 h3)
  have hord : orderOf ((b : Int) : ZMod f) = q := orderOf_eq_prime hb' hb1
  have hb0 : ((b : Int) : ZMod f) ≠ 0 := by
    intro h; rw [h, zero_pow hq.ne_zero] at hb'; exact zero_ne_one hb'
  have hd : q ∣ f - 1 := by rw [← hord]; exact ZMod.orderOf_dvd_card_sub_one hb0
  have hf2 : f % 2 = 1 := by
    rcases Nat.mod_two_eq_zero_or_one f with h | h
    · have := dvd_trans (Nat.dvd_of_mod_eq_zero h) hfd
      omega
    · exact h
  have hd2 : 2 * q ∣ f - 1 := Nat.Coprime.mul_dvd_of_dvd_of_dvd ((Nat.coprime_primes Nat.prime_two hq).2 (Ne.symm hq2)) (by omega) hd
  have := Nat.le_of_dvd (by have := hf.two_le; omega) hd2
  have h4 : (2 * q + 1) * (2 * q + 1) ≤ f * f := Nat.mul_le_mul (by omega) (by omega)
  rw [pow_two] at hsq
  omega

theorem trial_small (P bits : Nat) (hP : 1 < P) (hlt : P < 2 ^ bits) (hb : bits < 29) (h : trialDivision P (1 <<< ((bits + 1) / 2)) = .ok false) : P.Prime := by
  by_contra hc
  have hf := Nat.minFac_prime (show P ≠ 1 by omega)
  have hfd := Nat.minFac_dvd P
  have hsq := Nat.minFac_sq_le_self (by omega) hc
  have hle : P.minFac < 2 ^ ((bits + 1) / 2) := by
    by_contra h'
    have h1 : 2 ^ ((bits + 1) / 2) * 2 ^ ((bits + 1) / 2) ≤ P.minFac * P.minFac := Nat.mul_le_mul (by omega) (by omega)
    rw [← pow_add] at h1
    have h2 := Nat.pow_le_pow_right (show 0 < 2 by omega) (show bits ≤ (bits + 1) / 2 + (bits + 1) / 2 by omega)
    rw [pow_two] at hsq
    omega
  have hb2 : 2 ^ ((bits + 1) / 2) ≤ 2 ^ 14 := Nat.pow_le_pow_right (by omega) (by omega)
  rw [Nat.one_shiftLeft] at h
  obtain ⟨b, e, hb'⟩ := trialDivision_spec P (2 ^ ((bits + 1) / 2)) (by omega)
  rw [e] at h
  injection h with h
  subst h
  have := hb'.2 ⟨P.minFac, hf, by omega, by exact_mod_cast hfd⟩
  simp at this

theorem maurer_sound {fuel bits : Nat} {sz : Nat → Nat → Prop} {p : Int} (hz : ∀ b s, sz b s → maurerSize b s ∧ b < 2 * s) (h2 : 2 ≤ bits)
    (h : Maurer fuel sz bits p) : p.toNat.Prime ∧ 3 * 2 ^ (bits - 1) ≤ 4 * p ∧ p < 2 ^ bits := by
  induction h with
  | @small bits p hb h1 h2' hm ht =>
    have h4 : (2 : Int) ^ 1 ≤ 2 ^ (bits - 1) := pow_le_pow_right₀ (by omega) (by omega)
    obtain ⟨p, rfl⟩ : ∃ k : Nat, p = k := ⟨p.toNat, by omega⟩
    have hlt : (p : Int) < 2 ^ bits := by omega
    exact ⟨trial_small p bits (by omega) (by exact_mod_cast hlt) hb ht, by omega, hlt⟩
  | @step bits size q R a hb hs hq h1 h2' ht ha ha2 hg hp ih =>
    obtain ⟨⟨z1, z2⟩, z3⟩ := hz _ _ hs
    have z4 : size + 10 ≤ bits := by
      split at z2 <;> omega
    obtain ⟨i1, i2, i3⟩ := ih (by omega)
    have hqpos : 0 < q := by
      have : (0 : Int) < 2 ^ (size - 1) := by positivity
      omega
    obtain ⟨q, rfl⟩ : ∃ k : Nat, q = k := ⟨q.toNat, by omega⟩
    rw [Int.toNat_natCast] at i1
    -- powers of two
    obtain ⟨X, hX⟩ : ∃ X : Int, X = 2 ^ (size - 1) := ⟨_, rfl⟩
    have hX1 : (2 : Int) ^ size = 2 * X := by rw [hX, ← pow_succ', show size - 1 + 1 = size by omega]
    obtain ⟨Y, hY⟩ : ∃ Y : Int, Y = 2 ^ (bits - 2) := ⟨_, rfl⟩
    have hY1 : (2 : Int) ^ (bits - 1) = 2 * Y := by rw [hY, ← pow_succ', show bits - 2 + 1 = bits - 1 by omega]
    have hY2 : (2 : Int) ^ bits = 4 * Y := by
      rw [show bits = bits - 1 + 1 by omega, pow_succ', hY1]; ring
    have hXY : 512 * X ≤ Y := by
      rw [hX, hY, show (512 : Int) = 2 ^ 9 by norm_num, ← pow_add]
      exact pow_le_pow_right₀ (by omega) (by omega)
    have hXX : 2 * Y ≤ X * X := by
      rw [hX, hY, ← pow_succ', ← pow_add]
      exact pow_le_pow_right₀ (by omega) (by omega)
    have hX13 : 2 ^ 13 ≤ X := by
      rw [hX]; exact pow_le_pow_right₀ (by omega) (by omega)
    rw [← hX] at i2
    rw [hX1] at i3
    rw [← hY] at h1 h2'
    rw [hY1, hY2]
    have hI := Int.emod_add_mul_ediv Y q
    have hm0 := Int.emod_nonneg Y (show (q : Int) ≠ 0 by omega)
    have hm1 := Int.emod_lt_of_pos Y hqpos
    generalize Y / (q : Int) = I at *
    have hRq : I * q ≤ R * q := Int.mul_le_mul_of_nonneg_right h1 (by omega)
    have hRq2 : R * q ≤ I * 2 * q := Int.mul_le_mul_of_nonneg_right h2' (by omega)
    have e1 : (q : Int) * I = I * q := Int.mul_comm _ _
    have e2 : I * 2 * (q : Int) = 2 * (I * q) := by ring
    have hm2 : Y % (q : Int) ≠ 0 := by
      intro h0
      have hd : (q : Int) ∣ 2 ^ (bits - 2) := hY ▸ Int.dvd_of_emod_eq_zero h0
      have hd' : q ∣ 2 ^ (bits - 2) := by exact_mod_cast hd
      have := (Nat.prime_dvd_prime_iff_eq i1 Nat.prime_two).1 (i1.dvd_of_dvd_pow hd')
      omega
    rw [e1] at hI
    rw [e2] at hRq2
    have hpos : (R * q * 2 + 1 : Int) = ((R * q * 2 + 1).toNat : Int) := by omega
    generalize hS : R * (q : Int) = S at *
    have hlt : S * 2 + 1 < 4 * Y := by omega
    refine ⟨?_, by omega, hlt⟩
    obtain ⟨P, hP⟩ : ∃ P : Nat, S * 2 + 1 = P := ⟨_, hpos⟩
    rw [hP] at hg hp ⊢
    rw [Int.toNat_natCast]
    refine pocklington (q := q) (by omega) (by omega) i1 (by omega) ?_ _ hp ?_
    · have h9 := Int.mul_le_mul i2 i2 (by omega) (by omega)
      have h10 : 3 * X * (3 * X) = 9 * (X * X) := by ring
      have h11 : 4 * (q : Int) * (4 * q) = 16 * ((q : Int) * q) := by ring
      have h12 : (2 * (q : Int) + 1) * (2 * q + 1) = 4 * ((q : Int) * q) + 4 * q + 1 := by ring
      have : (P : Int) < (2 * q + 1) * (2 * q + 1) := by omega
      exact_mod_cast this
    · unfold gcd at hg
      have := gcdLoop_ok _ _ _ _ hg
      rw [Int.gcd_comm]
      simpa using this.symm

/-! ## Generators -/

theorem residue_spec (p : Nat) (hp : p.Prime) (h5 : 5 ≤ p) (fuel : Nat) (hf : p ≤ fuel) :
    ∃ g, safeGenerator fuel p = .ok g ∧ 2 ≤ g ∧ g ≤ 4 ∧ J(g | p) = 1 := by
  have hodd : p % 2 = 1 := by rcases hp.eq_two_or_odd with h | h <;> omega
  have key : ∀ (f : Nat) (g : Int), 2 ≤ g → g ≤ 4 → 5 ≤ g + f → ∃ r, residue fuel p f g = .ok r ∧ 2 ≤ r ∧ r ≤ 4 ∧ J(r | p) = 1 := by
    intro f
    induction f with
    | zero => intro g h1 h2 h3; omega
    | succ f ih =>
      intro g h1 h2 h3
      rw [residue]
      rw [jacobi_spec fuel g p hodd hf]
      by_cases hj : J(g | p) = 1
      · exact ⟨g, by simp [hj], h1, h2, hj⟩
      · simp only [ne_eq, hj, not_false_eq_true, if_true]
        have : g ≠ 4 := by
          rintro rfl
          apply hj
          rw [show (4 : Int) = 2 ^ 2 by norm_num]
          exact jacobiSym.sq_one' (by
            rw [Int.gcd_comm]
            have := (Nat.coprime_primes hp Nat.prime_two).2 (by omega)
            exact_mod_cast this)
        exact ih (g + 1) (by omega) (by omega) (by omega)
  unfold safeGenerator
  exact key fuel 2 (by omega) (by omega) (by omega)

theorem safe_order (p q : Nat) (hp : p.Prime) (hq : q.Prime) (hpq : p = 2 * q + 1) (g : Int) (h1 : 2 ≤ g) (h2 : g ≤ 4) (hj : J(g | p) = 1) :
    orderOf (g : ZMod p) = q := by
  have := Fact.mk hp
  have := Fact.mk hq
  have hq2 := hq.two_le
  refine orderOf_eq_prime ?_ ?_
  · have h := legendreSym.eq_pow p g
    rw [jacobiSym.legendreSym.to_jacobiSym, hj] at h
    rw [show p / 2 = q by omega] at h
    simpa using h.symm
  · intro h
    have h3 : ((p : Nat) : Int) ∣ g - 1 := (ZMod.intCast_zmod_eq_zero_iff_dvd (g - 1) p).1 (by push_cast; rw [h, sub_self])
    have := Int.le_of_dvd (by omega) h3
    omega

theorem subgroup_order (p q : Nat) (hp : p.Prime) (hq : q.Prime) (hd : q ∣ p - 1) : ∀ (hs : List Int) (g : Int),
    subgroupGenerator p q hs = .ok g → 1 < g ∧ g < p ∧ orderOf (g : ZMod p) = q
  | [], _, h => by simp [subgroupGenerator] at h
  | x :: hs, g, h => by
    have := Fact.mk hp
    have := Fact.mk hq
    have hp2 := hp.two_le
    rw [subgroupGenerator] at h
    by_cases hg : powMod x (((p : Int) - 1) / q) p ≤ 1
    · rw [if_pos hg] at h
      exact subgroup_order p q hp hq hd hs g h
    · rw [if_neg hg] at h
      injection h with h
      subst h
      have hlt : powMod x (((p : Int) - 1) / q) p < p := Int.emod_lt_of_pos _ (by omega)
      refine ⟨by omega, hlt, orderOf_eq_prime ?_ ?_⟩
      · have e : (((p : Int) - 1) / q).toNat = (p - 1) / q := by
          rw [show ((p : Int) - 1) / q = (((p - 1) / q : Nat) : Int) by push_cast [show 1 ≤ p by omega]; rfl, Int.toNat_natCast]
        have hne : (x : ZMod p) ≠ 0 := by
          intro h0
          have h1 : ((powMod x (((p : Int) - 1) / q) p : Int) : ZMod p) = 0 := by
            unfold powMod
            rw [ZMod.intCast_mod, Int.cast_pow, h0, e, zero_pow]
            have := Nat.div_pos (Nat.le_of_dvd (by omega) hd) hq.pos
            omega
          have h2 := Int.le_of_dvd (by omega) ((ZMod.intCast_zmod_eq_zero_iff_dvd _ p).1 h1)
          omega
        unfold powMod
        rw [ZMod.intCast_mod, Int.cast_pow, e, ← pow_mul, Nat.div_mul_cancel hd]
        exact ZMod.pow_card_sub_one_eq_one hne
      · intro h
        have h3 := (ZMod.intCast_zmod_eq_zero_iff_dvd (powMod x (((p : Int) - 1) / q) p - 1) p).1 (by push_cast; rw [h, sub_self])
        have := Int.le_of_dvd (by omega) h3
        omega

end Verif.Nbt
