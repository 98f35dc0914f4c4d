import Mathlib.Tactic.NormNum.Prime
import Verif.Rsa.Proofs

/-! # RSA decryption inverts encryption (C32) -/
namespace Verif.Rsa
open Verif.Dl

/-- For every key that passes `Validate` at level 1 and has prime factors, every blinding value and every `x` below the modulus, the private operation inverts the public one. -/
theorem decrypt_inverts_encrypt (k : Key) (p q : Nat) (hv : validate k 1 = true) (hp : k.p = p) (hq : k.q = q) (hpp : p.Prime) (hqp : q.Prime)
    (rs : List Int) (hr : ∃ r ∈ rs, Int.gcd r k.n = 1) (x : Int) (hx : 0 ≤ x) (hxn : x < k.n) :
    ∃ y, applyFunction (validatePublic k) k x = .ok y ∧ calculateInverse k rs y = .ok x := by
  have h0 : validate k 0 = true := by
    unfold validate at hv ⊢
    simp only [Bool.and_eq_true] at hv ⊢
    exact ⟨hv.1, by simp⟩
  have h1 : validatePublic k = true := by
    unfold validate at h0
    simp only [Bool.and_eq_true] at h0
    exact h0.1.1.1.1.1.1.1
  refine ⟨powMod x k.e k.n, ?_, inverse_eq (valid_of_validate hv hp hq hpp hqp) h0 rs hr x hx hxn⟩
  unfold applyFunction
  rw [h1]; rfl

/-- And the public operation inverts the private one: this is what makes signatures verify. -/
theorem verify_inverts_sign (k : Key) (p q : Nat) (hv : validate k 1 = true) (hp : k.p = p) (hq : k.q = q) (hpp : p.Prime) (hqp : q.Prime)
    (rs : List Int) (hr : ∃ r ∈ rs, Int.gcd r k.n = 1) (c : Int) (hc : 0 ≤ c) (hcn : c < k.n) :
    ∃ y, calculateInverse k rs c = .ok y ∧ applyFunction (validatePublic k) k y = .ok c ∧ 0 ≤ y ∧ y < k.n := by
  have V := valid_of_validate hv hp hq hpp hqp
  have hroot := root_surj V c hc hcn
  obtain ⟨y, hy, hyn, hyc⟩ := hroot
  obtain ⟨z, h1, h2⟩ := decrypt_inverts_encrypt k p q hv hp hq hpp hqp rs hr y hy hyn
  have hz : z = c := by
    have : applyFunction (validatePublic k) k y = .ok (powMod y k.e k.n) := by
      unfold applyFunction at h1 ⊢
      split at h1
      · cases h1
      · rename_i h; rw [if_neg h]
    rw [this] at h1
    injection h1 with h1
    rw [← h1, hyc]
  rw [hz] at h1 h2
  exact ⟨y, h2, h1, hy, hyn⟩

/-- Whatever the key's private parts and the blinding value are, a result is only returned if the public operation maps it back: a fault in the private operation does not leave the object. -/
theorem result_checked (k : Key) (rs : List Int) (c y : Int) (h : calculateInverse k rs c = .ok y) : powMod y k.e k.n = c := by
  unfold calculateInverse at h
  split at h
  · cases h
  · split at h
    · cases h
    · simp only at h
      split at h
      · cases h
      · rename_i hc
        simp only [Except.ok.injEq] at h
        rw [← h]
        exact Decidable.not_not.mp hc

/-- A number that is not below the modulus is answered with an exception: nothing maps to it. -/
theorem too_large_throws (k : Key) (rs : List Int) (c : Int) (hn : 0 < k.n) (h : k.n ≤ c) : ∀ y, calculateInverse k rs c ≠ .ok y := by
  intro y hy
  have := result_checked k rs c y hy
  have h2 : powMod y k.e k.n < k.n := Int.emod_lt_of_pos _ hn
  omega

/-- The textbook key: 61 * 53, with the public exponent 17. -/
private def small : Key := makeKey 61 53 17

example : small = { n := 3233, e := 17, d := 413, p := 61, q := 53, dp := 53, dq := 49, u := 38 } := by decide +kernel
example : validate small 1 = true := by decide +kernel
example : applyFunction (validatePublic small) small 65 = .ok 2790 ∧ calculateInverse small [61, 100] 2790 = .ok 65 := by decide +kernel
example : ∃ y, applyFunction (validatePublic small) small 65 = .ok y ∧ calculateInverse small [61, 100] y = .ok 65 :=
  decrypt_inverts_encrypt small 61 53 (by decide +kernel) rfl rfl (by norm_num) (by norm_num) _ ⟨100, by simp, by decide +kernel⟩ 65 (by decide) (by decide +kernel)
/-- A multiple of a factor is decrypted as well. -/
example : ∃ y, applyFunction (validatePublic small) small 122 = .ok y ∧ calculateInverse small [7] y = .ok 122 :=
  decrypt_inverts_encrypt small 61 53 (by decide +kernel) rfl rfl (by norm_num) (by norm_num) _ ⟨7, by simp, by decide +kernel⟩ 122 (by decide) (by decide +kernel)
/-- With a wrong CRT exponent the private operation throws. -/
example : calculateInverse { small with dp := 51 } [7] 2790 = .error .other := by decide +kernel

/-! ## Making keys -/

/-- Keys generated from two different odd primes with a public exponent prime to `p - 1` and `q - 1` pass `Validate`, so that the theorems above apply, if their CRT exponents are not 1. -/
theorem generated_key_valid (p q : Nat) (hp : p.Prime) (hq : q.Prime) (hne : p ≠ q) (hp2 : p ≠ 2) (hq2 : q ≠ 2) (e : Int) (he : 1 < e) (he2 : e % 2 = 1) (hen : e < p * q)
    (hep : Int.gcd e (p - 1) = 1) (heq : Int.gcd e (q - 1) = 1) (hdp : 1 < (makeKey p q e).dp) (hdq : 1 < (makeKey p q e).dq) : validate (makeKey p q e) 1 = true :=
  makeKey_validate hp hq hne hp2 hq2 e he he2 hen hep heq hdp hdq

example : validate (makeKey (61 : Nat) (53 : Nat) 17) 1 = true :=
  generated_key_valid 61 53 (by norm_num) (by norm_num) (by decide) (by decide) (by decide) 17 (by decide) (by decide) (by decide) (by decide +kernel) (by decide +kernel) (by decide +kernel) (by decide +kernel)

/-- A correct key with a CRT exponent of 1 is refused by the sanity check of every operation: with the default exponent 17, when 17 is a factor. -/
theorem crt_exponent_one_refused : ∃ (p q : Nat) (e : Int), p.Prime ∧ q.Prime ∧ p ≠ q ∧ 1 < e ∧ e % 2 = 1 ∧ Int.gcd e (p - 1) = 1 ∧ Int.gcd e (q - 1) = 1 ∧
    calculateInverse (makeKey p q e) [2] 5 = .error .other :=
  ⟨17, 53, 17, by norm_num, by norm_num, by decide, by decide, by decide, by decide +kernel, by decide +kernel, by decide +kernel⟩

/-- `Initialize(n, e, d)`: the key it makes of a modulus with two prime factors and matching exponents decrypts what the public key encrypts (if it passes the sanity check of the private operation). -/
theorem initialized_key_works (p q : Nat) (hp : p.Prime) (hq : q.Prime) (hne : p ≠ q) (hp2 : p ≠ 2) (hq2 : q ≠ 2) (fuel : Nat) (e d : Int) (he : 0 < e) (hd : 0 < d)
    (h1 : e * d ≡ 1 [ZMOD (p - 1 : Int)]) (h2 : e * d ≡ 1 [ZMOD (q - 1 : Int)]) (k : Key) (h : initKey fuel (p * q) e d = .ok k) :
    (k.n = p * q ∧ k.e = e ∧ k.d = d) ∧ k.p * k.q = k.n ∧ (k.p = p ∨ k.p = q) ∧
    ∀ rs : List Int, (∃ r ∈ rs, Int.gcd r k.n = 1) → validate k 0 = true → ∀ x, 0 ≤ x → x < k.n → calculateInverse k rs (powMod x k.e k.n) = .ok x := by
  obtain ⟨⟨hn, hke, hkd, hdp, hdq, hu⟩, hpq⟩ := initKey_spec hp hq hne fuel e d h
  refine ⟨⟨hn, hke, hkd⟩, ?_, ?_, ?_⟩
  · rcases hpq with ⟨a, b⟩ | ⟨a, b⟩
    · rw [a, b, hn]
    · rw [a, b, hn]; ring
  · rcases hpq with ⟨a, _⟩ | ⟨a, _⟩
    · exact .inl a
    · exact .inr a
  · intro rs hr hv x hx hxn
    rcases hpq with ⟨a, b⟩ | ⟨a, b⟩
    · exact inverse_eq (Key.Valid.swap_exp hp hq hne hn hke hkd a b hdp hdq hu he hd h1 h2 hp2 hq2) hv rs hr x hx hxn
    · exact inverse_eq (Key.Valid.swap_exp hq hp (fun h => hne h.symm) (by rw [hn]; ring) hke hkd a b hdp hdq hu he hd h2 h1 hq2 hp2) hv rs hr x hx hxn

example : initKey 5 3233 17 413 = .ok { n := 3233, e := 17, d := 413, p := 61, q := 53, dp := 53, dq := 49, u := 38 } ∨
    initKey 5 3233 17 413 = .ok { n := 3233, e := 17, d := 413, p := 53, q := 61, dp := 49, dq := 53, u := 20 } := by decide +kernel

/-- A valid key that `Initialize(n, e, d)` refuses: 145 = 5 * 29. The bases 2, 3 and 4 do not split the modulus, and the base 5 is not prime to it. -/
theorem initialize_refuses_valid_key : validate (makeKey 5 29 3) 1 = true ∧ (makeKey 5 29 3).n = 145 ∧ (makeKey 5 29 3).d = 19 ∧
    ∀ fuel, 4 ≤ fuel → initKey fuel 145 3 19 = .error .invalidArgument := by
  refine ⟨by decide +kernel, by decide +kernel, by decide +kernel, ?_⟩
  intro fuel hf
  obtain ⟨f, rfl⟩ : ∃ f, fuel = f + 4 := ⟨fuel - 4, by omega⟩
  have hs : strip ((19 : Int) * 3).toNat (19 * 3 - 1) 0 = some (7, 3) := by decide +kernel
  have b2 : powMod 2 7 145 ≠ 1 ∧ squares 145 3 4 (powMod 2 7 145) 0 = .ok none := by decide +kernel
  have b3 : powMod (2 + 1) 7 145 ≠ 1 ∧ squares 145 3 4 (powMod (2 + 1) 7 145) 0 = .ok none := by decide +kernel
  have b4 : powMod (2 + 1 + 1) 7 145 ≠ 1 ∧ squares 145 3 4 (powMod (2 + 1 + 1) 7 145) 0 = .ok none ∨ powMod (2 + 1 + 1) 7 145 = 1 := by decide +kernel
  have b5 : powMod (2 + 1 + 1 + 1) 7 145 ≠ 1 ∧ squares 145 3 4 (powMod (2 + 1 + 1 + 1) 7 145) 0 = .error .invalidArgument := by decide +kernel
  unfold initKey
  rw [if_neg (by decide), hs]
  simp only [bases, if_neg b2.1, b2.2, if_neg b3.1, b3.2, if_neg b5.1, b5.2]
  rcases b4 with b4 | b4
  · simp only [if_neg b4.1, b4.2]
  · simp only [b4, if_true]

/-- With `d = e = 1` the loop that removes the factors of two does not end. -/
theorem initialize_diverges (fuel : Nat) (n : Int) (hn : n % 2 ≠ 0) : initKey fuel n 1 1 = .error .diverges := by
  unfold initKey
  rw [if_neg (by simpa using hn)]
  rfl

/-- No number of halvings of zero gives an odd number. -/
theorem halving_zero_diverges (f s : Nat) : strip f 0 s = none := by
  induction f generalizing s with
  | zero => rfl
  | succ f ih => unfold strip; simpa using ih (s + 1)

/-- `strip` ends whenever the number is positive: the model's bound is not what makes the last theorem true. -/
theorem strip_ends (f : Nat) (r : Int) (s : Nat) (hr : 0 < r) (hf : r ≤ f) : ∃ r' s', strip f r s = some (r', s') ∧ r' % 2 = 1 ∧ r = r' * 2 ^ (s' - s) ∧ s ≤ s' := by
  induction f generalizing r s with
  | zero => omega
  | succ f ih =>
    unfold strip
    split
    · rename_i h
      obtain ⟨r', s', h1, h2, h3, h4⟩ := ih (r / 2) (s + 1) (by omega) (by omega)
      refine ⟨r', s', h1, h2, ?_, by omega⟩
      have : r = r / 2 * 2 := by omega
      rw [this, h3, mul_assoc, ← pow_succ]
      congr 2; omega
    · exact ⟨r, s, rfl, by omega, by simp, Nat.le_refl s⟩

/-! ## ISO 9796 -/

/-- With the ISO 9796 variant, whatever is signed (a representative ends in the nibble 12) is found again by the verifier, and the signature is at most half the modulus. -/
theorem iso_verify_inverts_sign (k : Key) (p q : Nat) (hv : validate k 1 = true) (hp : k.p = p) (hq : k.q = q) (hpp : p.Prime) (hqp : q.Prime)
    (rs : List Int) (hr : ∃ r ∈ rs, Int.gcd r k.n = 1) (c : Int) (hc : 0 < c) (hcn : c < k.n) (h12 : c % 16 = 12) :
    ∃ y, inverseIso k rs c = .ok y ∧ applyIso (validatePublic k) k y = .ok c ∧ 0 ≤ y ∧ 2 * y ≤ k.n := by
  obtain ⟨y, h1, h2, h3, h4⟩ := verify_inverts_sign k p q hv hp hq hpp hqp rs hr c (le_of_lt hc) hcn
  have hpub : validatePublic k = true := by
    unfold applyFunction at h2
    split at h2
    · cases h2
    · rename_i h; simpa using h
  have hval := hpub
  unfold validatePublic at hval
  simp only [Bool.and_eq_true, decide_eq_true_eq] at hval
  have hy : powMod y k.e k.n = c := result_checked k rs c y h1
  refine ⟨min y (k.n - y), ?_, ?_, by omega, by omega⟩
  · unfold inverseIso; rw [h1]
  · unfold applyIso applyFunction
    rw [hpub]
    simp only [Bool.not_true, Bool.false_eq_true, if_false]
    rcases Int.le_total y (k.n - y) with h | h
    · rw [Int.min_eq_left h, hy, if_pos h12]
    · rw [Int.min_eq_right h, powMod_neg k.n y k.e (by omega) (by omega) (by omega), hy, if_neg (by omega)]
      congr 1; omega

/-- And it decrypts what it encrypts, for numbers up to half the modulus. -/
theorem iso_decrypt_inverts_encrypt (k : Key) (p q : Nat) (hv : validate k 1 = true) (hp : k.p = p) (hq : k.q = q) (hpp : p.Prime) (hqp : q.Prime)
    (rs : List Int) (hr : ∃ r ∈ rs, Int.gcd r k.n = 1) (x : Int) (hx : 0 < x) (hxn : 2 * x < k.n) :
    ∃ y, applyIso (validatePublic k) k x = .ok y ∧ inverseIso k rs y = .ok x := by
  have V := valid_of_validate hv hp hq hpp hqp
  obtain ⟨t, h1, h2⟩ := decrypt_inverts_encrypt k p q hv hp hq hpp hqp rs hr x (le_of_lt hx) (by omega)
  have hpub : validatePublic k = true := by
    unfold applyFunction at h1
    split at h1
    · cases h1
    · rename_i h; simpa using h
  have ht : t = powMod x k.e k.n := by
    unfold applyFunction at h1
    rw [hpub] at h1
    injection h1 with h1
    exact h1.symm
  have hval := hpub
  unfold validatePublic at hval
  simp only [Bool.and_eq_true, decide_eq_true_eq] at hval
  have ht0 : 0 ≤ t := by rw [ht]; exact Int.emod_nonneg _ (by omega)
  refine ⟨if t % 16 = 12 then t else k.n - t, by unfold applyIso; rw [h1], ?_⟩
  unfold inverseIso
  by_cases h12 : t % 16 = 12
  · rw [if_pos h12, h2]
    simp only
    rw [Int.min_eq_left (by omega)]
  · have htpos : 0 < t := by
      rcases Int.lt_or_eq_of_le ht0 with h | h
      · exact h
      · exfalso
        obtain ⟨z, h3, h4⟩ := decrypt_inverts_encrypt k p q hv hp hq hpp hqp rs hr 0 (by omega) (by omega)
        have hz : z = 0 := by
          unfold applyFunction at h3
          rw [hpub] at h3
          injection h3 with h3
          rw [← h3]; unfold powMod
          rw [zero_pow (by omega)]; simp
        rw [hz, h, h2] at h4
        injection h4 with h4
        omega
    have hneg : k.n - t = powMod (k.n - x) k.e k.n := by rw [powMod_neg k.n x k.e (by omega) (by omega) (by omega), ht]
    obtain ⟨z, h3, h4⟩ := decrypt_inverts_encrypt k p q hv hp hq hpp hqp rs hr (k.n - x) (by omega) (by omega)
    have hz : z = k.n - t := by
      unfold applyFunction at h3
      rw [hpub] at h3
      injection h3 with h3
      rw [← h3, hneg]
    rw [hz] at h4
    rw [if_neg h12, h4]
    simp only
    rw [Int.min_eq_right (by omega)]
    congr 1; omega

example : ∃ y, inverseIso small [7] 1004 = .ok y ∧ applyIso (validatePublic small) small y = .ok 1004 ∧ 0 ≤ y ∧ 2 * y ≤ small.n :=
  iso_verify_inverts_sign small 61 53 (by decide +kernel) rfl rfl (by norm_num) (by norm_num) _ ⟨7, by simp, by decide +kernel⟩ 1004 (by decide) (by decide +kernel) (by decide)

end Verif.Rsa
