import Mathlib.Tactic.Ring
import Mathlib.Tactic.Linarith
import Mathlib.Data.Int.ModEq
import Mathlib.Data.Int.GCD
import Mathlib.Data.Nat.Prime.Int
import Verif.Dl.Spec

namespace Verif.Dl
open Verif.Misc

variable {E : Type} {P : Params E} {V : E → Prop} {one : E}

/-! ## Inverses -/

theorem invMod_nonneg (a m : Int) (hm : 0 < m) : 0 ≤ invMod a m := by
  unfold invMod
  split
  · exact Int.emod_nonneg _ (by omega)
  · omega

theorem egcd_spec (a m : Int) (f : Nat) (r0 r1 s0 s1 : Int) (h0 : 0 ≤ r0) (h1 : 0 ≤ r1) (hf : r1.toNat < f) (e0 : s0 * a ≡ r0 [ZMOD m]) (e1 : s1 * a ≡ r1 [ZMOD m]) :
    egcd f r0 r1 s0 s1 * a ≡ Int.gcd r0 r1 [ZMOD m] := by
  induction f generalizing r0 r1 s0 s1 with
  | zero => omega
  | succ f ih =>
    unfold egcd
    split
    · rename_i h
      rw [h, Int.gcd_zero_right]
      have : ((r0.natAbs : Nat) : Int) = r0 := by omega
      rw [this]; exact e0
    · rename_i h
      have hp : 0 < r1 := by omega
      have h2 := Int.emod_nonneg r0 (by omega : r1 ≠ 0)
      have h3 := Int.emod_lt_of_pos r0 hp
      have e : Int.gcd r0 r1 = Int.gcd r1 (r0 % r1) := by
        conv => lhs; rw [← Int.emod_add_mul_ediv r0 r1]
        rw [Int.gcd_add_mul_left_left, Int.gcd_comm]
      rw [e]
      apply ih r1 (r0 % r1) _ _ h1 h2 (by omega) e1
      have er : r0 % r1 = r0 - r0 / r1 * r1 := by have := Int.emod_add_mul_ediv r0 r1; linarith
      rw [er, sub_mul, mul_assoc]
      exact Int.ModEq.sub e0 (Int.ModEq.mul_left _ e1)

theorem mul_invMod (a m : Int) (hm : 0 < m) (h : Int.gcd a m = 1) : a * invMod a m ≡ 1 [ZMOD m] := by
  unfold invMod
  rw [if_pos h]
  have h2 := Int.emod_nonneg a (by omega : m ≠ 0)
  have h3 := Int.emod_lt_of_pos a hm
  have := egcd_spec a m (m.toNat + 1) m (a % m) 0 1 (by omega) h2 (by omega) (by rw [zero_mul]; exact (Int.modEq_zero_iff_dvd.mpr (dvd_refl m)).symm) (by rw [one_mul]; exact (Int.mod_modEq a m).symm)
  have e : Int.gcd m (a % m) = 1 := by
    rw [Int.gcd_comm, ← h]
    conv => rhs; rw [← Int.emod_add_mul_ediv a m]
    rw [Int.gcd_add_mul_left_left]
  rw [e] at this
  calc a * (egcd (m.toNat + 1) m (a % m) 0 1 % m) ≡ a * egcd (m.toNat + 1) m (a % m) 0 1 [ZMOD m] := Int.ModEq.mul_left _ (Int.mod_modEq _ _)
    _ = egcd (m.toNat + 1) m (a % m) 0 1 * a := by ring
    _ ≡ 1 [ZMOD m] := this

theorem gcd_prime (q : Nat) (hq : q.Prime) (a : Int) (h1 : 0 < a) (h2 : a < q) : Int.gcd a q = 1 := by
  obtain ⟨k, rfl⟩ := Int.eq_ofNat_of_zero_le (le_of_lt h1)
  rw [Int.gcd_natCast_natCast]
  exact (Nat.coprime_comm.mp ((Nat.Prime.coprime_iff_not_dvd hq).mpr (fun hd => by
      have := Nat.le_of_dvd (by omega) hd
      omega)))

theorem gcd_prime' (q : Nat) (hq : q.Prime) (a : Int) (h : a % q ≠ 0) : Int.gcd a q = 1 := by
  have h0 : (0:Int) < q := by exact_mod_cast hq.pos
  have h1 := Int.emod_nonneg a (by omega : (q:Int) ≠ 0)
  have h2 := Int.emod_lt_of_pos a h0
  have := gcd_prime q hq (a % q) (by omega) h2
  have e : Int.gcd a q = Int.gcd (a % q) q := by
    conv => lhs; rw [← Int.emod_add_mul_ediv a q]
    rw [Int.gcd_add_mul_left_left]
  rw [e, this]

namespace Params.Laws

variable (L : P.Laws V one)
include L

theorem V_exp_nat (a : E) (ha : V a) (n : Nat) : V (P.exp a n) := by
  induction n with
  | zero => rw [Nat.cast_zero, L.exp_zero a ha]; exact L.V_one
  | succ n ih => rw [Nat.cast_succ, L.exp_succ a n ha (by omega)]; exact L.V_mul _ _ ih ha

theorem V_exp (a : E) (ha : V a) (n : Int) (hn : 0 ≤ n) : V (P.exp a n) := by
  obtain ⟨k, rfl⟩ := Int.eq_ofNat_of_zero_le hn
  exact L.V_exp_nat a ha k

theorem exp_add (a : E) (ha : V a) (m n : Int) (hm : 0 ≤ m) (hn : 0 ≤ n) : P.exp a (m + n) = P.mul (P.exp a m) (P.exp a n) := by
  obtain ⟨k, rfl⟩ := Int.eq_ofNat_of_zero_le hn
  clear hn
  induction k with
  | zero =>
    rw [Nat.cast_zero, add_zero, L.exp_zero a ha, L.mul_comm _ _ (L.V_exp a ha m hm) L.V_one, L.one_mul _ (L.V_exp a ha m hm)]
  | succ k ih =>
    rw [Nat.cast_succ, ← add_assoc, L.exp_succ a _ ha (by omega), ih, L.exp_succ a k ha (by omega),
      L.mul_assoc _ _ _ (L.V_exp a ha m hm) (L.V_exp_nat a ha k) ha]

theorem exp_one (a : E) (ha : V a) : P.exp a 1 = a := by
  have := L.exp_succ a 0 ha (Int.le_refl _)
  rw [zero_add] at this
  rw [this, L.exp_zero a ha, L.one_mul a ha]

theorem one_exp (n : Int) (hn : 0 ≤ n) : P.exp one n = one := by
  obtain ⟨k, rfl⟩ := Int.eq_ofNat_of_zero_le hn
  induction k with
  | zero => rw [Nat.cast_zero, L.exp_zero _ L.V_one]
  | succ k ih => rw [Nat.cast_succ, L.exp_succ _ _ L.V_one (by omega), ih (by omega), L.one_mul _ L.V_one]

theorem exp_mul (a : E) (ha : V a) (m n : Int) (hm : 0 ≤ m) (hn : 0 ≤ n) : P.exp a (m * n) = P.exp (P.exp a m) n := by
  obtain ⟨k, rfl⟩ := Int.eq_ofNat_of_zero_le hn
  induction k with
  | zero => rw [Nat.cast_zero, mul_zero, L.exp_zero a ha, L.exp_zero _ (L.V_exp a ha m hm)]
  | succ k ih =>
    rw [Nat.cast_succ, mul_add, mul_one, L.exp_add a ha _ _ (Int.mul_nonneg hm (by omega)) hm, ih (by omega), L.exp_succ _ _ (L.V_exp a ha m hm) (by omega)]

theorem order_pos : 1 < P.order := by
  obtain ⟨q, hq, h⟩ := L.order
  rw [h]; exact_mod_cast hq.one_lt

/-- Powers of the generator depend on the exponent modulo the order. -/
theorem g_exp_mod (n : Int) (hn : 0 ≤ n) : P.exp P.g n = P.exp P.g (n % P.order) := by
  have hq := L.order_pos
  have h1 := Int.emod_nonneg n (by omega : P.order ≠ 0)
  have h2 : 0 ≤ n / P.order := Int.ediv_nonneg hn (by omega)
  conv => lhs; rw [← Int.mul_ediv_add_emod n P.order]
  rw [L.exp_add _ L.V_g _ _ (Int.mul_nonneg (by omega) h2) h1, L.exp_mul _ L.V_g _ _ (by omega) h2, L.g_order, L.one_exp _ h2, L.one_mul _ (L.V_exp _ L.V_g _ h1)]

theorem g_exp_congr (m n : Int) (hm : 0 ≤ m) (hn : 0 ≤ n) (h : m ≡ n [ZMOD P.order]) : P.exp P.g m = P.exp P.g n := by
  rw [L.g_exp_mod m hm, L.g_exp_mod n hn, h]

theorem g_exp_ne_one (n : Int) (hn : 0 < n) (hq : n < P.order) : P.exp P.g n ≠ one := by
  intro h
  obtain ⟨q, hp, hqo⟩ := L.order
  have hpos := L.order_pos
  have h1 := mul_invMod n P.order (by omega) (by rw [hqo]; exact gcd_prime q hp n hn (by omega))
  have h2 := invMod_nonneg n P.order (by omega)
  have h3 := L.g_exp_congr _ _ (Int.mul_nonneg (le_of_lt hn) h2) (by omega : (0:Int) ≤ 1) h1
  rw [L.exp_mul _ L.V_g _ _ (le_of_lt hn) h2, h, L.one_exp _ h2, L.exp_one _ L.V_g] at h3
  exact L.g_ne_one h3.symm

end Params.Laws

/-! ## Encodings -/

theorem decode_encodeInt (n : Int) (len : Nat) (h0 : 0 ≤ n) (h : n < 256 ^ len) : decodeInt (encodeInt n len) = n := by
  obtain ⟨k, rfl⟩ := Int.eq_ofNat_of_zero_le h0
  unfold decodeInt encodeInt
  rw [beVal_beBytes, Nat.mod_eq_of_lt (by simpa using (by exact_mod_cast h : k < 256 ^ len))]
  rfl

theorem encodeInt_length (n : Int) (len : Nat) : (encodeInt n len).length = len := beBytes_length _ _

theorem lt_byteCount (n m : Int) (h0 : 0 ≤ n) (h : n ≤ m) : n < 256 ^ byteCount m := by
  obtain ⟨k, rfl⟩ := Int.eq_ofNat_of_zero_le h0
  obtain ⟨l, rfl⟩ := Int.eq_ofNat_of_zero_le (le_trans h0 h)
  have := byteLen_lt l
  unfold byteCount
  have hk : k ≤ l := by exact_mod_cast h
  simp only [Int.toNat_natCast]
  exact_mod_cast (Nat.lt_of_le_of_lt hk this)

/-! ## Signatures -/

theorem cascade_pow (L : P.Laws V one) (a b c : Int) (ha : 0 ≤ a) (hb : 0 ≤ b) (hc : 0 ≤ c) :
    P.cascade P.g a (P.expBase c) b = P.exp P.g (a + c * b) := by
  rw [L.expBase c hc, L.cascade _ _ _ _ L.V_g (L.V_exp _ L.V_g c hc) ha hb, ← L.exp_mul _ L.V_g _ _ hc hb, ← L.exp_add _ L.V_g _ _ ha (Int.mul_nonneg hc hb)]

/-- The core of the scheme: a signature made with a private key verifies with its public element. -/
theorem sign_verify (L : P.Laws V one) (alg : Alg) (x k e r0 : Int) (hx : 0 < x) (hxq : x < P.order) (hk : 0 < k) (hkq : k < P.order) (he : 0 ≤ e)
    (hr0 : r0 = P.toInt (P.expBase k)) (hr : (sign P alg x k e r0).1 ≠ 0) (hs : alg = .nr ∨ (sign P alg x k e r0).2 ≠ 0) :
    verify P alg (publicElement P alg x) e (sign P alg x k e r0).1 (sign P alg x k e r0).2 = true := by
  obtain ⟨q, hq, hqo⟩ := L.order
  have hqpos := L.order_pos
  have hne : P.order ≠ 0 := by omega
  have hmod : ∀ a : Int, 0 ≤ a % P.order := fun a => Int.emod_nonneg a hne
  have hlt : ∀ a : Int, a % P.order < P.order := fun a => Int.emod_lt_of_pos a (by omega)
  cases alg with
  | gdsa =>
    have hs : (sign P .gdsa x k e r0).2 ≠ 0 := by rcases hs with h | h; cases h; exact h
    obtain ⟨r, hrr⟩ : ∃ r, r = (sign P .gdsa x k e r0).1 := ⟨_, rfl⟩
    obtain ⟨s, hss⟩ : ∃ s, s = (sign P .gdsa x k e r0).2 := ⟨_, rfl⟩
    rw [← hrr] at hr
    rw [← hss] at hs
    rw [← hrr, ← hss]
    simp only [sign] at hrr hss
    rw [← hrr] at hss
    replace hrr := hrr.symm
    replace hss := hss.symm
    unfold verify publicElement
    simp only
    have hr1 : 0 ≤ r ∧ r < P.order := by rw [← hrr]; exact ⟨hmod _, hlt _⟩
    have hs1 : 0 ≤ s ∧ s < P.order := by rw [← hss]; exact ⟨hmod _, hlt _⟩
    rw [if_neg (by simp only [Bool.or_eq_true, decide_eq_true_eq, not_or]; omega)]
    rw [cascade_pow L _ _ _ (hmod _) (hmod _) (le_of_lt hx)]
    have hkinv := mul_invMod k P.order (by omega) (by rw [hqo]; exact gcd_prime q hq k hk (by omega))
    have hsinv := mul_invMod s P.order (by omega) (by rw [hqo]; exact gcd_prime q hq s (by omega) (by omega))
    have hsk : s * k ≡ x * r + e [ZMOD P.order] := by
      have h1 : s ≡ invMod k P.order * (x * r + e) [ZMOD P.order] := by rw [← hss]; exact Int.mod_modEq _ _
      calc s * k ≡ invMod k P.order * (x * r + e) * k [ZMOD P.order] := Int.ModEq.mul_right _ h1
        _ = (k * invMod k P.order) * (x * r + e) := by ring
        _ ≡ 1 * (x * r + e) [ZMOD P.order] := Int.ModEq.mul_right _ hkinv
        _ = x * r + e := by ring
    have hexp : e * invMod s P.order % P.order + x * (r * invMod s P.order % P.order) ≡ k [ZMOD P.order] := by
      calc e * invMod s P.order % P.order + x * (r * invMod s P.order % P.order)
          ≡ e * invMod s P.order + x * (r * invMod s P.order) [ZMOD P.order] := Int.ModEq.add (Int.mod_modEq _ _) (Int.ModEq.mul_left _ (Int.mod_modEq _ _))
        _ = (x * r + e) * invMod s P.order := by ring
        _ ≡ s * k * invMod s P.order [ZMOD P.order] := Int.ModEq.mul_right _ hsk.symm
        _ = (s * invMod s P.order) * k := by ring
        _ ≡ 1 * k [ZMOD P.order] := Int.ModEq.mul_right _ hsinv
        _ = k := by ring
    rw [L.g_exp_congr _ k (by have := hmod (e * invMod s P.order); have := Int.mul_nonneg (le_of_lt hx) (hmod (r * invMod s P.order)); omega) (le_of_lt hk) hexp,
      ← L.expBase k (le_of_lt hk), ← hr0, hrr]
    simp
  | gdsaIso =>
    have hs : (sign P .gdsaIso x k e r0).2 ≠ 0 := by rcases hs with h | h; cases h; exact h
    obtain ⟨r, hrr⟩ : ∃ r, r = (sign P .gdsaIso x k e r0).1 := ⟨_, rfl⟩
    obtain ⟨s, hss⟩ : ∃ s, s = (sign P .gdsaIso x k e r0).2 := ⟨_, rfl⟩
    rw [← hrr] at hr
    rw [← hss] at hs
    rw [← hrr, ← hss]
    simp only [sign] at hrr hss
    rw [← hrr] at hss
    replace hrr := hrr.symm
    replace hss := hss.symm
    unfold verify publicElement
    simp only
    have hr1 : 0 ≤ r ∧ r < P.order := by rw [← hrr]; exact ⟨hmod _, hlt _⟩
    have hs1 : 0 ≤ s ∧ s < P.order := by rw [← hss]; exact ⟨hmod _, hlt _⟩
    rw [if_neg (by simp only [Bool.or_eq_true, decide_eq_true_eq, not_or]; omega)]
    have hxi := invMod_nonneg x P.order (by omega)
    rw [cascade_pow L _ _ _ (hmod _) (hmod _) hxi]
    have hxinv := mul_invMod x P.order (by omega) (by rw [hqo]; exact gcd_prime q hq x hx (by omega))
    have hrinv := mul_invMod r P.order (by omega) (by rw [hqo]; exact gcd_prime q hq r (by omega) (by omega))
    have hs2 : s ≡ (k * r - e) * x [ZMOD P.order] := by rw [← hss]; exact Int.mod_modEq _ _
    have hexp : invMod r P.order * e % P.order + invMod x P.order * (invMod r P.order * s % P.order) ≡ k [ZMOD P.order] := by
      calc invMod r P.order * e % P.order + invMod x P.order * (invMod r P.order * s % P.order)
          ≡ invMod r P.order * e + invMod x P.order * (invMod r P.order * s) [ZMOD P.order] := Int.ModEq.add (Int.mod_modEq _ _) (Int.ModEq.mul_left _ (Int.mod_modEq _ _))
        _ ≡ invMod r P.order * e + invMod x P.order * (invMod r P.order * ((k * r - e) * x)) [ZMOD P.order] :=
            Int.ModEq.add_left _ (Int.ModEq.mul_left _ (Int.ModEq.mul_left _ hs2))
        _ = invMod r P.order * e + (x * invMod x P.order) * (invMod r P.order * (k * r - e)) := by ring
        _ ≡ invMod r P.order * e + 1 * (invMod r P.order * (k * r - e)) [ZMOD P.order] := Int.ModEq.add_left _ (Int.ModEq.mul_right _ hxinv)
        _ = (r * invMod r P.order) * k := by ring
        _ ≡ 1 * k [ZMOD P.order] := Int.ModEq.mul_right _ hrinv
        _ = k := by ring
    rw [L.g_exp_congr _ k (by have := hmod (invMod r P.order * e); have := Int.mul_nonneg hxi (hmod (invMod r P.order * s)); omega) (le_of_lt hk) hexp,
      ← L.expBase k (le_of_lt hk), hrr]
    simp
  | nr =>
    clear hs
    obtain ⟨r, hrr⟩ : ∃ r, r = (sign P .nr x k e r0).1 := ⟨_, rfl⟩
    obtain ⟨s, hss⟩ : ∃ s, s = (sign P .nr x k e r0).2 := ⟨_, rfl⟩
    rw [← hrr] at hr
    rw [← hrr, ← hss]
    simp only [sign] at hrr hss
    rw [← hrr] at hss
    replace hrr := hrr.symm
    replace hss := hss.symm
    unfold verify publicElement
    simp only
    have hr1 : 0 ≤ r ∧ r < P.order := by rw [← hrr]; exact ⟨hmod _, hlt _⟩
    have hs1 : 0 ≤ s ∧ s < P.order := by rw [← hss]; exact ⟨hmod _, hlt _⟩
    rw [if_neg (by simp only [Bool.or_eq_true, decide_eq_true_eq, not_or]; omega)]
    rw [cascade_pow L _ _ _ hs1.1 hr1.1 (le_of_lt hx)]
    have hexp : s + x * r ≡ k [ZMOD P.order] := by
      have h1 : s ≡ k - x * r [ZMOD P.order] := by rw [← hss]; exact Int.mod_modEq _ _
      calc s + x * r ≡ (k - x * r) + x * r [ZMOD P.order] := Int.ModEq.add_right _ h1
        _ = k := by ring
    rw [L.g_exp_congr _ k (by have := Int.mul_nonneg (le_of_lt hx) hr1.1; omega) (le_of_lt hk) hexp, ← L.expBase k (le_of_lt hk), ← hr0, hrr]
    simp


theorem bits_bytes (q : Int) : bitCount q ≤ 8 * byteCount q := by
  unfold bitCount byteCount
  apply bitLen_le
  have := byteLen_lt q.toNat
  rw [Nat.pow_mul]
  exact this

theorem ks_congr (q k : Int) : (if bitCount (k + q) = bitCount q then k + q + q else k + q) ≡ k [ZMOD q] := by
  split
  · have : k + q + q = k + q * 2 := by ring
    rw [this]; exact Int.modEq_add_fac_self
  · have : k + q = k + q * 1 := by ring
    rw [this]; exact Int.modEq_add_fac_self

theorem ks_nonneg (q k : Int) (hq : 0 ≤ q) (hk : 0 ≤ k) : 0 ≤ (if bitCount (k + q) = bitCount q then k + q + q else k + q) := by
  split <;> omega

theorem signDigest_eq (L : P.Laws V one) (alg : Alg) (x k : Int) (hk : 0 ≤ k) (digest : List Byte) :
    signDigest P alg x k digest =
      encodeInt (sign P alg x k (decodeInt (representative alg digest (bitCount P.order))) (P.toInt (P.exp P.g k))).1 (byteCount P.order) ++
      encodeInt (sign P alg x k (decodeInt (representative alg digest (bitCount P.order))) (P.toInt (P.exp P.g k))).2 (byteCount P.order) := by
  have hq := L.order_pos
  unfold signDigest
  simp only
  rw [L.expBase _ (ks_nonneg _ _ (by omega) hk), L.g_exp_congr _ k (ks_nonneg _ _ (by omega) hk) hk (ks_congr _ _)]

theorem sign_range (L : P.Laws V one) (alg : Alg) (x k e r : Int) :
    (0 ≤ (sign P alg x k e r).1 ∧ (sign P alg x k e r).1 < P.order) ∧ (0 ≤ (sign P alg x k e r).2 ∧ (sign P alg x k e r).2 < P.order) := by
  have hq := L.order_pos
  cases alg <;> exact ⟨⟨Int.emod_nonneg _ (by omega), Int.emod_lt_of_pos _ (by omega)⟩, ⟨Int.emod_nonneg _ (by omega), Int.emod_lt_of_pos _ (by omega)⟩⟩

theorem verifyDigest_encoded (L : P.Laws V one) (alg : Alg) (y : E) (digest : List Byte) (r s : Int)
    (hr : 0 ≤ r ∧ r < P.order) (hs : 0 ≤ s ∧ s < P.order) :
    verifyDigest P alg y digest (encodeInt r (byteCount P.order) ++ encodeInt s (byteCount P.order)) =
      .ok (verify P alg y (decodeInt (representative alg digest (bitCount P.order))) r s) := by
  unfold verifyDigest
  have l1 := encodeInt_length r (byteCount P.order)
  have l2 := encodeInt_length s (byteCount P.order)
  simp only
  rw [if_neg (by rw [List.length_append, l1, l2]; omega)]
  rw [List.take_left' l1, List.drop_left' l1, List.take_of_length_le (le_of_eq l2), decode_encodeInt r _ hr.1 (lt_byteCount _ _ hr.1 (by omega)),
    decode_encodeInt s _ hs.1 (lt_byteCount _ _ hs.1 (by omega))]

theorem decodeInt_nonneg (b : List Byte) : 0 ≤ decodeInt b := Int.natCast_nonneg _

/-! ## The representative -/

theorem beVal_replicate (n : Nat) (l : List Byte) : beVal (List.replicate n 0 ++ l) = beVal l := by
  induction n with
  | zero => rfl
  | succ n ih => rw [List.replicate_succ, List.cons_append, beVal_cons, ih]; simp

theorem beVal_take_div (l : List Byte) (n : Nat) : beVal (l.take n) = beVal l / 256 ^ (l.length - n) := by
  conv => rhs; rw [← List.take_append_drop n l]
  rw [beVal_append, List.length_append, List.length_take, List.length_drop]
  have h1 := beVal_lt (l.drop n)
  rw [List.length_drop] at h1
  have e : min n l.length + (l.length - n) - n = l.length - n := by omega
  rw [e, Nat.add_comm, Nat.add_mul_div_right _ _ (Nat.pow_pos (by decide)), Nat.div_eq_of_lt h1, Nat.zero_add]

theorem rep_val (digest : List Byte) (len : Nat) :
    beVal (List.replicate (len - digest.length) 0 ++ digest.take (min len digest.length)) = beVal digest / 256 ^ (digest.length - len) := by
  rw [beVal_replicate, beVal_take_div]
  congr 2
  omega

theorem rep_lt (digest : List Byte) (len : Nat) :
    beVal (List.replicate (len - digest.length) 0 ++ digest.take (min len digest.length)) < 256 ^ len := by
  have := beVal_lt (List.replicate (len - digest.length) 0 ++ digest.take (min len digest.length))
  have e : (List.replicate (len - digest.length) (0 : Byte) ++ digest.take (min len digest.length)).length = len := by
    rw [List.length_append, List.length_replicate, List.length_take]; omega
  rwa [e] at this

theorem decode_encode_div (m k len : Nat) (h : m < 256 ^ len) : decodeInt (encodeInt ((m : Int) / 2 ^ k) len) = ((m / 2 ^ k : Nat) : Int) := by
  have e : ((m : Int) / 2 ^ k) = ((m / 2 ^ k : Nat) : Int) := by push_cast; rfl
  rw [e]
  apply decode_encodeInt _ _ (Int.natCast_nonneg _)
  exact_mod_cast Nat.lt_of_le_of_lt (Nat.div_le_self _ _) h

theorem div_div_bits (v b c d : Nat) (h : 8 * b + c = d) : v / 256 ^ b / 2 ^ c = v / 2 ^ d := by
  have : (256 : Nat) ^ b = 2 ^ (8 * b) := by rw [Nat.pow_mul]
  rw [this, Nat.div_div_eq_div_mul, ← Nat.pow_add, h]

theorem dsa_rep (digest : List Byte) (bits : Nat) : decodeInt (dsaRepresentative digest bits) = (leftmost bits digest : Nat) := by
  unfold dsaRepresentative leftmost
  simp only
  split
  · rename_i h
    have e : decodeInt (List.replicate ((bits + 7) / 8 - digest.length) 0 ++ digest.take (min ((bits + 7) / 8) digest.length)) =
      ((beVal (List.replicate ((bits + 7) / 8 - digest.length) 0 ++ digest.take (min ((bits + 7) / 8) digest.length)) : Nat) : Int) := rfl
    rw [e, decode_encode_div _ _ _ (rep_lt _ _), rep_val, div_div_bits _ _ _ (digest.length * 8 - bits) (by omega)]
  · rename_i h
    unfold decodeInt
    rw [rep_val, show digest.length - (bits + 7) / 8 = 0 by omega, show digest.length * 8 - bits = 0 by omega]
    simp

theorem nr_rep (digest : List Byte) (bits : Nat) (hb : 0 < bits) : decodeInt (nrRepresentative digest bits) = (leftmost (bits - 1) digest : Nat) := by
  unfold nrRepresentative leftmost
  simp only
  split
  · rename_i h
    have e : decodeInt (List.replicate ((bits + 7) / 8 - digest.length) 0 ++ digest.take (min ((bits + 7) / 8) digest.length)) =
      ((beVal (List.replicate ((bits + 7) / 8 - digest.length) 0 ++ digest.take (min ((bits + 7) / 8) digest.length)) : Nat) : Int) := rfl
    rw [e, decode_encode_div _ _ _ (rep_lt _ _), rep_val, div_div_bits _ _ _ (digest.length * 8 - (bits - 1)) (by omega)]
  · rename_i h
    unfold decodeInt
    rw [rep_val, show digest.length - (bits + 7) / 8 = 0 by omega, show digest.length * 8 - (bits - 1) = 0 by omega]
    simp

/-! ## Key agreement -/

theorem Params.Laws.g_exp_eq_one (L : P.Laws V one) (n : Int) (hn : 0 ≤ n) : P.exp P.g n = one ↔ n % P.order = 0 := by
  have hq := L.order_pos
  rw [L.g_exp_mod n hn]
  have h1 := Int.emod_nonneg n (by omega : P.order ≠ 0)
  have h2 := Int.emod_lt_of_pos n (by omega : 0 < P.order)
  constructor
  · intro h
    have := mt (L.g_exp_ne_one (n % P.order))
    rcases Int.lt_or_eq_of_le h1 with h3 | h3
    · exact absurd h (L.g_exp_ne_one _ h3 h2)
    · exact h3.symm
  · intro h; rw [h, L.exp_zero _ L.V_g]

theorem decode_public (L : P.Laws V one) (x : Int) (hx : 0 < x) (hxq : x < P.order) (b : Bool) : P.decode (P.encode true (P.expBase x)) b = some (P.exp P.g x) := by
  rw [L.expBase x (le_of_lt hx)]
  exact L.decode_encode _ _ (L.V_exp _ L.V_g _ (le_of_lt hx)) (L.g_exp_ne_one x hx hxq)

theorem divMod_mul (q : Nat) (hq : q.Prime) (x k : Int) (hk : k % q ≠ 0) : divMod q x k * k ≡ x [ZMOD q] := by
  have h := mul_invMod k q (by exact_mod_cast hq.pos) (gcd_prime' q hq k hk)
  unfold divMod
  calc x * invMod k q % q * k ≡ x * invMod k q * k [ZMOD q] := Int.ModEq.mul_right _ (Int.mod_modEq _ _)
    _ = (k * invMod k q) * x := by ring
    _ ≡ 1 * x [ZMOD q] := Int.ModEq.mul_right _ h
    _ = x := by ring

theorem divMod_nonneg (q x k : Int) (hq : 0 < q) : 0 ≤ divMod q x k := Int.emod_nonneg _ (by omega)

theorem agreeStatic_eq (L : P.Laws V one) (c : Cofactor) (hc : c = .compatible → P.cofactor % P.order ≠ 0) (x y : Int) (hx : 0 < x) (hxq : x < P.order) (hy : 0 ≤ y) (v : Bool) :
    agreeStatic P c (P.exp P.g x) v y = some (P.exp P.g (x * y * if c = .incompatible then P.cofactor else 1)) := by
  have hq := L.order_pos
  have hx0 := le_of_lt hx
  have hcof := L.cofactor
  obtain ⟨q, hqp, hqo⟩ := L.order
  cases c with
  | compatible =>
    have hd := divMod_nonneg P.order y P.cofactor (by omega)
    unfold agreeStatic
    simp only [reduceCtorEq, if_false, mul_one]
    rw [← L.exp_mul _ L.V_g _ _ hx0 (Int.mul_nonneg hd hcof)]
    congr 1
    apply L.g_exp_congr _ _ (Int.mul_nonneg hx0 (Int.mul_nonneg hd hcof)) (Int.mul_nonneg hx0 hy)
    apply Int.ModEq.mul_left
    have := hc rfl
    rw [hqo] at this ⊢
    exact divMod_mul q hqp y P.cofactor this
  | incompatible =>
    unfold agreeStatic
    simp only [if_true]
    rw [← L.exp_mul _ L.V_g _ _ hx0 (Int.mul_nonneg hy hcof), mul_assoc]
  | no =>
    unfold agreeStatic
    simp only [reduceCtorEq, if_false, mul_one]
    have he : P.exp (P.exp P.g x) y = P.exp P.g (x * y) := (L.exp_mul _ L.V_g _ _ hx0 hy).symm
    rw [he]
    have hid : P.isIdentity (P.exp (P.exp P.g x) P.order) = true := by
      rw [L.identity _ (L.V_exp _ (L.V_exp _ L.V_g _ hx0) _ (by omega)), ← L.exp_mul _ L.V_g _ _ hx0 (by omega), mul_comm, L.exp_mul _ L.V_g _ _ (by omega) hx0, L.g_order, L.one_exp _ hx0]
    rw [hid]
    cases v
    · rfl
    · cases hf : P.fastCheck
      · rfl
      · rw [L.fast hf x hx0 (L.g_exp_ne_one x hx hxq)]; rfl

theorem dhAgree_eq (L : P.Laws V one) (c : Cofactor) (hc : c = .compatible → P.cofactor % P.order ≠ 0) (a b : List Byte) (hb : 0 < decodeInt b) (hbq : decodeInt b < P.order) (v : Bool) :
    dhAgree P c a (dhPublic P b) v = some (P.encode false (P.exp P.g (decodeInt b * decodeInt a * if c = .incompatible then P.cofactor else 1))) := by
  unfold dhAgree dhPublic
  rw [decode_public L _ hb hbq]
  simp only
  rw [agreeStatic_eq L c hc _ _ hb hbq (decodeInt_nonneg a)]

/-! ### MQV -/

theorem eph_take (x : Int) : (ephPrivate P x).take (byteCount P.order) = encodeInt x (byteCount P.order) :=
  List.take_left' (encodeInt_length _ _)

theorem eph_drop (x : Int) : (ephPrivate P x).drop (byteCount P.order) = P.encode true (P.expBase x) :=
  List.drop_left' (encodeInt_length _ _)

theorem eph_public (L : P.Laws V one) (x : Int) (hx : 0 ≤ x) : ephPublic P (ephPrivate P x) = P.encode true (P.expBase x) := by
  unfold ephPublic
  rw [eph_drop, List.take_of_length_le]
  rw [L.expBase x hx, L.encode_length _ _ (L.V_exp _ L.V_g _ hx)]

theorem mqv_exp (L : P.Laws V one) (s u t : Int) (hs : 0 ≤ s) (hu : 0 ≤ u) (ht : 0 ≤ t) :
    P.mul (P.exp (P.exp P.g s) t) (P.exp P.g u) = P.exp P.g (u + t * s) := by
  rw [← L.exp_mul _ L.V_g _ _ hs ht, ← L.exp_add _ L.V_g _ _ (Int.mul_nonneg hs ht) hu]
  congr 1; ring

/-- The value both sides of MQV reach. -/
theorem mqvAgree_eq (L : P.Laws V one) (c : Cofactor) (hc : c ≠ .no → P.cofactor % P.order ≠ 0) (a : List Byte) (b : List Byte) (u v : Int)
    (ha : 0 < decodeInt a) (haq : decodeInt a < P.order) (hb : 0 < decodeInt b) (hbq : decodeInt b < P.order)
    (hu : 0 < u) (huq : u < P.order) (hv : 0 < v) (hvq : v < P.order) (val : Bool) :
    mqvAgree P c a (ephPrivate P u) (dhPublic P b) (ephPublic P (ephPrivate P v)) val =
      (if implicitSignature P (decodeInt a) u * implicitSignature P (decodeInt b) v % P.order = 0 then none
       else some (P.encode false (P.exp P.g (implicitSignature P (decodeInt a) u * implicitSignature P (decodeInt b) v * if c = .incompatible then P.cofactor else 1)))) := by
  have hq := L.order_pos
  obtain ⟨q, hqp, hqo⟩ := L.order
  have hcof := L.cofactor
  have hu0 := le_of_lt hu
  have hv0 := le_of_lt hv
  have hb0 := le_of_lt hb
  unfold mqvAgree
  rw [eph_public L v hv0, eph_take, eph_drop]
  unfold dhPublic
  rw [decode_public L _ hb hbq, decode_public L _ hv hvq, decode_public L _ hu huq, decode_encodeInt u _ hu0 (lt_byteCount _ _ hu0 (le_of_lt huq))]
  simp only
  generalize hh : (2 : Int) ^ ((bitCount P.order + 1) / 2) = h2
  have hh0 : 0 < h2 := by rw [← hh]; positivity
  have e1 : ((h2 + P.toInt (P.exp P.g u) % h2) * decodeInt a + u) % P.order = implicitSignature P (decodeInt a) u := by
    unfold implicitSignature; rw [hh, add_comm u]
  rw [e1]
  have hA : 0 ≤ implicitSignature P (decodeInt a) u := Int.emod_nonneg _ (by omega)
  have hB : 0 ≤ implicitSignature P (decodeInt b) v := Int.emod_nonneg _ (by omega)
  obtain ⟨t, ht⟩ : ∃ t, t = h2 + P.toInt (P.exp P.g v) % h2 := ⟨_, rfl⟩
  have ht0 : 0 ≤ t := by have := Int.emod_nonneg (P.toInt (P.exp P.g v)) (by omega : h2 ≠ 0); omega
  rw [← ht]
  have hBm : v + t * decodeInt b ≡ implicitSignature P (decodeInt b) v [ZMOD P.order] := by
    unfold implicitSignature; rw [hh, ← ht]; exact (Int.mod_modEq _ _).symm
  have hn : 0 ≤ v + t * decodeInt b := by have := Int.mul_nonneg ht0 hb0; omega
  generalize implicitSignature P (decodeInt a) u = A at *
  generalize implicitSignature P (decodeInt b) v = B at *
  have hAB := Int.mul_nonneg hA hB
  have key : ∀ k : Int, P.cofactor % P.order ≠ 0 → ((A * B * P.cofactor) % P.order = 0 ↔ A * B % P.order = 0) := by
    intro _ h
    rw [hqo] at h ⊢
    constructor
    · intro h1
      have h1 := Int.dvd_of_emod_eq_zero h1
      rcases (Nat.prime_iff_prime_int.mp hqp).dvd_or_dvd h1 with h2 | h2
      · exact Int.emod_eq_zero_of_dvd h2
      · exact absurd (Int.emod_eq_zero_of_dvd h2) h
    · intro h1
      exact Int.emod_eq_zero_of_dvd (Dvd.dvd.mul_right (Int.dvd_of_emod_eq_zero h1) _)
  have fin : ∀ n : Int, 0 ≤ n → (P.isIdentity (P.exp P.g n) = true ↔ n % P.order = 0) := by
    intro n hn
    rw [L.identity _ (L.V_exp _ L.V_g _ hn), L.g_exp_eq_one n hn]
  have cas : ∀ e' : Int, 0 ≤ e' → P.cascade (P.exp P.g v) (P.cofactor * e') (P.exp P.g (decodeInt b)) (P.cofactor * (e' * t % P.order)) = P.exp P.g (P.cofactor * e' * B) := by
    intro e' he'
    have h1 : 0 ≤ P.cofactor * e' := Int.mul_nonneg hcof he'
    have h2 : 0 ≤ P.cofactor * (e' * t % P.order) := Int.mul_nonneg hcof (Int.emod_nonneg _ (by omega))
    rw [L.cascade _ _ _ _ (L.V_exp _ L.V_g _ hv0) (L.V_exp _ L.V_g _ hb0) h1 h2, ← L.exp_mul _ L.V_g _ _ hv0 h1, ← L.exp_mul _ L.V_g _ _ hb0 h2,
      ← L.exp_add _ L.V_g _ _ (Int.mul_nonneg hv0 h1) (Int.mul_nonneg hb0 h2)]
    apply L.g_exp_congr
    · have := Int.mul_nonneg hv0 h1
      have := Int.mul_nonneg hb0 h2
      omega
    · exact Int.mul_nonneg h1 hB
    · calc v * (P.cofactor * e') + decodeInt b * (P.cofactor * (e' * t % P.order))
          ≡ v * (P.cofactor * e') + decodeInt b * (P.cofactor * (e' * t)) [ZMOD P.order] :=
            Int.ModEq.add_left _ (Int.ModEq.mul_left _ (Int.ModEq.mul_left _ (Int.mod_modEq _ _)))
        _ = P.cofactor * e' * (v + t * decodeInt b) := by ring
        _ ≡ P.cofactor * e' * B [ZMOD P.order] := Int.ModEq.mul_left _ hBm
  cases c with
  | no =>
    simp only [reduceCtorEq, if_false, mul_one]
    rw [mqv_exp L _ _ _ hb0 hv0 ht0, ← L.exp_mul _ L.V_g _ _ hn (by omega), ← L.exp_mul _ L.V_g _ _ hn hA]
    have h1 : P.isIdentity (P.exp P.g ((v + t * decodeInt b) * P.order)) = true := by
      rw [fin _ (Int.mul_nonneg hn (by omega))]; exact Int.mul_emod_left _ _
    have h2 : P.exp P.g ((v + t * decodeInt b) * A) = P.exp P.g (A * B) := by
      apply L.g_exp_congr _ _ (Int.mul_nonneg hn hA) hAB
      rw [mul_comm A B]
      exact Int.ModEq.mul_right _ hBm
    rw [h1, h2]
    by_cases h3 : A * B % P.order = 0
    · rw [if_pos h3, (fin _ hAB).mpr h3]; rfl
    · rw [if_neg h3]
      have : P.isIdentity (P.exp P.g (A * B)) = false := by
        rw [← Bool.not_eq_true, fin _ hAB]; exact h3
      rw [this]; rfl
  | compatible =>
    have hk := hc (by decide)
    simp only [reduceCtorEq, if_false, if_true, mul_one]
    have hd := divMod_nonneg P.order A P.cofactor (by omega)
    rw [cas _ hd]
    have h2 : P.exp P.g (P.cofactor * divMod P.order A P.cofactor * B) = P.exp P.g (A * B) := by
      apply L.g_exp_congr _ _ (Int.mul_nonneg (Int.mul_nonneg hcof hd) hB) hAB
      apply Int.ModEq.mul_right
      rw [mul_comm]
      rw [hqo] at hk ⊢
      exact divMod_mul q hqp A P.cofactor hk
    rw [h2]
    by_cases h3 : A * B % P.order = 0
    · rw [if_pos h3, if_pos ((fin _ hAB).mpr h3)]
    · rw [if_neg h3, if_neg (by rw [fin _ hAB]; exact h3)]
  | incompatible =>
    have hk := hc (by decide)
    simp only [reduceCtorEq, if_false, if_true]
    rw [cas _ hA, show P.cofactor * A * B = A * B * P.cofactor by ring]
    by_cases h3 : A * B % P.order = 0
    · rw [if_pos h3, if_pos ((fin _ (Int.mul_nonneg hAB hcof)).mpr ((key 0 hk).mpr h3))]
    · rw [if_neg h3, if_neg (by rw [fin _ (Int.mul_nonneg hAB hcof), key 0 hk]; exact h3)]

/-! ### HMQV -/

theorem stretch_eq (H : List Byte → List Byte) (d : Nat) (hd : 0 < d) (hH : ∀ m, (H m).length = d) (f : Nat) (m : List Byte) (n : Nat) (hf : n < f) :
    stretch H d f m n = (digests H f m).take n := by
  induction f generalizing m n with
  | zero => omega
  | succ f ih =>
    unfold stretch
    split
    · rename_i h; rw [h, List.take_zero]
    · rename_i h
      simp only [digests]
      rcases Nat.le_total n d with h1 | h1
      · rw [Nat.min_eq_left h1, Nat.sub_self]
        have : stretch H d f (List.take n (H m)) 0 = [] := by cases f <;> simp [stretch]
        rw [this, List.append_nil, List.take_append_of_le_length (by rw [hH]; exact h1)]
      · rw [Nat.min_eq_right h1, List.take_of_length_le (l := H m) (by rw [hH]), ih _ _ (by omega), List.take_append, hH, List.take_of_length_le (l := H m) (by rw [hH]; exact h1)]

theorem hmqvHash_eq (H : List Byte → List Byte) (d : Nat) (hd : 0 < d) (hH : ∀ m, (H m).length = d) (m : List Byte) (n : Nat) : hmqvHash H d m n = longHash H n m :=
  stretch_eq H d hd hH (n + 1) m n (Nat.lt_succ_self n)

theorem hmqv_sigma (L : P.Laws V one) (b y e u s d : Int) (hb : 0 ≤ b) (hy : 0 ≤ y) (he : 0 ≤ e) (hu : 0 ≤ u) (hs : 0 ≤ s) (hd : 0 ≤ d) :
    P.exp (P.mul (P.exp P.g y) (P.exp (P.exp P.g b) e)) ((u + d * s) % P.order) = P.exp P.g ((u + d * s) * (y + e * b)) := by
  have hq := L.order_pos
  have h1 := Int.mul_nonneg hb he
  have h1' := Int.mul_nonneg he hb
  have h2 := Int.mul_nonneg hd hs
  have h3 := Int.emod_nonneg (u + d * s) (by omega : P.order ≠ 0)
  rw [← L.exp_mul _ L.V_g _ _ hb he, ← L.exp_add _ L.V_g _ _ hy h1, ← L.exp_mul _ L.V_g _ _ (by omega) h3]
  apply L.g_exp_congr _ _ (Int.mul_nonneg (by omega) h3) (Int.mul_nonneg (by omega) (by omega))
  calc (y + b * e) * ((u + d * s) % P.order) ≡ (y + b * e) * (u + d * s) [ZMOD P.order] := Int.ModEq.mul_left _ (Int.mod_modEq _ _)
    _ = (u + d * s) * (y + e * b) := by ring

theorem hmqv_client (L : P.Laws V one) (H : List Byte → List Byte) (d : Nat) (hd : 0 < d) (hH : ∀ m, (H m).length = d) (full : Bool) (a b : List Byte) (x y : Int)
    (ha : 0 < decodeInt a) (hb : 0 < decodeInt b) (hbq : decodeInt b < P.order) (hx : 0 < x) (hxq : x < P.order) (hy : 0 < y) (hyq : y < P.order) (v : Bool) :
    hmqvAgree P H d full false a (ephPrivate P x) (dhPublic P b) (ephPublic P (ephPrivate P y)) v = some (hmqvKey P H full (decodeInt a) x (decodeInt b) y) := by
  have hx0 := le_of_lt hx
  have hy0 := le_of_lt hy
  unfold hmqvAgree hmqvKey
  have e1 : ((ephPrivate P x).drop (byteCount P.order)).take (P.encSize true) = P.encode true (P.exp P.g x) := by
    have := eph_public L x hx0
    unfold ephPublic at this; rw [this, L.expBase x hx0]
  rw [eph_public L y hy0]
  unfold dhPublic
  rw [decode_public L _ hb hbq, decode_public L _ hy hyq]
  simp only [e1, eph_take, Bool.false_eq_true, if_false, hmqvHash_eq H d hd hH]
  rw [decode_public L _ hb hbq, decode_public L _ hy hyq, decode_encodeInt x _ hx0 (lt_byteCount _ _ hx0 (le_of_lt hxq)),
    L.expBase _ (le_of_lt ha), L.expBase _ (le_of_lt hb), L.expBase _ hy0]
  simp only
  rw [hmqv_sigma L _ _ _ _ _ _ (le_of_lt hb) hy0 (decodeInt_nonneg _) hx0 (le_of_lt ha) (decodeInt_nonneg _)]
  cases full <;> simp

theorem hmqv_server (L : P.Laws V one) (H : List Byte → List Byte) (d : Nat) (hd : 0 < d) (hH : ∀ m, (H m).length = d) (full : Bool) (a b : List Byte) (x y : Int)
    (ha : 0 < decodeInt a) (haq : decodeInt a < P.order) (hb : 0 < decodeInt b) (hx : 0 < x) (hxq : x < P.order) (hy : 0 < y) (hyq : y < P.order) (v : Bool) :
    hmqvAgree P H d full true b (ephPrivate P y) (dhPublic P a) (ephPublic P (ephPrivate P x)) v = some (hmqvKey P H full (decodeInt a) x (decodeInt b) y) := by
  have hx0 := le_of_lt hx
  have hy0 := le_of_lt hy
  unfold hmqvAgree hmqvKey
  have e1 : ((ephPrivate P y).drop (byteCount P.order)).take (P.encSize true) = P.encode true (P.exp P.g y) := by
    have := eph_public L y hy0
    unfold ephPublic at this; rw [this, L.expBase y hy0]
  rw [eph_public L x hx0]
  unfold dhPublic
  rw [decode_public L _ ha haq, decode_public L _ hx hxq]
  simp only [e1, eph_take, if_true, hmqvHash_eq H d hd hH]
  rw [decode_public L _ ha haq, decode_public L _ hx hxq, decode_encodeInt y _ hy0 (lt_byteCount _ _ hy0 (le_of_lt hyq)),
    L.expBase _ (le_of_lt ha), L.expBase _ (le_of_lt hb), L.expBase _ hx0]
  simp only
  rw [hmqv_sigma L _ _ _ _ _ _ (le_of_lt ha) hx0 (decodeInt_nonneg _) hy0 (le_of_lt hb) (decodeInt_nonneg _)]
  rw [mul_comm (y + _)]
  cases full <;> simp

/-! ## Encryption -/

theorem agreeEphemeral_eq (L : P.Laws V one) (c : Cofactor) (x y : Int) (hx : 0 ≤ x) (hy : 0 ≤ y) :
    agreeEphemeral P c (P.expBase y) x = P.exp P.g (x * y * if c = .incompatible then P.cofactor else 1) := by
  have hcof := L.cofactor
  unfold agreeEphemeral
  rw [L.expBase y hy]
  split
  · rw [← L.exp_mul _ L.V_g _ _ hy (Int.mul_nonneg hx hcof)]; congr 1; ring
  · rw [← L.exp_mul _ L.V_g _ _ hy hx]; congr 1; ring

theorem encrypt_decrypt (L : P.Laws V one) (c : Cofactor) (hc : c = .compatible → P.cofactor % P.order ≠ 0) (D : Dem E) (y x : Int) (hy : 0 ≤ y) (hx : 0 < x) (hxq : x < P.order)
    (rnd m : List Byte) (hD : ∀ z q, z = P.exp P.g (x * y * if c = .incompatible then P.cofactor else 1) → ∃ t, D.encrypt (D.derive (D.keyLength m.length) z q) rnd m = .ok t ∧ D.decrypt (D.derive (D.keyLength (D.maxPlaintext t.length)) z q) t = .ok (some m)) :
    ∃ ct, encrypt P c D (P.expBase y) x rnd m = .ok ct ∧ decrypt P c D y ct = .ok (some m) := by
  have hx0 := le_of_lt hx
  obtain ⟨t, h1, h2⟩ := hD (P.exp P.g (x * y * if c = .incompatible then P.cofactor else 1)) (P.exp P.g x) rfl
  refine ⟨P.encode true (P.exp P.g x) ++ t, ?_, ?_⟩
  · unfold encrypt
    simp only
    rw [agreeEphemeral_eq L c x y hx0 hy, L.expBase x hx0, h1]
  · have hl := L.encode_length true _ (L.V_exp _ L.V_g x hx0)
    unfold decrypt
    rw [if_neg (by rw [List.length_append, hl]; omega), List.take_left' hl, List.drop_left' hl, ← L.expBase x hx0, decode_public L x hx hxq]
    simp only
    rw [agreeStatic_eq L c hc x y hx hxq hy]
    exact h2

theorem xor_xor_zip (a k : List Byte) (h : a.length ≤ k.length) : List.zipWith (· ^^^ ·) (List.zipWith (· ^^^ ·) a k) k = a := by
  induction a generalizing k with
  | nil => simp
  | cons x a ih =>
    cases k with
    | nil => simp at h
    | cons y k => simp [BitVec.xor_assoc, ih k (by simpa using h)]

theorem iesKeys_length (dhaes : Bool) (macKey n : Nat) (key : List Byte) (h : key.length = n + macKey) : (iesKeys dhaes macKey key n).2.length = n := by
  unfold iesKeys
  split
  · simp only [List.length_take, List.length_drop]; omega
  · simp only [List.length_take]; omega

theorem ies_iff (P : Params E) (dhaes octets : Bool) (mac : List Byte → List Byte → List Byte) (macKey macLen : Nat) (hmac : ∀ k m, (mac k m).length = macLen)
    (kdf : Nat → List Byte → List Byte) (param key rnd m ct : List Byte) (hk : key.length = ct.length - macLen + macKey) (hct : macLen ≤ ct.length) :
    (ies P dhaes octets mac macKey macLen kdf param).decrypt key ct = .ok (some m) ↔
      m.length + macLen = ct.length ∧ (ies P dhaes octets mac macKey macLen kdf param).encrypt key rnd m = .ok ct := by
  unfold ies
  simp only
  generalize (if dhaes then beBytes 8 (if octets then param.length else 8 * param.length) else []) = label
  have hl := iesKeys_length dhaes macKey _ key hk
  rw [if_neg (by omega)]
  constructor
  · intro h
    split at h
    · rename_i hm
      simp only [Except.ok.injEq, Option.some.injEq] at h
      have hml : m.length = ct.length - macLen := by rw [← h, List.length_zipWith, hl, List.length_take]; omega
      refine ⟨by omega, ?_⟩
      rw [hml]
      have e : List.zipWith (· ^^^ ·) m (iesKeys dhaes macKey key (ct.length - macLen)).2 = ct.take (ct.length - macLen) := by
        rw [← h]; exact xor_xor_zip _ _ (by rw [hl, List.length_take]; omega)
      rw [e, hm, List.take_append_drop]
    · cases h
  · rintro ⟨h1, h2⟩
    have hml : m.length = ct.length - macLen := by omega
    rw [hml] at h2
    simp only [Except.ok.injEq] at h2
    obtain ⟨c, hc⟩ : ∃ c, c = List.zipWith (· ^^^ ·) m (iesKeys dhaes macKey key (ct.length - macLen)).2 := ⟨_, rfl⟩
    rw [← hc] at h2
    have hcl : c.length = ct.length - macLen := by rw [hc, List.length_zipWith, hl]; omega
    have e1 : ct.take (ct.length - macLen) = c := by conv => lhs; arg 2; rw [← h2]
                                                     exact List.take_left' hcl
    have e2 : ct.drop (ct.length - macLen) = mac (iesKeys dhaes macKey key (ct.length - macLen)).1 (c ++ param ++ label) := by
      conv => lhs; arg 2; rw [← h2]
      exact List.drop_left' hcl
    rw [e1, e2, if_pos rfl, hc, xor_xor_zip _ _ (by rw [hl]; omega)]

theorem ies_round_trip (P : Params E) (dhaes octets : Bool) (mac : List Byte → List Byte → List Byte) (macKey macLen : Nat) (hmac : ∀ k m, (mac k m).length = macLen)
    (kdf : Nat → List Byte → List Byte) (hkdf : ∀ n z, (kdf n z).length = n) (param rnd m : List Byte) (z q : E) :
    ∃ t, (ies P dhaes octets mac macKey macLen kdf param).encrypt ((ies P dhaes octets mac macKey macLen kdf param).derive ((ies P dhaes octets mac macKey macLen kdf param).keyLength m.length) z q) rnd m = .ok t ∧
      (ies P dhaes octets mac macKey macLen kdf param).decrypt ((ies P dhaes octets mac macKey macLen kdf param).derive ((ies P dhaes octets mac macKey macLen kdf param).keyLength ((ies P dhaes octets mac macKey macLen kdf param).maxPlaintext t.length)) z q) t = .ok (some m) := by
  obtain ⟨k, hk⟩ : ∃ k, k = (ies P dhaes octets mac macKey macLen kdf param).derive ((ies P dhaes octets mac macKey macLen kdf param).keyLength m.length) z q := ⟨_, rfl⟩
  have hkl : k.length = m.length + macKey := by rw [hk]; exact hkdf _ _
  rw [← hk]
  refine ⟨_, rfl, ?_⟩
  generalize ht : List.zipWith (· ^^^ ·) m (iesKeys dhaes macKey k m.length).2 ++ _ = t
  have htl : t.length = m.length + macLen := by
    rw [← ht, List.length_append, hmac, List.length_zipWith, iesKeys_length _ _ _ _ hkl, Nat.min_self]
  have e : (ies P dhaes octets mac macKey macLen kdf param).maxPlaintext t.length = m.length := by
    show t.length - macLen = _; omega
  rw [e, ← hk, ies_iff P dhaes octets mac macKey macLen hmac kdf param k rnd m t (by omega) (by omega)]
  refine ⟨htl.symm, ?_⟩
  rw [← ht]
  rfl

/-! ### ElGamal -/

theorem byteCount_le (p : Int) (hp : 0 < p) : 256 ^ (byteCount p - 1) ≤ p := by
  obtain ⟨k, rfl⟩ := Int.eq_ofNat_of_zero_le (le_of_lt hp)
  have hk : 0 < k := by exact_mod_cast hp
  unfold byteCount
  simp only [Int.toNat_natCast]
  exact_mod_cast byteLen_pos_le (v := k) (by omega)

theorem elgamal_round_trip (p : Nat) (hp : p.Prime) (z : Int) (hz : 0 < z) (hzp : z < p) (rnd m : List Byte) (hm : m.length ≤ 255) (hm2 : m.length + 3 ≤ byteCount p) (hr : byteCount p ≤ rnd.length + m.length + 2) :
    ∃ t, (elgamal p).encrypt (encodeInt z (byteCount p)) rnd m = .ok t ∧ t.length = byteCount p ∧ (elgamal p).decrypt (encodeInt z (byteCount p)) t = .ok (some m) := by
  have hp0 : (0 : Int) < p := by exact_mod_cast hp.pos
  generalize hlen : byteCount p = len at *
  obtain ⟨block, hb⟩ : ∃ b, b = rnd.take (len - 2 - m.length) ++ m ++ [BitVec.ofNat 8 m.length] := ⟨_, rfl⟩
  have hbl : block.length = len - 1 := by
    rw [hb]; simp only [List.length_append, List.length_take, List.length_singleton]; omega
  have hbv : decodeInt block < p := by
    have h1 := beVal_lt block
    have h2 := byteCount_le p hp0
    rw [hbl] at h1
    rw [hlen] at h2
    unfold decodeInt
    have : ((beVal block : Nat) : Int) < (256 ^ (len - 1) : Nat) := by exact_mod_cast h1
    push_cast at this
    omega
  have hdz : decodeInt (encodeInt z len) = z := decode_encodeInt z _ (le_of_lt hz) (by rw [← hlen]; exact lt_byteCount _ _ (le_of_lt hz) (le_of_lt hzp))
  have hv : 0 ≤ z * decodeInt block % p := Int.emod_nonneg _ (by omega)
  have hv2 : z * decodeInt block % p < p := Int.emod_lt_of_pos _ hp0
  refine ⟨encodeInt (z * decodeInt block % p) len, ?_, encodeInt_length _ _, ?_⟩
  · unfold elgamal
    simp only [hlen]
    rw [if_neg (by omega), ← hb, hdz]
  · unfold elgamal
    simp only [hlen]
    rw [if_neg (by rw [encodeInt_length]; simp), hdz, decode_encodeInt _ _ hv (by rw [← hlen]; exact lt_byteCount _ _ hv (le_of_lt hv2))]
    have hinv := mul_invMod z p hp0 (gcd_prime p hp z hz hzp)
    have hmm : z * decodeInt block % p * invMod z p % p = decodeInt block := by
      have : z * decodeInt block % p * invMod z p ≡ decodeInt block [ZMOD p] := by
        calc z * decodeInt block % p * invMod z p ≡ z * decodeInt block * invMod z p [ZMOD p] := Int.ModEq.mul_right _ (Int.mod_modEq _ _)
          _ = (z * invMod z p) * decodeInt block := by ring
          _ ≡ 1 * decodeInt block [ZMOD p] := Int.ModEq.mul_right _ hinv
          _ = decodeInt block := by ring
      have h := this
      unfold Int.ModEq at h
      rw [h, Int.emod_eq_of_lt (decodeInt_nonneg _) hbv]
    rw [hmm]
    have hval : beVal block = beVal (rnd.take (len - 2 - m.length) ++ m) * 256 + m.length := by
      rw [hb, beVal_append]
      simp [beVal_cons, beVal_nil, BitVec.toNat_ofNat, Nat.mod_eq_of_lt (show m.length < 256 by omega)]
    have hlast : ((encodeInt (decodeInt block) 1).getD 0 0).toNat = m.length := by
      unfold encodeInt decodeInt
      rw [Int.toNat_natCast, hval]
      have : beBytes 1 (beVal (rnd.take (len - 2 - m.length) ++ m) * 256 + m.length) = [BitVec.ofNat 8 m.length] := by
        have h := beBytes_beVal [BitVec.ofNat 8 m.length]
        simp only [List.length_singleton] at h
        rw [← h, ← beBytes_mod 1 (_ + _)]
        congr 1
        simp [beVal_cons, beVal_nil, BitVec.toNat_ofNat]
      rw [this]
      simp [BitVec.toNat_ofNat]; omega
    rw [hlast, if_neg (by simp only [if_true]; omega)]
    have hq : decodeInt block / 256 = ((beVal (rnd.take (len - 2 - m.length) ++ m) : Nat) : Int) := by
      unfold decodeInt
      rw [hval]; push_cast; omega
    rw [hq]
    unfold encodeInt
    rw [Int.toNat_natCast, beVal_append, ← beBytes_mod, Nat.add_comm, Nat.add_mul_mod_self_right, beBytes_mod, beBytes_beVal]

/-! ## Groups modulo a prime -/

theorem emod_mul_emod' (a b p : Int) : a % p * b % p = a * b % p := Int.ModEq.mul_right b (Int.mod_modEq a p)

theorem mul_emod_emod' (a b p : Int) : a * (b % p) % p = a * b % p := Int.ModEq.mul_left a (Int.mod_modEq b p)

theorem gfp_laws (p q : Nat) (hp : p.Prime) (hq : q.Prime) (hd : q ∣ p - 1) (g : Int) (hg : 1 < g) (hgp : g < p) (ho : g ^ q % p = 1) :
    (gfp p q g).Laws (fun a => 0 < a ∧ a < p) 1 := by
  have hp1 : (1 : Int) < p := by exact_mod_cast hp.one_lt
  have hpr := Nat.prime_iff_prime_int.mp hp
  have hmul : ∀ a b : Int, 0 < a ∧ a < p → 0 < b ∧ b < p → 0 < a * b % p ∧ a * b % p < p := by
    intro a b ha hb
    refine ⟨?_, Int.emod_lt_of_pos _ (by omega)⟩
    have h0 := Int.emod_nonneg (a * b) (by omega : (p : Int) ≠ 0)
    rcases Int.lt_or_eq_of_le h0 with h | h
    · exact h
    · exfalso
      rcases hpr.dvd_or_dvd (Int.dvd_of_emod_eq_zero h.symm) with h1 | h1
      · have := Int.le_of_dvd ha.1 h1; omega
      · have := Int.le_of_dvd hb.1 h1; omega
  have hpow : ∀ (a : Int) (n : Nat), 0 < a ∧ a < p → 0 < a ^ n % p ∧ a ^ n % p < p := by
    intro a n ha
    induction n with
    | zero => rw [pow_zero, Int.emod_eq_of_lt (by omega) hp1]; omega
    | succ n ih =>
      have := hmul _ _ ih ha
      rw [emod_mul_emod'] at this
      rw [pow_succ]; exact this
  exact {
    V_g := ⟨by show 0 < g; omega, hgp⟩
    V_one := ⟨by omega, hp1⟩
    V_mul := fun a b ha hb => hmul a b ha hb
    mul_comm := fun a b _ _ => by show a * b % p = b * a % p; rw [mul_comm]
    mul_assoc := fun a b c _ _ _ => by
      show a * b % p * c % p = a * (b * c % p) % p
      rw [emod_mul_emod', mul_emod_emod', mul_assoc]
    one_mul := fun a ha => by show 1 * a % p = a; rw [one_mul, Int.emod_eq_of_lt (by omega) ha.2]
    exp_zero := fun a _ => by show a ^ 0 % p = 1; rw [pow_zero, Int.emod_eq_of_lt (by omega) hp1]
    exp_succ := fun a n _ hn => by
      show a ^ (n + 1).toNat % p = a ^ n.toNat % p * a % p
      rw [emod_mul_emod', show (n + 1).toNat = n.toNat + 1 by omega, pow_succ]
    expBase := fun n _ => rfl
    cascade := fun a m b n _ _ _ _ => by
      show a ^ m.toNat * b ^ n.toNat % p = a ^ m.toNat % p * (b ^ n.toNat % p) % p
      rw [emod_mul_emod', mul_emod_emod']
    identity := fun a _ => by show (a == 1) = true ↔ a = 1; simp
    order := ⟨q, hq, rfl⟩
    g_order := by show g ^ (q : Int).toNat % p = 1; rw [Int.toNat_natCast]; exact ho
    g_ne_one := by show g ≠ 1; omega
    cofactor := Int.ediv_nonneg (by omega) (by omega)
    encode_length := fun _ a _ => encodeInt_length _ _
    decode_encode := fun a b ha h1 => by
      show (if gfpValid p (decodeInt ((encodeInt a (byteCount p)).take (byteCount p))) then some (decodeInt ((encodeInt a (byteCount p)).take (byteCount p))) else none) = _
      rw [List.take_of_length_le (by rw [encodeInt_length]), decode_encodeInt a _ (by omega) (lt_byteCount _ _ (by omega) (by omega))]
      have : gfpValid p a = true := by unfold gfpValid; simp; exact ⟨ha, h1⟩
      rw [if_pos this]
    fast := fun hf n hn h1 => by
      have hf : ((p : Int) - 1) / q = 2 := by simpa [gfp] using hf
      have h1 : g ^ n.toNat % p ≠ 1 := h1
      have hv := hpow g n.toNat ⟨by omega, hgp⟩
      show (gfpValid p (g ^ n.toNat % p) && (if ((p : Int) - 1) / q = 2 then (g ^ n.toNat % p) ^ (((p : Int) - 1) / 2).toNat % p == 1 else (g ^ n.toNat % p) ^ (q : Int).toNat % p == 1)) = true
      have e : ((p : Int) - 1) / 2 = q := by
        obtain ⟨c, hc⟩ := hd
        have hc' : (p : Int) - 1 = q * c := by have := hp.one_lt; zify [show 1 ≤ p by omega] at hc; exact hc
        have hq0 : (0 : Int) < q := by exact_mod_cast hq.pos
        rw [hc', Int.mul_ediv_cancel_left _ (by omega)] at hf
        rw [hc', hf]; omega
      rw [if_pos hf, e, Int.toNat_natCast]
      have : (g ^ n.toNat % p) ^ q % p = 1 := by
        have h2 := Int.ModEq.pow q (Int.mod_modEq (g ^ n.toNat) p)
        unfold Int.ModEq at h2
        rw [h2, ← pow_mul, mul_comm, pow_mul]
        have h3 : g ^ q ≡ 1 [ZMOD p] := by unfold Int.ModEq; rw [ho, Int.emod_eq_of_lt (by omega) hp1]
        have h4 := Int.ModEq.pow n.toNat h3
        unfold Int.ModEq at h4
        rw [h4, one_pow, Int.emod_eq_of_lt (by omega) hp1]
      rw [this]
      unfold gfpValid
      simp [hv.1, hv.2, h1] }

end Verif.Dl
