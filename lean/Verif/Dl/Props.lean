import Mathlib.Tactic.NormNum.Prime
import Verif.Dl.Proofs

/-! # Discrete-logarithm signatures, key agreement and encryption (C33, C34)

`P.Laws V one` says that `P` are group parameters of a prime-order group; `gfp_parameters` gives it for every DSA-like group modulo a prime. -/
namespace Verif.Dl
open Verif.Misc

variable {E : Type} {P : Params E} {V : E → Prop} {one : E}

/-- Integers modulo a prime `p` with a generator of prime order `q` are such parameters. -/
theorem gfp_parameters (p q : Nat) (hp : p.Prime) (hq : q.Prime) (hd : q ∣ p - 1) (g : Int) (hg : 1 < g) (hgp : g < p) (ho : g ^ q % p = 1) :
    (gfp p q g).Laws (fun a => 0 < a ∧ a < p) 1 := gfp_laws p q hp hq hd g hg hgp ho

/-- A safe-prime group (with the fast subgroup check) and one with a larger cofactor. -/
private theorem small : (gfp 23 11 2).Laws (fun a => 0 < a ∧ a < 23) 1 :=
  gfp_parameters 23 11 (by norm_num) (by norm_num) (by norm_num) 2 (by norm_num) (by norm_num) (by norm_num)

private theorem larger : (gfp 7879 101 170).Laws (fun a => 0 < a ∧ a < 7879) 1 :=
  gfp_parameters 7879 101 (by norm_num) (by norm_num) (by norm_num) 170 (by norm_num) (by norm_num) (by norm_num)

example : (gfp 23 11 2).fastCheck = true ∧ (gfp 7879 101 170).fastCheck = false := by decide +kernel

/-! ## Signatures -/

/-- DSA, ECDSA, ECGDSA and NR signatures of every digest with every key and every nonce verify with the matching public key, unless the nonce gives a zero component. -/
theorem signatures_verify (L : P.Laws V one) (alg : Alg) (x k : Int) (hx : 0 < x) (hxq : x < P.order) (hk : 0 < k) (hkq : k < P.order) (digest : List Byte)
    (hr0 : decodeInt ((signDigest P alg x k digest).take (byteCount P.order)) ≠ 0) (hs0 : alg = .nr ∨ decodeInt ((signDigest P alg x k digest).drop (byteCount P.order)) ≠ 0) :
    verifyDigest P alg (publicElement P alg x) digest (signDigest P alg x k digest) = .ok true := by
  have hsr := sign_range L alg x k (decodeInt (representative alg digest (bitCount P.order))) (P.toInt (P.exp P.g k))
  rw [signDigest_eq L alg x k (le_of_lt hk)] at hr0 hs0 ⊢
  rw [List.take_left' (encodeInt_length _ _), decode_encodeInt _ _ hsr.1.1 (lt_byteCount _ _ hsr.1.1 (le_of_lt hsr.1.2))] at hr0
  rw [List.drop_left' (encodeInt_length _ _), decode_encodeInt _ _ hsr.2.1 (lt_byteCount _ _ hsr.2.1 (le_of_lt hsr.2.2))] at hs0
  rw [verifyDigest_encoded L alg _ digest _ _ hsr.1 hsr.2,
    sign_verify L alg x k _ _ hx hxq hk hkq (decodeInt_nonneg _) (by rw [L.expBase k (le_of_lt hk)]) hr0 hs0]

example : signDigest (gfp 7879 101 170) .gdsa 75 50 [0x12, 0x34] = [0x5e, 0x16] ∧ decodeInt ([0x5e, 0x16].take (byteCount 101)) ≠ 0 := by decide +kernel
example : verifyDigest (gfp 7879 101 170) .gdsa (publicElement (gfp 7879 101 170) .gdsa 75) [0x12, 0x34] [0x5e, 0x16] = .ok true := by decide +kernel
example : verifyDigest (gfp 7879 101 170) .gdsaIso (publicElement (gfp 7879 101 170) .gdsaIso 75) [0x12, 0x34] (signDigest (gfp 7879 101 170) .gdsaIso 75 50 [0x12, 0x34]) = .ok true :=
  signatures_verify larger .gdsaIso 75 50 (by decide) (by decide +kernel) (by decide) (by decide +kernel) _ (by decide +kernel) (by decide +kernel)

/-- A signature is the standard's pair: `r` from `g^k`, `s` solving the equation of the algorithm modulo the order. -/
theorem signature_components (L : P.Laws V one) (alg : Alg) (x k : Int) (hk : 0 < k) (hkq : k < P.order) (digest : List Byte) (r s e R : Int)
    (hr : r = decodeInt ((signDigest P alg x k digest).take (byteCount P.order))) (hs : s = decodeInt ((signDigest P alg x k digest).drop (byteCount P.order)))
    (he : e = leftmost (if alg = .nr then bitCount P.order - 1 else bitCount P.order) digest) (hR : R = P.toInt (P.exp P.g k)) :
    (signDigest P alg x k digest).length = 2 * byteCount P.order ∧ (0 ≤ r ∧ r < P.order) ∧ (0 ≤ s ∧ s < P.order) ∧
    match alg with
    | .gdsa => r = R % P.order ∧ k * s ≡ e + x * r [ZMOD P.order]
    | .gdsaIso => r = R % P.order ∧ s ≡ (k * r - e) * x [ZMOD P.order]
    | .nr => r = (R + e) % P.order ∧ s ≡ k - x * r [ZMOD P.order] := by
  have hq := L.order_pos
  have hbits : 0 < bitCount P.order := by
    rw [Nat.pos_iff_ne_zero]; intro h
    have h1 := bitLen_lt P.order.toNat
    unfold bitCount at h
    rw [h] at h1; omega
  have he' : decodeInt (representative alg digest (bitCount P.order)) = e := by
    rw [he]
    cases alg <;> simp only [reduceCtorEq, if_true, if_false, representative]
    · exact dsa_rep _ _
    · exact dsa_rep _ _
    · exact nr_rep _ _ hbits
  have hsr := sign_range L alg x k e R
  rw [signDigest_eq L alg x k (le_of_lt hk), he', ← hR] at hr hs ⊢
  rw [List.take_left' (encodeInt_length _ _), decode_encodeInt _ _ hsr.1.1 (lt_byteCount _ _ hsr.1.1 (le_of_lt hsr.1.2))] at hr
  rw [List.drop_left' (encodeInt_length _ _), decode_encodeInt _ _ hsr.2.1 (lt_byteCount _ _ hsr.2.1 (le_of_lt hsr.2.2))] at hs
  refine ⟨by rw [List.length_append, encodeInt_length, encodeInt_length]; omega, by rw [hr]; exact hsr.1, by rw [hs]; exact hsr.2, ?_⟩
  obtain ⟨q, hqp, hqo⟩ := L.order
  cases alg with
  | gdsa =>
    refine ⟨hr, ?_⟩
    have h1 : s ≡ invMod k P.order * (x * r + e) [ZMOD P.order] := by rw [hs, hr]; exact Int.mod_modEq _ _
    calc k * s ≡ k * (invMod k P.order * (x * r + e)) [ZMOD P.order] := Int.ModEq.mul_left _ h1
      _ = (k * invMod k P.order) * (x * r + e) := by ring
      _ ≡ 1 * (x * r + e) [ZMOD P.order] := Int.ModEq.mul_right _ (mul_invMod k P.order (by omega) (by rw [hqo]; exact gcd_prime q hqp k hk (by omega)))
      _ = e + x * r := by ring
  | gdsaIso =>
    have h0 : r = R % P.order := by rw [hr, hR]; show P.toInt (P.expBase k) % _ = _; rw [L.expBase k (le_of_lt hk)]
    refine ⟨h0, ?_⟩
    have : s = (k * r - e) * x % P.order := by
      rw [hs, h0, hR]; show (k * (P.toInt (P.expBase k) % _) - e) * x % _ = _; rw [L.expBase k (le_of_lt hk)]
    rw [this]
    exact Int.mod_modEq _ _
  | nr =>
    refine ⟨hr, ?_⟩
    rw [hs, hr]; exact Int.mod_modEq _ _

/-- The range checks of DSA, ECDSA and ECGDSA: a component that is zero or not below the order is rejected, whatever the key and message. -/
theorem out_of_range_rejected (alg : Alg) (y : E) (digest sig : List Byte) (hlen : 2 * byteCount P.order ≤ sig.length)
    (r s : Int) (hr : r = decodeInt (sig.take (byteCount P.order))) (hs : s = decodeInt ((sig.drop (byteCount P.order)).take (byteCount P.order)))
    (h : r = 0 ∨ P.order ≤ r ∨ P.order ≤ s ∨ (alg ≠ .nr ∧ s = 0)) : verifyDigest P alg y digest sig = .ok false := by
  unfold verifyDigest
  simp only
  rw [if_neg (by omega), ← hr, ← hs]
  congr 1
  cases alg <;> (unfold verify; simp only; rw [if_pos]; simp only [Bool.or_eq_true, decide_eq_true_eq])
  · rcases h with h | h | h | h <;> omega
  · rcases h with h | h | h | h <;> omega
  · rcases h with h | h | h | h
    · omega
    · omega
    · omega
    · exact absurd rfl h.1

example : verifyDigest (gfp 7879 101 170) .gdsa 4567 [0x12, 0x34] [0x00, 0x3d] = .ok false :=
  out_of_range_rejected .gdsa 4567 _ _ (by decide +kernel) _ _ rfl rfl (by decide +kernel)

/-- What is accepted: components in range that satisfy the verification equation of the algorithm, with the inverse taken modulo the order. -/
theorem accepted_iff (L : P.Laws V one) (alg : Alg) (y : E) (hy : V y) (digest : List Byte) (r s e w : Int) (hr : 0 < r) (hrq : r < P.order) (hs : 0 < s) (hsq : s < P.order)
    (he : e = leftmost (if alg = .nr then bitCount P.order - 1 else bitCount P.order) digest)
    (hw : (if alg = .gdsaIso then r else s) * w % P.order = 1) (hw0 : 0 ≤ w) (hwq : w < P.order) :
    verifyDigest P alg y digest (encodeInt r (byteCount P.order) ++ encodeInt s (byteCount P.order)) = .ok true ↔
      r = (match alg with
        | .gdsa => P.toInt (P.mul (P.exp P.g (e * w % P.order)) (P.exp y (r * w % P.order)))
        | .gdsaIso => P.toInt (P.mul (P.exp P.g (e * w % P.order)) (P.exp y (s * w % P.order)))
        | .nr => P.toInt (P.mul (P.exp P.g s) (P.exp y r)) + e) % P.order := by
  have hq := L.order_pos
  have hbits : 0 < bitCount P.order := by
    rw [Nat.pos_iff_ne_zero]; intro h
    have h1 := bitLen_lt P.order.toNat
    unfold bitCount at h
    rw [h] at h1; omega
  have he' : decodeInt (representative alg digest (bitCount P.order)) = e := by
    rw [he]
    cases alg <;> simp only [reduceCtorEq, if_true, if_false, representative]
    · exact dsa_rep _ _
    · exact dsa_rep _ _
    · exact nr_rep _ _ hbits
  obtain ⟨q, hqp, hqo⟩ := L.order
  have inv : ∀ a : Int, 0 < a → a < P.order → a * w % P.order = 1 → invMod a P.order = w := by
    intro a ha haq h
    have h1 := mul_invMod a P.order (by omega) (by rw [hqo]; exact gcd_prime q hqp a ha (by omega))
    have h2 : a * w ≡ 1 [ZMOD P.order] := by unfold Int.ModEq; rw [h, Int.emod_eq_of_lt (by omega) hq]
    have h3 : invMod a P.order ≡ w [ZMOD P.order] := by
      calc invMod a P.order = 1 * invMod a P.order := by ring
        _ ≡ a * w * invMod a P.order [ZMOD P.order] := Int.ModEq.mul_right _ h2.symm
        _ = (a * invMod a P.order) * w := by ring
        _ ≡ 1 * w [ZMOD P.order] := Int.ModEq.mul_right _ h1
        _ = w := by ring
    have h4 : invMod a P.order < P.order := by
      unfold invMod; split
      · exact Int.emod_lt_of_pos _ (by omega)
      · omega
    unfold Int.ModEq at h3
    rwa [Int.emod_eq_of_lt (invMod_nonneg a _ (by omega)) h4, Int.emod_eq_of_lt hw0 hwq] at h3
  rw [verifyDigest_encoded L alg y digest r s ⟨le_of_lt hr, hrq⟩ ⟨le_of_lt hs, hsq⟩, he']
  have hm : ∀ a : Int, 0 ≤ a % P.order := fun a => Int.emod_nonneg a (by omega)
  cases alg with
  | gdsa =>
    unfold verify
    simp only [reduceCtorEq, if_false] at hw ⊢
    rw [if_neg (by simp only [Bool.or_eq_true, decide_eq_true_eq, not_or]; omega), inv s hs hsq hw, L.cascade _ _ _ _ L.V_g hy (hm _) (hm _)]
    simp
  | gdsaIso =>
    unfold verify
    simp only [if_true] at hw ⊢
    rw [if_neg (by simp only [Bool.or_eq_true, decide_eq_true_eq, not_or]; omega), inv r hr hrq hw, L.cascade _ _ _ _ L.V_g hy (hm _) (hm _), mul_comm w, mul_comm w]
    simp
  | nr =>
    unfold verify
    simp only
    rw [if_neg (by simp only [Bool.or_eq_true, decide_eq_true_eq, not_or]; omega), L.cascade _ _ _ _ L.V_g hy (le_of_lt hs) (le_of_lt hr)]
    simp

/-- Signatures shorter than two components are refused with an exception. -/
theorem short_signature_refused (alg : Alg) (y : E) (digest sig : List Byte) (h : sig.length < 2 * byteCount P.order) : verifyDigest P alg y digest sig = .error .invalidDataFormat := by
  unfold verifyDigest
  simp only
  rw [if_pos (by omega)]

example : verifyDigest (gfp 7879 101 170) .gdsa 4567 [0x12, 0x34] [0x5e] = .error .invalidDataFormat := short_signature_refused .gdsa _ _ _ (by decide +kernel)

/-- The signer does not try again when a component is zero (it only asserts): some nonces of a valid key give a signature its own verifier rejects. -/
theorem zero_component_signed : ∃ (x k : Int) (digest : List Byte), (0 < x ∧ x < 11) ∧ (0 < k ∧ k < 11) ∧
    verifyDigest (gfp 23 11 2) .gdsa (publicElement (gfp 23 11 2) .gdsa x) digest (signDigest (gfp 23 11 2) .gdsa x k digest) = .ok false :=
  ⟨3, 1, [0x50], by decide, by decide, by decide +kernel⟩

/-! ## Key agreement -/

/-- Diffie-Hellman: both parties get the same value, `g^(xy)` (with the cofactor in the exponent for the incompatible variant), with and without validation. -/
theorem dh_agrees (L : P.Laws V one) (c : Cofactor) (hc : c = .compatible → P.cofactor % P.order ≠ 0) (a b : List Byte)
    (ha : 0 < decodeInt a) (haq : decodeInt a < P.order) (hb : 0 < decodeInt b) (hbq : decodeInt b < P.order) (v w : Bool) :
    dhAgree P c a (dhPublic P b) v = some (P.encode false (P.exp P.g (decodeInt a * decodeInt b * if c = .incompatible then P.cofactor else 1))) ∧
    dhAgree P c b (dhPublic P a) w = some (P.encode false (P.exp P.g (decodeInt a * decodeInt b * if c = .incompatible then P.cofactor else 1))) := by
  rw [dhAgree_eq L c hc a b hb hbq v, dhAgree_eq L c hc b a ha haq w, mul_comm (decodeInt b)]
  exact ⟨rfl, rfl⟩

example : dhAgree (gfp 7879 101 170) .compatible [75] (dhPublic (gfp 7879 101 170) [50]) true = dhAgree (gfp 7879 101 170) .compatible [50] (dhPublic (gfp 7879 101 170) [75]) false :=
  have h := dh_agrees larger .compatible (fun _ => by decide +kernel) [75] [50] (by decide +kernel) (by decide +kernel) (by decide +kernel) (by decide +kernel) true false
  h.1.trans h.2.symm
example : dhAgree (gfp 23 11 2) .no [7] (dhPublic (gfp 23 11 2) [5]) true = some [4] := by decide +kernel

/-- An element outside the subgroup is refused when validation is asked for: what is accepted as an element of the wrong order gives no agreement. -/
theorem dh_wrong_order_refused (a pub : List Byte) (w : E) (hd : P.decode pub true = some w) (hf : P.fastCheck = false) (ho : P.isIdentity (P.exp w P.order) = false) :
    dhAgree P .no a pub true = none := by
  unfold dhAgree
  rw [hd]
  unfold agreeStatic
  simp only [Bool.not_true, Bool.false_eq_true, if_false, hf, ho, Bool.not_false, if_true]

example : dhAgree (gfp 7879 101 170) .no [75] [0x1e, 0xc6] true = none := dh_wrong_order_refused (P := gfp 7879 101 170) _ _ 7878 (by decide +kernel) (by decide +kernel) (by decide +kernel)
/-- With the fast check of safe primes as well. -/
example : dhAgree (gfp 23 11 2) .no [7] [5] true = none := by decide +kernel

/-- Unified Diffie-Hellman (`DH2`): both parties get the static and the ephemeral value, one after the other. -/
theorem dh2_agrees {E' : Type} {P' : Params E'} {V' : E' → Prop} {one' : E'} (L : P.Laws V one) (L' : P'.Laws V' one') (c : Cofactor)
    (hc : c = .compatible → P.cofactor % P.order ≠ 0) (hc' : c = .compatible → P'.cofactor % P'.order ≠ 0) (a b x y : List Byte)
    (ha : 0 < decodeInt a) (haq : decodeInt a < P.order) (hb : 0 < decodeInt b) (hbq : decodeInt b < P.order)
    (hx : 0 < decodeInt x) (hxq : decodeInt x < P'.order) (hy : 0 < decodeInt y) (hyq : decodeInt y < P'.order) (v w : Bool) :
    dh2Agree P P' c a x (dhPublic P b) (dhPublic P' y) v = dh2Agree P P' c b y (dhPublic P a) (dhPublic P' x) w ∧
    dh2Agree P P' c a x (dhPublic P b) (dhPublic P' y) v =
      some (P.encode false (P.exp P.g (decodeInt a * decodeInt b * if c = .incompatible then P.cofactor else 1)) ++
        P'.encode false (P'.exp P'.g (decodeInt x * decodeInt y * if c = .incompatible then P'.cofactor else 1))) := by
  have h1 := dh_agrees L c hc a b ha haq hb hbq v w
  have h2 := dh_agrees L' c hc' x y hx hxq hy hyq true true
  unfold dh2Agree
  rw [h1.1, h1.2, h2.1, h2.2]
  exact ⟨rfl, rfl⟩

example : dh2Agree (gfp 23 11 2) (gfp 7879 101 170) .no [7] [75] (dhPublic (gfp 23 11 2) [5]) (dhPublic (gfp 7879 101 170) [50]) true =
    dh2Agree (gfp 23 11 2) (gfp 7879 101 170) .no [5] [50] (dhPublic (gfp 23 11 2) [7]) (dhPublic (gfp 7879 101 170) [75]) true :=
  (dh2_agrees small larger .no (fun h => by cases h) (fun h => by cases h) [7] [5] [75] [50] (by decide +kernel) (by decide +kernel) (by decide +kernel) (by decide +kernel)
    (by decide +kernel) (by decide +kernel) (by decide +kernel) (by decide +kernel) true true).1

/-- MQV: both parties get `g` to the product of the two implicit signatures, or both fail because that is the unit. -/
theorem mqv_agrees (L : P.Laws V one) (c : Cofactor) (hc : c ≠ .no → P.cofactor % P.order ≠ 0) (a b : List Byte) (u v : Int)
    (ha : 0 < decodeInt a) (haq : decodeInt a < P.order) (hb : 0 < decodeInt b) (hbq : decodeInt b < P.order)
    (hu : 0 < u) (huq : u < P.order) (hv : 0 < v) (hvq : v < P.order) (val val' : Bool) (A B : Int) (hA : A = implicitSignature P (decodeInt a) u) (hB : B = implicitSignature P (decodeInt b) v) :
    mqvAgree P c a (ephPrivate P u) (dhPublic P b) (ephPublic P (ephPrivate P v)) val =
      (if A * B % P.order = 0 then none else some (P.encode false (P.exp P.g (A * B * if c = .incompatible then P.cofactor else 1)))) ∧
    mqvAgree P c b (ephPrivate P v) (dhPublic P a) (ephPublic P (ephPrivate P u)) val' =
      (if A * B % P.order = 0 then none else some (P.encode false (P.exp P.g (A * B * if c = .incompatible then P.cofactor else 1)))) := by
  rw [mqvAgree_eq L c hc a b u v ha haq hb hbq hu huq hv hvq val, mqvAgree_eq L c hc b a v u hb hbq ha haq hv hvq hu huq val', ← hA, ← hB, mul_comm B A]
  exact ⟨rfl, rfl⟩

example : mqvAgree (gfp 7879 101 170) .no [75] (ephPrivate (gfp 7879 101 170) 20) (dhPublic (gfp 7879 101 170) [50]) (ephPublic (gfp 7879 101 170) (ephPrivate (gfp 7879 101 170) 30)) true =
    mqvAgree (gfp 7879 101 170) .no [50] (ephPrivate (gfp 7879 101 170) 30) (dhPublic (gfp 7879 101 170) [75]) (ephPublic (gfp 7879 101 170) (ephPrivate (gfp 7879 101 170) 20)) true :=
  have h := mqv_agrees larger .no (fun h => absurd rfl h) [75] [50] 20 30 (by decide +kernel) (by decide +kernel) (by decide +kernel) (by decide +kernel)
    (by decide) (by decide +kernel) (by decide) (by decide +kernel) true true _ _ rfl rfl
  h.1.trans h.2.symm
example : (mqvAgree (gfp 7879 101 170) .compatible [75] (ephPrivate (gfp 7879 101 170) 20) (dhPublic (gfp 7879 101 170) [50]) (ephPublic (gfp 7879 101 170) (ephPrivate (gfp 7879 101 170) 30)) true).isSome = true := by
  decide +kernel

/-- HMQV and FHMQV: client and server get the key of the papers. -/
theorem hmqv_agrees (L : P.Laws V one) (H : List Byte → List Byte) (d : Nat) (hd : 0 < d) (hH : ∀ m, (H m).length = d) (full : Bool) (a b : List Byte) (x y : Int)
    (ha : 0 < decodeInt a) (haq : decodeInt a < P.order) (hb : 0 < decodeInt b) (hbq : decodeInt b < P.order)
    (hx : 0 < x) (hxq : x < P.order) (hy : 0 < y) (hyq : y < P.order) (v v' : Bool) :
    hmqvAgree P H d full false a (ephPrivate P x) (dhPublic P b) (ephPublic P (ephPrivate P y)) v = some (hmqvKey P H full (decodeInt a) x (decodeInt b) y) ∧
    hmqvAgree P H d full true b (ephPrivate P y) (dhPublic P a) (ephPublic P (ephPrivate P x)) v' = some (hmqvKey P H full (decodeInt a) x (decodeInt b) y) :=
  ⟨hmqv_client L H d hd hH full a b x y ha hb hbq hx hxq hy hyq v, hmqv_server L H d hd hH full a b x y ha haq hb hx hxq hy hyq v'⟩

/-- A one-byte hash for the example: the sum of the bytes. -/
private def sum (m : List Byte) : List Byte := [m.foldl (· + ·) 7]

example : hmqvAgree (gfp 7879 101 170) sum 1 true false [75] (ephPrivate (gfp 7879 101 170) 20) (dhPublic (gfp 7879 101 170) [50]) (ephPublic (gfp 7879 101 170) (ephPrivate (gfp 7879 101 170) 30)) true =
    hmqvAgree (gfp 7879 101 170) sum 1 true true [50] (ephPrivate (gfp 7879 101 170) 30) (dhPublic (gfp 7879 101 170) [75]) (ephPublic (gfp 7879 101 170) (ephPrivate (gfp 7879 101 170) 20)) true :=
  have h := hmqv_agrees larger sum 1 (by decide) (fun _ => rfl) true [75] [50] 20 30 (by decide +kernel) (by decide +kernel) (by decide +kernel) (by decide +kernel)
    (by decide) (by decide +kernel) (by decide) (by decide +kernel) true true
  h.1.trans h.2.symm

/-! ## Encryption -/

/-- ElGamal: decryption returns the message, for every key, ephemeral exponent, random padding and message up to the limit. -/
theorem elgamal_inverts (p q : Nat) (hp : p.Prime) (hq : q.Prime) (hd : q ∣ p - 1) (g : Int) (hg : 1 < g) (hgp : g < p) (ho : g ^ q % p = 1)
    (x y : Int) (hx : 0 < x) (hxq : x < q) (hy : 0 < y) (rnd m : List Byte) (hm : m.length ≤ (elgamal p).maxPlaintext (byteCount p)) (hl : 3 ≤ byteCount p) (hr : byteCount p ≤ rnd.length + m.length + 2) :
    ∃ ct, encrypt (gfp p q g) .no (elgamal p) ((gfp p q g).expBase y) x rnd m = .ok ct ∧ decrypt (gfp p q g) .no (elgamal p) y ct = .ok (some m) := by
  have L := gfp_laws p q hp hq hd g hg hgp ho
  apply encrypt_decrypt L .no (fun h => by cases h) (elgamal p) y x (le_of_lt hy) hx hxq rnd m
  intro z w hz
  have hmax : m.length ≤ min 255 (byteCount p - 3) := by simpa [elgamal] using hm
  have hzV := L.V_exp _ L.V_g (x * y * 1) (Int.mul_nonneg (Int.mul_nonneg (le_of_lt hx) (le_of_lt hy)) (by omega))
  simp only [reduceCtorEq, if_false] at hz
  rw [← hz] at hzV
  obtain ⟨t, h1, _, h3⟩ := elgamal_round_trip p hp z hzV.1 hzV.2 rnd m (by omega) (by omega) hr
  exact ⟨t, h1, h3⟩

/-- For a 25-bit prime. -/
example (p q : Nat) (hp : p = 16778929) (hq : q = 101) : ∃ ct, encrypt (gfp p q 3733068) .no (elgamal p) ((gfp p q 3733068).expBase 77) 67 [1] [0xab] = .ok ct ∧
    decrypt (gfp p q 3733068) .no (elgamal p) 77 ct = .ok (some [0xab]) := by
  have hb : byteCount p = 4 := by rw [hp]; decide +kernel
  apply elgamal_inverts p q (by rw [hp]; norm_num) (by rw [hq]; norm_num) (by rw [hp, hq]; norm_num) 3733068 (by norm_num) (by rw [hp]; norm_num) (by rw [hp, hq]; norm_num) 67 77 (by norm_num) (by rw [hq]; norm_num)
    (by norm_num) [1] _ _ (by omega) (by rw [hb]; decide)
  simp [elgamal, hb]

/-- DLIES and ECIES, in every combination of their options: decryption returns the message. -/
theorem ies_inverts (L : P.Laws V one) (c : Cofactor) (hc : c = .compatible → P.cofactor % P.order ≠ 0) (dhaes octets : Bool) (mac : List Byte → List Byte → List Byte) (macKey macLen : Nat)
    (hmac : ∀ k m, (mac k m).length = macLen) (kdf : Nat → List Byte → List Byte) (hkdf : ∀ n z, (kdf n z).length = n) (param : List Byte)
    (x y : Int) (hx : 0 < x) (hxq : x < P.order) (hy : 0 ≤ y) (rnd m : List Byte) :
    ∃ ct, encrypt P c (ies P dhaes octets mac macKey macLen kdf param) (P.expBase y) x rnd m = .ok ct ∧ decrypt P c (ies P dhaes octets mac macKey macLen kdf param) y ct = .ok (some m) :=
  encrypt_decrypt L c hc _ y x hy hx hxq rnd m (fun z q _ => ies_round_trip P dhaes octets mac macKey macLen hmac kdf hkdf param rnd m z q)

private def padMac (k m : List Byte) : List Byte := [(k ++ m).foldl (· + ·) 7, m.foldl (· ^^^ ·) 1]
private def padKdf (n : Nat) (z : List Byte) : List Byte := (List.range n).map fun i => z.foldl (· + ·) (BitVec.ofNat 8 i)

example : ∃ ct, encrypt (gfp 7879 101 170) .compatible (ies (gfp 7879 101 170) true false padMac 4 2 padKdf [1, 2]) ((gfp 7879 101 170).expBase 50) 75 [] [0xab, 0xcd, 0xef] = .ok ct ∧
    decrypt (gfp 7879 101 170) .compatible (ies (gfp 7879 101 170) true false padMac 4 2 padKdf [1, 2]) 50 ct = .ok (some [0xab, 0xcd, 0xef]) :=
  ies_inverts larger .compatible (fun _ => by decide +kernel) true false padMac 4 2 (fun _ _ => rfl) padKdf (fun _ _ => by simp [padKdf]) [1, 2] 75 50 (by decide) (by decide +kernel) (by decide) [] _

/-- The symmetric part of DLIES accepts exactly what encryption of some message gives: a ciphertext with any other tag is invalid. -/
theorem ies_authentic (P : Params E) (dhaes octets : Bool) (mac : List Byte → List Byte → List Byte) (macKey macLen : Nat) (hmac : ∀ k m, (mac k m).length = macLen)
    (kdf : Nat → List Byte → List Byte) (param key rnd m ct : List Byte) (hk : key.length = ct.length - macLen + macKey) (hct : macLen ≤ ct.length) :
    (ies P dhaes octets mac macKey macLen kdf param).decrypt key ct = .ok (some m) ↔
      m.length + macLen = ct.length ∧ (ies P dhaes octets mac macKey macLen kdf param).encrypt key rnd m = .ok ct :=
  ies_iff P dhaes octets mac macKey macLen hmac kdf param key rnd m ct hk hct

/-- DLIES as in IEEE 1363a: the ciphertext is the message xor the cipher key, then the tag under the MAC key of ciphertext, encoding parameters and (DHAES mode) their length in 64 bits; the keys are the two parts of the
derived key, the MAC key first in DHAES mode and last otherwise. -/
theorem ies_format (P : Params E) (dhaes octets : Bool) (mac : List Byte → List Byte → List Byte) (macLen : Nat) (kdf : Nat → List Byte → List Byte) (param encKey macKey rnd m : List Byte)
    (hm : encKey.length = m.length) :
    (ies P dhaes octets mac macKey.length macLen kdf param).encrypt (if dhaes then macKey ++ encKey else encKey ++ macKey) rnd m =
      .ok (List.zipWith (· ^^^ ·) m encKey ++ mac macKey (List.zipWith (· ^^^ ·) m encKey ++ param ++
        if dhaes then beBytes 8 (if octets then param.length else 8 * param.length) else [])) := by
  have e : iesKeys dhaes macKey.length (if dhaes = true then macKey ++ encKey else encKey ++ macKey) m.length = (macKey, encKey) := by
    unfold iesKeys
    cases dhaes
    · simp [← hm]
    · simp [← hm]
  show Except.ok (List.zipWith (· ^^^ ·) m (iesKeys dhaes macKey.length (if dhaes = true then macKey ++ encKey else encKey ++ macKey) m.length).2 ++ _) = _
  rw [e]

/-- The secret from which the keys come: the shared element, in DHAES mode with the ephemeral element before it. -/
theorem ies_secret (P : Params E) (dhaes octets : Bool) (mac : List Byte → List Byte → List Byte) (macKey macLen : Nat) (kdf : Nat → List Byte → List Byte) (param : List Byte) (n : Nat) (z q : E) :
    (ies P dhaes octets mac macKey macLen kdf param).derive ((ies P dhaes octets mac macKey macLen kdf param).keyLength n) z q =
      kdf (n + macKey) ((if dhaes then P.encode true q else []) ++ P.encode false z) := by
  cases dhaes <;> rfl

/-! ## Where the code does not check -/

/-- A ciphertext shorter than an encoded element is read behind its end (`FixedCiphertextLength` and `MaxPlaintextLength` are not checked in `Decrypt`). -/
theorem short_ciphertext_undefined (c : Cofactor) (D : Dem E) (x : Int) (ct : List Byte) (h : ct.length < P.encSize true) : decrypt P c D x ct = .error .undefinedBehaviour := by
  unfold decrypt
  rw [if_pos h]

example : decrypt (gfp 7879 101 170) .no (elgamal 7879) 50 [1] = .error .undefinedBehaviour := short_ciphertext_undefined .no _ _ _ (by decide +kernel)

/-- A DLIES ciphertext with a valid element but fewer bytes than a tag is read behind its end. -/
theorem short_tag_undefined (P : Params E) (dhaes octets : Bool) (mac : List Byte → List Byte → List Byte) (macKey macLen : Nat) (kdf : Nat → List Byte → List Byte) (param key ct : List Byte)
    (h : ct.length < macLen) : (ies P dhaes octets mac macKey macLen kdf param).decrypt key ct = .error .undefinedBehaviour := by
  unfold ies
  simp only
  rw [if_pos h]

example : decrypt (gfp 7879 101 170) .no (ies (gfp 7879 101 170) true false padMac 4 2 padKdf []) 50 ((gfp 7879 101 170).encode true ((gfp 7879 101 170).expBase 75) ++ [9]) = .error .undefinedBehaviour := by
  decide +kernel

/-- ElGamal encryption of a message longer than the modulus writes outside its block instead of throwing. -/
theorem elgamal_long_message_undefined (p : Int) (key rnd m : List Byte) (h : byteCount p < m.length + 2) : (elgamal p).encrypt key rnd m = .error .undefinedBehaviour := by
  unfold elgamal
  simp only
  rw [if_pos (by omega)]

example : (elgamal 7879).encrypt [1, 2] [] [3] = .error .undefinedBehaviour := elgamal_long_message_undefined _ _ _ _ (by decide +kernel)

end Verif.Dl
