import Verif.Tf.Proofs
import Mathlib.NumberTheory.LucasPrimality

/-! # C55: RSA encryption and signature schemes -/
namespace Verif.Tf
open Verif.Dl Verif.Rsa Verif.PkPad Verif.Hash Verif.Misc

section
variable (k : Key) (p q : Nat) (hv : validate k 1 = true) (hp : k.p = p) (hq : k.q = q) (hpp : p.Prime) (hqp : q.Prime) (rs : List Int) (hr : ∃ r ∈ rs, Int.gcd r k.n = 1)
variable {σ : Type} {O : Obj σ} {H : List Byte → List Byte} {lim : Nat} {Rep : σ → List Byte → Prop}
include hv hp hq hpp hqp hr

/-! ## Encryption -/

/-- RSA-OAEP: decryption with the private key gives the message encrypted with the public key, for every message of an allowed length, label, seed and blinding value. -/
theorem oaep_decrypts (C : O.Computes H lim Rep) (hd0 : 0 < O.digestSize) (s : σ) (hs : Rep s []) (fresh seed label m : List Byte)
    (hf : fresh.length = (bitCount k.n - 1 + 7) / 8) (hseed : seed.length = O.digestSize) (hb : 2 * O.digestSize + 1 ≤ (bitCount k.n - 1) / 8)
    (hm : m.length ≤ oaepMax O.digestSize (bitCount k.n - 1)) (hlab : label.length < lim) (hlim : (bitCount k.n - 1) / 8 + 4 < lim) :
    ∃ ct, encrypt (rsa k rs) (oaepMax O.digestSize) (oaepPad O s fresh seed label) m = .ok ct ∧ ct.length = byteCount (k.n - 1) ∧
      decrypt (rsa k rs) (fun block bits => oaepUnpad O s block label bits) ct = .ok (some m) := by
  obtain ⟨h1, h2, h3⟩ := oaep_round_trip C hd0 s hs fresh seed label m _ hf hseed hb hm hlab hlim
  refine encrypt_decrypt (rsa_inverts k p q hv hp hq hpp hqp rs hr) _ _ _ m _ hm h1 h2 ?_ h3
  have hl := h2
  simp only [Spec.oaep, List.append_assoc] at hl ⊢
  exact lead_top _ _ hl

/-- RSA PKCS #1 v1.5: likewise. -/
theorem pkcs_decrypts (fresh : List Byte) (rnd : Nat → Byte) (hrnd : ∀ i, rnd i ≠ 0) (m : List Byte)
    (hf : fresh.length = (bitCount k.n - 1 + 7) / 8) (hb : 2 ≤ (bitCount k.n - 1) / 8) (hm : m.length ≤ pkcsMax (bitCount k.n - 1)) :
    ∃ ct, encrypt (rsa k rs) pkcsMax (pkcsPad fresh rnd) m = .ok ct ∧ ct.length = byteCount (k.n - 1) ∧ decrypt (rsa k rs) pkcsUnpad ct = .ok (some m) := by
  obtain ⟨ps, h1, _, h2, h3⟩ := pkcs_round_trip _ hb fresh hf rnd hrnd m hm
  have hl : (Spec.pkcs (bitCount k.n - 1) ps m).length = (bitCount k.n - 1 + 7) / 8 := by
    have e : (bitCount k.n - 1 + 7) / 8 = _ := bytes_eq (bitCount k.n - 1)
    rw [e]
    simp only [Spec.pkcs, List.length_append, List.length_singleton, lead_length]
    omega
  refine encrypt_decrypt (rsa_inverts k p q hv hp hq hpp hqp rs hr) _ _ _ m _ hm h2 hl ?_ h3
  have hl' := hl
  simp only [Spec.pkcs, List.append_assoc] at hl' ⊢
  exact lead_top _ _ hl'

/-- Whatever a ciphertext decrypts to, it is the encryption of it with some seed: no other ciphertext of that value is accepted (modulus with a whole number of bytes, or any other number of bits but one more than that). -/
theorem oaep_decrypt_exact (C : O.Computes H lim Rep) (hd0 : 0 < O.digestSize) (s : σ) (hs : Rep s []) (label ct : List Byte)
    (hb : 2 * O.digestSize ≤ (bitCount k.n - 1) / 8) (hlab : label.length < lim) (hlim : (bitCount k.n - 1) / 8 + 4 < lim)
    (h1 : (bitCount k.n - 1) % 8 ≠ 0) (hl : ct.length = byteCount (k.n - 1)) (hc : decodeInt ct < k.n) :
    ∃ r, decrypt (rsa k rs) (fun block bits => oaepUnpad O s block label bits) ct = .ok r ∧ ∀ m, r = some m ↔ m.length + 2 * O.digestSize + 1 ≤ (bitCount k.n - 1) / 8 ∧
      ∃ seed : List Byte, seed.length = O.digestSize ∧ decodeInt ct = decodeInt (Spec.oaep H O.digestSize (bitCount k.n - 1) label seed m) ^ k.e.toNat % k.n := by
  obtain ⟨x, hx, hap, x0, xn⟩ := verify_inverts_sign k p q hv hp hq hpp hqp rs hr (decodeInt ct) (decodeInt_nonneg _) hc
  have hpm : powMod x k.e k.n = decodeInt ct := result_checked k rs _ _ hx
  obtain ⟨hn, _⟩ := key_pos k hv
  have xlt : x < 256 ^ bitsToBytes (bitCount k.n - 1) := by
    have h2 : k.n < 2 ^ bitCount k.n := (bitCount_le_of k.n (bitCount k.n) (by omega)).mp (le_refl _)
    have h3 : (2 : Int) ^ bitCount k.n ≤ 2 ^ (8 * bitsToBytes (bitCount k.n - 1)) := pow_le_pow_right₀ (by decide) (by unfold bitsToBytes; omega)
    rw [pow_mul] at h3
    have : (2 : Int) ^ 8 = 256 := rfl
    rw [this] at h3
    omega
  have hbl : (encodeInt x (bitsToBytes (bitCount k.n - 1))).length = (bitCount k.n - 1 + 7) / 8 := encodeInt_length _ _
  obtain ⟨r, e1, e2⟩ := oaep_unpad_exact C hd0 s hs (encodeInt x (bitsToBytes (bitCount k.n - 1))) label (bitCount k.n - 1) hbl hb hlab hlim
  refine ⟨r, ?_, fun m => ?_⟩
  · unfold decrypt
    rw [if_neg (by rw [hl]; exact fun h => h rfl)]
    have : (rsa k rs).inverse (decodeInt ct) = .ok x := hx
    simp only [bind, Except.bind, this]
    rw [if_neg]
    · exact e1
    · have := byteCount_le_of x _ x0 xlt
      show ¬ bitsToBytes (bitCount k.n - 1) < byteCount x
      omega
  · rw [e2 m]
    refine and_congr_right fun hmm => exists_congr fun seed => and_congr_right fun hsd => ?_
    have hol : (Spec.oaep H O.digestSize (bitCount k.n - 1) label seed m).length = (bitCount k.n - 1 + 7) / 8 :=
      (oaep_round_trip C hd0 s hs (List.replicate ((bitCount k.n - 1 + 7) / 8) 0) seed label m (bitCount k.n - 1) (by simp) hsd (by omega) (by unfold oaepMax; omega) hlab hlim).2.1
    constructor
    · intro h
      rw [← h, decode_encodeInt _ _ x0 xlt]
      exact hpm.symm
    · intro h
      have hM : decodeInt (Spec.oaep H O.digestSize (bitCount k.n - 1) label seed m) < k.n := by
        refine lt_of_lt_of_le ?_ (bound_pow k.n (by omega))
        have hl := hol
        simp only [Spec.oaep, List.append_assoc] at hl ⊢
        exact lead_top _ _ hl
      obtain ⟨y, hy, hyi⟩ := decrypt_inverts_encrypt k p q hv hp hq hpp hqp rs hr _ (decodeInt_nonneg _) hM
      have hyv : y = decodeInt ct := by
        unfold applyFunction at hy
        rw [(key_pos k hv).2] at hy
        injection hy with hy
        rw [h, ← hy]; rfl
      rw [hyv, hx] at hyi
      injection hyi with hyi
      rw [hyi]
      exact encode_decode _ _ hol
end

/-- A ciphertext that stands for a number not below the modulus is not reported as invalid: decryption throws, whatever the encoding. -/
theorem out_of_range_throws (k : Key) (rs : List Int) (unpad : List Byte → Nat → Except Err (Option (List Byte))) (ct : List Byte) (hn : 0 < k.n) (hc : k.n ≤ decodeInt ct) :
    ∀ r, decrypt (rsa k rs) unpad ct ≠ .ok r := by
  intro r h
  unfold decrypt at h
  split at h
  · cases h
  · cases hi : (rsa k rs).inverse (decodeInt ct) with
    | error e => rw [hi] at h; cases h
    | ok y => exact too_large_throws k rs _ hn hc y hi

/-! ## Signatures -/

section
variable (k : Key) (p q : Nat) (hv : validate k 1 = true) (hp : k.p = p) (hq : k.q = q) (hpp : p.Prime) (hqp : q.Prime) (rs : List Int) (hr : ∃ r ∈ rs, Int.gcd r k.n = 1)
variable {σ : Type} {O : Obj σ} {H : List Byte → List Byte} {lim : Nat} {Rep : σ → List Byte → Prop}
include hv hp hq hpp hqp hr

/-- RSASSA-PKCS1-v1_5: the verifier accepts what the signer makes, for every message. -/
theorem pkcs1_verifies (C : O.Computes H lim Rep) (s : σ) (msg : List Byte) (hs : Rep s msg) (fresh hashId : List Byte) (hf : fresh.length = (bitCount k.n - 1 + 7) / 8)
    (hl : pkcs1MinBits hashId.length O.digestSize ≤ bitCount k.n - 1) :
    ∃ sig, sign (rsa k rs) (pkcs1MinBits hashId.length O.digestSize) (fun bits => (pkcs1Compute O s fresh hashId bits).map Prod.snd) = .ok sig ∧ sig.length = byteCount (k.n - 1) ∧
      verify (rsa k rs) (pkcs1MinBits hashId.length O.digestSize) (pkcs1Verify O s fresh hashId) sig = .ok true := by
  obtain ⟨⟨s', h1⟩, _, _, h4⟩ := pkcs1_exact C s msg hs fresh hashId [] (bitCount k.n - 1) hf hl
  have h2 := (pkcs1_exact C s msg hs fresh hashId (Spec.pkcs1 (bitCount k.n - 1) (hashId ++ H msg)) (bitCount k.n - 1) hf hl).2.1
  obtain ⟨sig, a, b, c⟩ := sign_verify (rsa_signs k p q hv hp hq hpp hqp rs hr) (pkcs1MinBits hashId.length O.digestSize) (fun bits => (pkcs1Compute O s fresh hashId bits).map Prod.snd)
    (pkcs1Verify O s fresh hashId) _ hl (by show Except.map _ (pkcs1Compute O s fresh hashId (bitCount k.n - 1)) = _; rw [h1]; rfl) h4 (by
      have hl := h4
      simp only [Spec.pkcs1, List.append_assoc] at hl ⊢
      exact lead_top _ _ hl) trivial
  refine ⟨sig, a, b, ?_⟩
  rw [c]
  show pkcs1Verify O s fresh hashId _ (bitCount k.n - 1) = _
  rw [h2]; simp

omit hp hq hpp hqp hr in
/-- Exactly the numbers whose power is the encoding of the message's hash are accepted. -/
theorem pkcs1_verify_exact (C : O.Computes H lim Rep) (s : σ) (msg : List Byte) (hs : Rep s msg) (fresh hashId sig : List Byte) (hf : fresh.length = (bitCount k.n - 1 + 7) / 8)
    (hl : pkcs1MinBits hashId.length O.digestSize ≤ bitCount k.n - 1) :
    verify (rsa k rs) (pkcs1MinBits hashId.length O.digestSize) (pkcs1Verify O s fresh hashId) sig =
      .ok (decide (decodeInt sig ^ k.e.toNat % k.n = decodeInt (Spec.pkcs1 (bitCount k.n - 1) (hashId ++ H msg)))) := by
  obtain ⟨hn, hpub⟩ := key_pos k hv
  have hap : (rsa k rs).apply (decodeInt sig) = .ok (powMod (decodeInt sig) k.e k.n) := by
    show applyFunction (validatePublic k) k _ = _
    unfold applyFunction; rw [hpub]; rfl
  obtain ⟨rep, r1, r2, r3, r4⟩ := verify_eq (F := rsa k rs) (pkcs1MinBits hashId.length O.digestSize) (pkcs1Verify O s fresh hashId) sig _ hl hap (Int.emod_nonneg _ (by omega))
  obtain ⟨_, h2, _, h4⟩ := pkcs1_exact C s msg hs fresh hashId rep (bitCount k.n - 1) hf hl
  rw [r3]
  refine h2.trans (congrArg Except.ok ?_)
  rw [decide_eq_decide]
  have hpos : 0 < decodeInt (Spec.pkcs1 (bitCount k.n - 1) (hashId ++ H msg)) := decode_pos _ 1 (by simp [Spec.pkcs1]) (by decide)
  have htop : decodeInt (Spec.pkcs1 (bitCount k.n - 1) (hashId ++ H msg)) < 2 ^ (bitCount k.n - 1) := by
    have hl := h4
    simp only [Spec.pkcs1, List.append_assoc] at hl ⊢
    exact lead_top _ _ hl
  have hpm : powMod (decodeInt sig) k.e k.n = decodeInt sig ^ k.e.toNat % k.n := rfl
  rw [hpm] at r4
  rcases r4 with ⟨ha, hb⟩ | ⟨ha, hb⟩
  · rw [← hb]
    exact ⟨fun h => by rw [h], fun h => decode_inj _ _ (r1.trans h4.symm) h⟩
  · constructor
    · intro h; rw [h] at hb; omega
    · intro h
      have e : repBits (rsa k rs) = bitCount k.n - 1 := rfl
      rw [e] at ha; omega

/-- RSASSA-PSS and PSSR (no least padding): the verifier accepts what the signer makes, and recovers the recoverable part. -/
theorem pss_recovers (C : O.Computes H lim Rep) (hd0 : 0 < O.digestSize) (s : σ) (msg : List Byte) (hs : Rep s msg) (P : Pss) (hP : P.minPad = 0) (fresh salt m : List Byte)
    (hf : fresh.length = (bitCount k.n - 1 + 7) / 8) (hsalt : salt.length = P.saltLen) (hl : pssMinBits P O.digestSize ≤ bitCount k.n - 1)
    (hm : m.length ≤ pssMaxRec P (bitCount k.n - 1) O.digestSize) (h64 : bitCount k.n - 1 < 2 ^ 64) (hlim : (bitCount k.n - 1 + 7) / 8 + 8 < lim) :
    ∃ sig, sign (rsa k rs) (pssMinBits P O.digestSize) (pssCompute O s P fresh salt m) = .ok sig ∧ sig.length = byteCount (k.n - 1) ∧
      verify (rsa k rs) (pssMinBits P O.digestSize) (pssRecover O s P) sig = .ok (some m) ∧
      (m = [] → verify (rsa k rs) (pssMinBits P O.digestSize) (pssVerify O s P) sig = .ok true) := by
  obtain ⟨h1, h2, h3, h4⟩ := pss_round_trip C hd0 s msg hs P hP fresh salt m (bitCount k.n - 1) hf hsalt hl hm h64 hlim
  have I := rsa_signs k p q hv hp hq hpp hqp rs hr
  have ht := (top_iff _ _ h2).mp h3
  obtain ⟨sig, a, b, c⟩ := sign_verify I (pssMinBits P O.digestSize) (pssCompute O s P fresh salt m) (pssRecover O s P) _ hl h1 h2 ht trivial
  obtain ⟨sig', a', b', c'⟩ := sign_verify I (pssMinBits P O.digestSize) (pssCompute O s P fresh salt m) (pssVerify O s P) _ hl h1 h2 ht trivial
  have hss : sig' = sig := by rw [a] at a'; injection a' with a'; exact a'.symm
  subst hss
  refine ⟨sig', a, b, c.trans h4, ?_⟩
  rintro rfl
  rw [c']
  show pssVerify O s P _ (bitCount k.n - 1) = _
  unfold pssVerify; rw [h4]; rfl

omit hp hq hpp hqp hr in
/-- Exactly the numbers whose power is an encoding of the message's hash, with some salt, are accepted. -/
theorem pss_verify_exact (C : O.Computes H lim Rep) (hd0 : 0 < O.digestSize) (s : σ) (msg : List Byte) (hs : Rep s msg) (P : Pss) (hP : P.minPad = 0) (sig : List Byte)
    (hl : pssMinBits P O.digestSize ≤ bitCount k.n - 1) (h64 : bitCount k.n - 1 < 2 ^ 64) (hlim : (bitCount k.n - 1 + 7) / 8 + 8 < lim) :
    ∃ v, verify (rsa k rs) (pssMinBits P O.digestSize) (pssVerify O s P) sig = .ok v ∧
      (v = true ↔ ∃ salt : List Byte, salt.length = P.saltLen ∧ decodeInt sig ^ k.e.toNat % k.n = decodeInt (Spec.pss H O.digestSize (bitCount k.n - 1) P.hashId [] (H msg) salt)) := by
  obtain ⟨hn, hpub⟩ := key_pos k hv
  have hap : (rsa k rs).apply (decodeInt sig) = .ok (powMod (decodeInt sig) k.e k.n) := by
    show applyFunction (validatePublic k) k _ = _
    unfold applyFunction; rw [hpub]; rfl
  obtain ⟨rep, r1, r2, r3, r4⟩ := verify_eq (F := rsa k rs) (pssMinBits P O.digestSize) (pssVerify O s P) sig _ hl hap (Int.emod_nonneg _ (by omega))
  obtain ⟨v, e1, e2⟩ := PkPad.pss_verify_exact C hd0 s msg hs P hP rep (bitCount k.n - 1) r1 r2 hl h64 hlim
  refine ⟨v, r3.trans e1, ?_⟩
  rw [e2]
  refine exists_congr fun salt => and_congr_right fun hsalt => ?_
  obtain ⟨_, h2, h3, _⟩ := pss_round_trip C hd0 s msg hs P hP (List.replicate ((bitCount k.n - 1 + 7) / 8) 0) salt [] (bitCount k.n - 1) (by simp) hsalt hl (Nat.zero_le _) h64 hlim
  have hpos : 0 < decodeInt (Spec.pss H O.digestSize (bitCount k.n - 1) P.hashId [] (H msg) salt) := by
    refine decode_pos _ (if P.hashId = [] then 0xbc else 0xcc) ?_ (by split <;> decide)
    unfold Spec.pss
    exact List.mem_append_right _ (List.mem_singleton.mpr rfl)
  have htop := (top_iff _ _ h2).mp h3
  have hpm : powMod (decodeInt sig) k.e k.n = decodeInt sig ^ k.e.toNat % k.n := rfl
  rw [hpm] at r4
  rcases r4 with ⟨ha, hb⟩ | ⟨ha, hb⟩
  · rw [← hb]
    exact ⟨fun h => by rw [h], fun h => decode_inj _ _ (r1.trans h2.symm) h⟩
  · constructor
    · intro h; rw [h] at hb; omega
    · intro h
      have e : repBits (rsa k rs) = bitCount k.n - 1 := rfl
      rw [e] at ha; omega

/-- RSA of P1363 and ISO 9796-2 with EMSA2 (modulus of a whole number of bytes): the verifier accepts what the signer makes. -/
theorem emsa2_verifies (C : O.Computes H lim Rep) (s : σ) (msg : List Byte) (hs : Rep s msg) (fresh : List Byte) (hashId : Byte) (empty : Bool)
    (hf : fresh.length = (bitCount k.n - 1 + 7) / 8) (hl : emsa2MinBits O.digestSize ≤ bitCount k.n - 1) (h7 : (bitCount k.n - 1) % 8 = 7) :
    ∃ sig, sign (rsaIso k rs) (emsa2MinBits O.digestSize) (fun bits => (emsa2Compute O s fresh hashId empty bits).map Prod.snd) = .ok sig ∧ sig.length = byteCount (k.n / 2) ∧
      verify (rsaIso k rs) (emsa2MinBits O.digestSize) (emsa2Verify O s fresh hashId empty) sig = .ok true := by
  obtain ⟨⟨s', h1⟩, h2, h3⟩ := emsa2_exact C s msg hs fresh hashId empty (bitCount k.n - 1) hf hl h7
  have htop : Spec.clearTop (bitCount k.n - 1) (Spec.emsa2 ((bitCount k.n - 1 + 7) / 8) empty (H msg) hashId) = Spec.emsa2 ((bitCount k.n - 1 + 7) / 8) empty (H msg) hashId := by
    simp only [Spec.emsa2, List.singleton_append, List.cons_append, Spec.clearTop, h7]
    cases empty <;> rfl
  have h12 : decodeInt (Spec.emsa2 ((bitCount k.n - 1 + 7) / 8) empty (H msg) hashId) % 16 = 12 := by
    have e : Spec.emsa2 ((bitCount k.n - 1 + 7) / 8) empty (H msg) hashId =
      ([if empty then 0x4b else 0x6b] ++ List.replicate ((bitCount k.n - 1 + 7) / 8 - (H msg).length - 4) 0xbb ++ [0xba] ++ H msg ++ [hashId]) ++ [0xcc] := by simp [Spec.emsa2]
    rw [e]
    unfold decodeInt
    rw [beVal_append]
    have : beVal [(0xcc : Byte)] = 204 := by decide
    rw [this]
    simp only [List.length_singleton, pow_one]
    push_cast
    omega
  obtain ⟨sig, a, b, c⟩ := sign_verify (rsaIso_signs k p q hv hp hq hpp hqp rs hr) (emsa2MinBits O.digestSize) (fun bits => (emsa2Compute O s fresh hashId empty bits).map Prod.snd)
    (emsa2Verify O s fresh hashId empty) _ hl (by show Except.map _ (emsa2Compute O s fresh hashId empty (bitCount k.n - 1)) = _; rw [h1]; rfl) h3 ((top_iff _ _ h3).mp htop) h12
  refine ⟨sig, a, ?_, ?_⟩
  · rw [b]; show byteCount (k.n / 2 + 1 - 1) = _; congr 1; omega
  · rw [c]
    show emsa2Verify O s fresh hashId empty _ (bitCount k.n - 1) = _
    rw [h2]; simp
end

/-- The verifier checks neither the length of the signature nor that it is below the modulus (RFC 8017, 8.1.2 step 1 and 5.2.2 step 1): a zero byte in front, and the modulus added to it, change nothing. -/
theorem signature_not_unique {α : Type} (k : Key) (rs : List Int) (minBits : Nat) (check : List Byte → Nat → Except Err α) (sig sig' : List Byte)
    (h : decodeInt sig' = decodeInt sig ∨ decodeInt sig' = decodeInt sig + k.n) : verify (rsa k rs) minBits check sig' = verify (rsa k rs) minBits check sig := by
  have : (rsa k rs).apply (decodeInt sig') = (rsa k rs).apply (decodeInt sig) := by
    rcases h with h | h
    · rw [h]
    · rw [h]
      show applyFunction _ k _ = applyFunction _ k _
      unfold applyFunction powMod
      have : (decodeInt sig + k.n) ^ k.e.toNat % k.n = decodeInt sig ^ k.e.toNat % k.n := by
        apply Int.ModEq.pow
        exact Int.add_emod_right _ _
      rw [this]
  unfold verify inputSignature
  rw [this]

theorem leading_zero_accepted {α : Type} (k : Key) (rs : List Int) (minBits : Nat) (check : List Byte → Nat → Except Err α) (sig : List Byte) :
    verify (rsa k rs) minBits check (0 :: sig) = verify (rsa k rs) minBits check sig :=
  signature_not_unique k rs minBits check sig _ (.inl (by unfold decodeInt; rw [beVal_cons]; simp))

/-! ## A key -/

/-- `a ^ 2 ^ n mod m` -/
private def sq (m : Nat) : Nat → Nat → Nat
  | 0, a => a % m
  | n + 1, a => sq m n (a * a % m)

private theorem sq_eq (m n a : Nat) : ((sq m n a : Nat) : ZMod m) = (a : ZMod m) ^ 2 ^ n := by
  induction n generalizing a with
  | zero => simp [sq]
  | succ n ih => rw [sq, ih, ZMod.natCast_mod, pow_succ 2 n, mul_comm, pow_mul]; push_cast; ring

/-- Primes one more than an odd prime times a power of two. -/
private theorem proth (r n a : Nat) (p : Nat) (hp : p = r * 2 ^ (n + 1) + 1) (hr : r.Prime) (h1 : sq p (n + 1) (a ^ r % p) = 1) (h2 : sq p n (a ^ r % p) ≠ 1) (h2' : sq p n (a ^ r % p) < p)
    (h3 : sq p (n + 1) a ≠ 1) (h3' : sq p (n + 1) a < p) : p.Prime := by
  have hp1 : 1 < p := by have := hr.two_le; have := Nat.two_pow_pos (n + 1); nlinarith
  have nat_ne (v : Nat) (hv : v < p) (hne : v ≠ 1) : (v : ZMod p) ≠ 1 := by
    intro h
    have : (v : ZMod p) = ((1 : Nat) : ZMod p) := by rw [h]; simp
    rw [ZMod.natCast_eq_natCast_iff] at this
    have := Nat.ModEq.eq_of_lt_of_lt this hv hp1
    exact hne this
  refine lucas_primality p (a : ZMod p) ?_ ?_
  · have : p - 1 = r * 2 ^ (n + 1) := by omega
    rw [this, pow_mul, ← Nat.cast_pow, ← ZMod.natCast_mod, ← sq_eq, h1]; simp
  · intro q hq hd
    have hpe : p - 1 = r * 2 ^ (n + 1) := by omega
    rw [hpe] at hd
    rcases (Nat.Prime.dvd_mul hq).mp hd with h | h
    · have : q = r := (Nat.prime_dvd_prime_iff_eq hq hr).mp h
      subst this
      rw [hpe, Nat.mul_div_cancel_left _ hq.pos, ← sq_eq]
      exact nat_ne _ h3' h3
    · have : q = 2 := (Nat.prime_dvd_prime_iff_eq hq Nat.prime_two).mp (hq.dvd_of_dvd_pow h)
      subst this
      rw [hpe, pow_succ, ← mul_assoc, Nat.mul_div_cancel _ (by decide), pow_mul, ← Nat.cast_pow, ← ZMod.natCast_mod, ← sq_eq]
      exact nat_ne _ h2' h2

/-- Primes `3 * 2 ^ 66 + 1` and `509 * 2 ^ 51 + 1`. -/
private def P : Nat := 221360928884514619393
private def Q : Nat := 1146166105165791233

private theorem P_prime : P.Prime := proth 3 65 10 P (by decide +kernel) (by norm_num) (by decide +kernel) (by decide +kernel) (by decide +kernel) (by decide +kernel) (by decide +kernel)
private theorem Q_prime : Q.Prime := proth 509 50 3 Q (by decide +kernel) (by norm_num) (by decide +kernel) (by decide +kernel) (by decide +kernel) (by decide +kernel) (by decide +kernel)

/-- A key of 128 bits. -/
private def key : Key := makeKey P Q 17

private theorem key_valid : validate key 1 = true := by decide +kernel

private theorem t0_rep : ∃ Rep, T.Computes (IterHash.digest Verif.Hmac.toy) (Verif.Hmac.toy.W * Verif.Hmac.toy.W) Rep ∧ Rep t0 [] :=
  ⟨_, Hash.iterated_computes Verif.Hmac.toy_ok (by intro st ws; simp [Verif.Hmac.toy]) _ _,
    ⟨by decide, by simp [t0, IterHash.new], by simp [t0, IterHash.new], by simp [t0, IterHash.new, Verif.Hmac.toy], by simp, by simp [t0, IterHash.new, IterHash.foldFrom]⟩⟩

example : ∃ ct, encrypt (rsa key [2]) (oaepMax 4) (oaepPad T t0 (List.replicate 16 7) [1, 2, 3, 4] [9]) [5, 0, 6] = .ok ct ∧ ct.length = 16 ∧
    decrypt (rsa key [2]) (fun block bits => oaepUnpad T t0 block [9] bits) ct = .ok (some [5, 0, 6]) := by
  obtain ⟨R, C, h⟩ := t0_rep
  exact oaep_decrypts key P Q key_valid rfl rfl P_prime Q_prime [2] ⟨2, by simp, by decide +kernel⟩ C (by decide) t0 h (List.replicate 16 7) [1, 2, 3, 4] [9] [5, 0, 6]
    (by decide +kernel) (by decide) (by decide +kernel) (by decide +kernel) (by decide) (by decide +kernel)

example : ∃ sig, sign (rsa key [2]) (pkcs1MinBits 0 4) (fun bits => (pkcs1Compute T t0 (List.replicate 16 7) [] bits).map Prod.snd) = .ok sig ∧ sig.length = 16 ∧
    verify (rsa key [2]) (pkcs1MinBits 0 4) (pkcs1Verify T t0 (List.replicate 16 7) []) sig = .ok true ∧
    verify (rsa key [2]) (pkcs1MinBits 0 4) (pkcs1Verify T t0 (List.replicate 16 7) []) (0 :: sig) = .ok true := by
  obtain ⟨R, C, h⟩ := t0_rep
  obtain ⟨sig, a, b, c⟩ := pkcs1_verifies key P Q key_valid rfl rfl P_prime Q_prime [2] ⟨2, by simp, by decide +kernel⟩ C t0 [] h (List.replicate 16 7) [] (by decide +kernel) (by decide +kernel)
  exact ⟨sig, a, b, c, by rw [leading_zero_accepted]; exact c⟩

example : ∃ sig, sign (rsaIso key [2]) (emsa2MinBits 4) (fun bits => (emsa2Compute T t0 (List.replicate 16 7) 0x33 true bits).map Prod.snd) = .ok sig ∧ sig.length = 16 ∧
    verify (rsaIso key [2]) (emsa2MinBits 4) (emsa2Verify T t0 (List.replicate 16 7) 0x33 true) sig = .ok true := by
  obtain ⟨R, C, h⟩ := t0_rep
  exact emsa2_verifies key P Q key_valid rfl rfl P_prime Q_prime [2] ⟨2, by simp, by decide +kernel⟩ C t0 [] h (List.replicate 16 7) 0x33 true (by decide +kernel) (by decide +kernel) (by decide +kernel)

example : ∃ sig, sign (rsa key [2]) (pssMinBits ⟨true, 4, 0, []⟩ 4) (pssCompute T t0 ⟨true, 4, 0, []⟩ (List.replicate 16 7) [1, 2, 3, 4] [5, 0, 6]) = .ok sig ∧ sig.length = 16 ∧
    verify (rsa key [2]) (pssMinBits ⟨true, 4, 0, []⟩ 4) (pssRecover T t0 ⟨true, 4, 0, []⟩) sig = .ok (some [5, 0, 6]) := by
  obtain ⟨R, C, h⟩ := t0_rep
  obtain ⟨sig, a, b, c, _⟩ := pss_recovers key P Q key_valid rfl rfl P_prime Q_prime [2] ⟨2, by simp, by decide +kernel⟩ C (by decide) t0 [] h ⟨true, 4, 0, []⟩ rfl (List.replicate 16 7) [1, 2, 3, 4] [5, 0, 6]
    (by decide +kernel) (by decide) (by decide +kernel) (by decide +kernel) (by decide +kernel) (by decide +kernel)
  exact ⟨sig, a, b, c⟩

/-- Decryption refuses a ciphertext out of range with an exception, and a wrong one within it with an invalid result. -/
example : (∀ r, decrypt (rsa key [2]) pkcsUnpad (List.replicate 16 0xff) ≠ .ok r) ∧ decrypt (rsa (makeKey 61 53 17) [2]) pkcsUnpad [0xff, 0xff] = .error .other ∧
    decrypt (rsa (makeKey 61 53 17) [2]) pkcsUnpad [0, 1] = .ok none :=
  ⟨out_of_range_throws key [2] pkcsUnpad _ (by decide +kernel) (by decide +kernel), by decide +kernel, by decide +kernel⟩

end Verif.Tf
