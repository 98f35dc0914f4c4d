import Verif.Kdf.Proofs
import Verif.Hmac.Props

/-! Property C42: key derivation functions equal their definitions. `O` is any hash object that computes `H` (Verif.Hash; the library's iterated
hashes do), `s` a new one. -/
namespace Verif.Kdf
open Verif.Hash Verif.Hmac

variable {σ : Type} {O : Obj σ} {H : List Byte → List Byte} {lim : Nat} {Rep : σ → List Byte → Prop}

/-- C42. `PKCS5_PBKDF1` with no time limit: the standard's key for `c` iterations (0 means 1), and it reports that number. -/
theorem pbkdf1_exact (C : O.Computes H lim Rep) (hd : O.digestSize < lim) (s : σ) (hs : Rep s []) (fuel len : Nat) (P S : List Byte) (c : Nat)
    (hl : (P ++ S).length < lim) (hlen : len ≤ O.digestSize) (hf : c ≤ fuel + 1) :
    pbkdf1 O s (fun _ => false) fuel len P S c = .ok (PBKDF1 H P S (max 1 c) len, max 1 c) := by
  rcases pbkdf1_spec C hd s hs (fun _ => false) fuel len P S c hl hlen with ⟨n, e, h1, hc, _, hall⟩ | ⟨e, hall⟩
  · have : n = max 1 c := by
      by_cases h : n = max 1 c
      · exact h
      · have := hall (n - 1) (by omega) (by omega)
        simp at this; omega
    rw [← this]; exact e
  · have := hall (fuel + 1) (by omega) (by omega)
    simp at this; omega

/-- C42. With a time limit, whatever the clock says: if it ends, the key is the standard's for the number of iterations it reports, and that number is
at least the one asked for. -/
theorem pbkdf1_timed (C : O.Computes H lim Rep) (hd : O.digestSize < lim) (s : σ) (hs : Rep s []) (more : Nat → Bool) (fuel len : Nat) (P S : List Byte) (c : Nat)
    (hl : (P ++ S).length < lim) (hlen : len ≤ O.digestSize) (k : List Byte) (n : Nat) (e : pbkdf1 O s more fuel len P S c = .ok (k, n)) :
    k = PBKDF1 H P S n len ∧ 1 ≤ n ∧ c ≤ n := by
  rcases pbkdf1_spec C hd s hs more fuel len P S c hl hlen with ⟨n', e', h1, hc, _, hall⟩ | ⟨e', hall⟩
  · rw [e'] at e
    cases e
    exact ⟨rfl, h1, hc⟩
  · rw [e'] at e; cases e

/-- C42. Keys longer than the digest are refused. -/
theorem pbkdf1_too_long (O : Obj σ) (s : σ) (more : Nat → Bool) (fuel len : Nat) (P S : List Byte) (c : Nat) (h : O.digestSize < len) :
    pbkdf1 O s more fuel len P S c = .error .invalidArgument := if_pos h

private theorem pbkdf2_cases (C : O.Computes H lim Rep) (hdB : O.digestSize ≤ O.blockSize) (hd0 : 0 < O.digestSize) (hlim : O.blockSize + O.digestSize < lim)
    (s : σ) (hs : Rep s []) (fresh : List Byte) (hf : 2 * O.blockSize + O.digestSize ≤ fresh.length) (more : Option (Nat → Bool)) (fuel len : Nat) (P S : List Byte) (c : Nat)
    (hP : P.length < lim) (hS : O.blockSize + S.length + 4 < lim) (hlen : len < 2 ^ 32) :
    (∃ n, pbkdf2 O s fresh more fuel len P S c = .ok (PBKDF2 (hmac H O.blockSize P) O.digestSize S n len, n) ∧ max 1 c ≤ n ∧ (more = none → n = max 1 c)) ∨
    (pbkdf2 O s fresh more fuel len P S c = .error .diverges ∧ (fuel + 1 < max 1 c ∨ ∃ m, more = some m ∧ ∀ j, max 1 c ≤ j → j ≤ fuel + 1 → m j = true)) := by
  have hB : O.blockSize ≠ 0 := by omega
  obtain ⟨s', e, i⟩ := setKey_spec C hdB hB ⟨s, [], false⟩ P fresh ⟨fun _ => hs, fun e => by cases e⟩ hP hf
  have hc : (if c = 0 then 1 else c) = max 1 c := by split <;> omega
  unfold pbkdf2
  rw [if_neg (by omega), e]
  simp only [if_neg (show ¬ O.digestSize = 0 by omega), hc]
  rcases pbkdf2Loop_spec (hmacObj_computes C hdB hB hlim P) hd0 (show O.digestSize < lim - O.blockSize by omega) S (by omega) fuel len s' len 1 (max 1 c) more i
    (Nat.le_refl _) (by omega) (by omega) with ⟨n, e, h1, h2, h3⟩ | h
  · exact Or.inl ⟨n, e, h2, h3⟩
  · exact Or.inr h

/-- C42. `PKCS5_PBKDF2_HMAC` with no time limit: the standard's key for `c` iterations (0 means 1). -/
theorem pbkdf2_exact (C : O.Computes H lim Rep) (hdB : O.digestSize ≤ O.blockSize) (hd0 : 0 < O.digestSize) (hlim : O.blockSize + O.digestSize < lim)
    (s : σ) (hs : Rep s []) (fresh : List Byte) (hf : 2 * O.blockSize + O.digestSize ≤ fresh.length) (fuel len : Nat) (P S : List Byte) (c : Nat)
    (hP : P.length < lim) (hS : O.blockSize + S.length + 4 < lim) (hlen : len < 2 ^ 32) (hfu : c ≤ fuel + 1) :
    pbkdf2 O s fresh none fuel len P S c = .ok (PBKDF2 (hmac H O.blockSize P) O.digestSize S (max 1 c) len, max 1 c) := by
  rcases pbkdf2_cases C hdB hd0 hlim s hs fresh hf none fuel len P S c hP hS hlen with ⟨n, e, _, h⟩ | ⟨_, h | ⟨m, hm, _⟩⟩
  · rw [h rfl] at e; exact e
  · omega
  · cases hm

/-- C42. With a time limit, whatever the clock says: all blocks use the number of iterations reported, which is at least the one asked for. -/
theorem pbkdf2_timed (C : O.Computes H lim Rep) (hdB : O.digestSize ≤ O.blockSize) (hd0 : 0 < O.digestSize) (hlim : O.blockSize + O.digestSize < lim)
    (s : σ) (hs : Rep s []) (fresh : List Byte) (hf : 2 * O.blockSize + O.digestSize ≤ fresh.length) (more : Nat → Bool) (fuel len : Nat) (P S : List Byte) (c : Nat)
    (hP : P.length < lim) (hS : O.blockSize + S.length + 4 < lim) (hlen : len < 2 ^ 32) (k : List Byte) (n : Nat)
    (e : pbkdf2 O s fresh (some more) fuel len P S c = .ok (k, n)) :
    k = PBKDF2 (hmac H O.blockSize P) O.digestSize S n len ∧ 1 ≤ n ∧ c ≤ n := by
  rcases pbkdf2_cases C hdB hd0 hlim s hs fresh hf (some more) fuel len P S c hP hS hlen with ⟨n', e', h, _⟩ | ⟨e', _⟩
  · rw [e'] at e
    cases e
    exact ⟨rfl, by omega, by omega⟩
  · rw [e'] at e; cases e

/-- C42. Lengths of more than `2^32 - 1` bytes are refused. -/
theorem pbkdf2_too_long (O : Obj σ) (s : σ) (fresh : List Byte) (more : Option (Nat → Bool)) (fuel len : Nat) (P S : List Byte) (c : Nat) (h : 2 ^ 32 ≤ len) :
    pbkdf2 O s fresh more fuel len P S c = .error .invalidArgument := if_pos (by omega)

private theorem pkcs12_cases (C : O.Computes H lim Rep) (hv : 0 < O.blockSize) (hd0 : 0 < O.digestSize) (hd : O.digestSize < lim) (s : σ) (hs : Rep s [])
    (more : Option (Nat → Bool)) (fuel len : Nat) (id : Byte) (P S : List Byte) (c : Nat) (hl : P.length + S.length + 3 * O.blockSize < lim) :
    (∃ n, pkcs12 O s more fuel len id P S c = .ok (PKCS12 H O.blockSize O.digestSize id P S n len, n) ∧ max 1 c ≤ n ∧ (more = none → n = max 1 c)) ∨
    (pkcs12 O s more fuel len id P S c = .error .diverges ∧ (fuel + 1 < max 1 c ∨ ∃ m, more = some m ∧ ∀ j, max 1 c ≤ j → j ≤ fuel + 1 → m j = true)) := by
  have hc : (if c = 0 then 1 else c) = max 1 c := by split <;> omega
  have hr : ∀ n, roundUp n O.blockSize < n + O.blockSize := by
    intro n
    have := Nat.div_mul_le_self (n + O.blockSize - 1) O.blockSize
    unfold roundUp; omega
  unfold pkcs12
  simp only [hc]
  rcases pkcs12Loop_spec C hv hd0 hd (List.replicate O.blockSize id) fuel len s
    (repeatTo S (roundUp S.length O.blockSize) ++ repeatTo P (roundUp P.length O.blockSize)) len (max 1 c) more hs (Nat.le_refl _) (by omega)
    (by rw [List.length_append, repeatTo_length, repeatTo_length, roundUp, roundUp, ← Nat.add_mul]; exact Nat.mul_mod_left _ _)
    (by simp only [List.length_append, repeatTo_length, List.length_replicate]; have := hr S.length; have := hr P.length; omega) with ⟨n, e, h1, h2, h3⟩ | h
  · rw [e, repeatTo_fill _ _ hv, repeatTo_fill _ _ hv]
    exact Or.inl ⟨n, rfl, h2, h3⟩
  · exact Or.inr h

/-- C42. `PKCS12_PBKDF` with no time limit is PKCS #12 appendix B. -/
theorem pkcs12_exact (C : O.Computes H lim Rep) (hv : 0 < O.blockSize) (hd0 : 0 < O.digestSize) (hd : O.digestSize < lim) (s : σ) (hs : Rep s [])
    (fuel len : Nat) (id : Byte) (P S : List Byte) (c : Nat) (hl : P.length + S.length + 3 * O.blockSize < lim) (hfu : c ≤ fuel + 1) :
    pkcs12 O s none fuel len id P S c = .ok (PKCS12 H O.blockSize O.digestSize id P S (max 1 c) len, max 1 c) := by
  rcases pkcs12_cases C hv hd0 hd s hs none fuel len id P S c hl with ⟨n, e, _, h⟩ | ⟨_, h | ⟨m, hm, _⟩⟩
  · rw [h rfl] at e; exact e
  · omega
  · cases hm

/-- C42. The same with a time limit. -/
theorem pkcs12_timed (C : O.Computes H lim Rep) (hv : 0 < O.blockSize) (hd0 : 0 < O.digestSize) (hd : O.digestSize < lim) (s : σ) (hs : Rep s [])
    (more : Nat → Bool) (fuel len : Nat) (id : Byte) (P S : List Byte) (c : Nat) (hl : P.length + S.length + 3 * O.blockSize < lim) (k : List Byte) (n : Nat)
    (e : pkcs12 O s (some more) fuel len id P S c = .ok (k, n)) :
    k = PKCS12 H O.blockSize O.digestSize id P S n len ∧ 1 ≤ n ∧ c ≤ n := by
  rcases pkcs12_cases C hv hd0 hd s hs (some more) fuel len id P S c hl with ⟨n', e', h, _⟩ | ⟨e', _⟩
  · rw [e'] at e
    cases e
    exact ⟨rfl, by omega, by omega⟩
  · rw [e'] at e; cases e

/-- C42. `HKDF` is RFC 5869 for all output lengths up to 255 digests, also in its last block, with or without salt and info. -/
theorem hkdf_exact (C : O.Computes H lim Rep) (hdB : O.digestSize ≤ O.blockSize) (hd0 : 0 < O.digestSize) (hlim : O.blockSize + O.digestSize < lim)
    (s : σ) (hs : Rep s []) (fresh fresh2 : List Byte) (hf : 2 * O.blockSize + O.digestSize ≤ fresh.length) (hf2 : 2 * O.blockSize + O.digestSize ≤ fresh2.length)
    (len : Nat) (ikm : List Byte) (salt : Option (List Byte)) (info : List Byte) (hsalt : (salt.getD []).length < lim) (hikm : O.blockSize + ikm.length < lim)
    (hinfo : O.blockSize + O.digestSize + info.length + 1 < lim) (hlen : len ≤ 255 * O.digestSize) :
    hkdf O s fresh fresh2 len ikm salt info = .ok (HKDF H O.blockSize O.digestSize salt ikm info len) := by
  have hB : O.blockSize ≠ 0 := by omega
  have hk : (salt.getD (List.replicate O.digestSize 0)).length < lim := by
    cases salt with
    | none => simp; omega
    | some x => exact hsalt
  obtain ⟨s', e, i⟩ := setKey_spec C hdB hB ⟨s, [], false⟩ (salt.getD (List.replicate O.digestSize 0)) fresh ⟨fun _ => hs, fun e => by cases e⟩ hk hf
  unfold hkdf
  rw [if_neg (by omega)]
  simp only [e]
  obtain ⟨s2, e2, i2⟩ := (hmacObj_computes C hdB hB hlim (salt.getD (List.replicate O.digestSize 0))).calculateDigest s' [] ikm i (by simp; omega)
  rw [e2]
  simp only
  have hl := C.length
  obtain ⟨s3, e3, i3⟩ := setKey_spec C hdB hB s2 (hmac H O.blockSize (salt.getD (List.replicate O.digestSize 0)) ([] ++ ikm)) fresh2 i2.pre
    (by rw [show (hmac H O.blockSize (salt.getD (List.replicate O.digestSize 0)) ([] ++ ikm)).length = O.digestSize from C.length _]; omega) hf2
  rw [e3]
  exact hkdfLoop_spec (hmacObj_computes C hdB hB hlim _) hd0 info (show O.digestSize + info.length + 1 < lim - O.blockSize by omega) len s3 0 len i3
    (Nat.le_refl _) (by show 0 * O.digestSize + len ≤ 255 * O.digestSize; omega)

/-- C42. More than 255 digests are refused. -/
theorem hkdf_too_long (O : Obj σ) (s : σ) (fresh fresh2 : List Byte) (len : Nat) (ikm : List Byte) (salt : Option (List Byte)) (info : List Byte)
    (h : 255 * O.digestSize < len) : hkdf O s fresh fresh2 len ikm salt info = .error .invalidArgument := if_pos (by omega)

/-- C42. `P1363_MGF1::GenerateAndMask` without `mask` fills the buffer with the mask. -/
theorem mgf1_generate (C : O.Computes H lim Rep) (hd0 : 0 < O.digestSize) (s : σ) (hs : Rep s []) (out Z : List Byte) (hl : Z.length + 4 < lim) :
    mgf1 O s out Z false = .ok (MGF H O.digestSize Z [] 0 out.length) :=
  mgfLoop_spec C hd0 Z [] (by simpa using hl) false out.length s 0 out hs (Nat.le_refl _)

/-- C42. `P1363_MGF1::GenerateAndMask` xors the mask of the length of the buffer into the buffer. -/
theorem mgf1_masks (C : O.Computes H lim Rep) (hd0 : 0 < O.digestSize) (s : σ) (hs : Rep s []) (out Z : List Byte) (hl : Z.length + 4 < lim) :
    mgf1 O s out Z true = .ok (List.zipWith (· ^^^ ·) out (MGF H O.digestSize Z [] 0 out.length)) :=
  mgfLoop_spec C hd0 Z [] (by simpa using hl) true out.length s 0 out hs (Nat.le_refl _)

/-- C42. `P1363_KDF2::DeriveKey`: counter from 1, parameters after the counter, for every output length. -/
theorem kdf2_exact (C : O.Computes H lim Rep) (hd0 : 0 < O.digestSize) (s : σ) (hs : Rep s []) (out Z P : List Byte) (hl : Z.length + 4 + P.length < lim) :
    kdf2 O s out Z P = .ok (MGF H O.digestSize Z P 1 out.length) :=
  mgfLoop_spec C hd0 Z P hl false out.length s 1 out hs (Nat.le_refl _)

/-! ## The hypotheses can be met -/

private abbrev T := iterated toy (fun _ => true) (fun _ => false)
private def t0 : IterHash.State := IterHash.new toy (List.replicate 8 0xcc)

private theorem t0_rep : ∃ Rep, T.Computes (IterHash.digest toy) (toy.W * toy.W) Rep ∧ Rep t0 [] :=
  ⟨_, iterated_computes toy_ok (by intro st ws; simp [toy]) _ _, ⟨by decide, by simp [t0, IterHash.new], by simp [t0, IterHash.new], by simp [t0, IterHash.new, toy], by simp, by simp [t0, IterHash.new, IterHash.foldFrom]⟩⟩

example : pbkdf2 T t0 (List.replicate 20 0) none 10 11 [1, 2] [3] 3 = .ok (PBKDF2 (hmac (IterHash.digest toy) 8 [1, 2]) 4 [3] 3 11, 3) := by
  obtain ⟨R, C, h⟩ := t0_rep
  exact pbkdf2_exact C (by decide) (by decide) (by decide) t0 h _ (by decide) 10 11 _ _ 3 (by decide) (by decide) (by decide) (by decide)

example : pbkdf1 T t0 (fun i => i < 7) 10 3 [1, 2] [3] 3 = .ok (PBKDF1 (IterHash.digest toy) [1, 2] [3] 7 3, 7) := by decide +kernel
example : pbkdf2 T t0 (List.replicate 20 0) (some fun i => i < 5) 10 11 [1, 2] [3] 3 = .ok (PBKDF2 (hmac (IterHash.digest toy) 8 [1, 2]) 4 [3] 5 11, 5) := by decide +kernel

example : hkdf T t0 (List.replicate 20 0) (List.replicate 20 0) 1020 [1, 2] none [9] = .ok (HKDF (IterHash.digest toy) 8 4 none [1, 2] [9] 1020) := by
  obtain ⟨R, C, h⟩ := t0_rep
  exact hkdf_exact C (by decide) (by decide) (by decide) t0 h _ _ (by decide) (by decide) _ _ _ _ (by decide) (by decide) (by decide) (by decide)

/-- A missing salt and an empty one give the same key, by HMAC's padding. -/
example : HKDF (IterHash.digest toy) 8 4 none [1, 2] [9] 9 = HKDF (IterHash.digest toy) 8 4 (some []) [1, 2] [9] 9 := by decide +kernel

example : pkcs12 T t0 none 10 9 1 [1, 2] [3, 4, 5] 2 = .ok (PKCS12 (IterHash.digest toy) 8 4 1 [1, 2] [3, 4, 5] 2 9, 2) := by
  obtain ⟨R, C, h⟩ := t0_rep
  exact pkcs12_exact C (by decide) (by decide) (by decide) t0 h 10 9 1 _ _ 2 (by decide) (by decide)

example : mgf1 T t0 [1, 2, 3, 4, 5, 6] [7] true = .ok (List.zipWith (· ^^^ ·) [1, 2, 3, 4, 5, 6] (MGF (IterHash.digest toy) 4 [7] [] 0 6)) := by
  obtain ⟨R, C, h⟩ := t0_rep
  exact mgf1_masks C (by decide) t0 h _ _ (by decide)

example : MGF (IterHash.digest toy) 4 [7] [] 0 6 ≠ MGF (IterHash.digest toy) 4 [7] [] 1 6 := by decide +kernel

end Verif.Kdf
