import Verif.PkPad.PssProofs

/-! # Message encodings for RSA invert and reject (C30), PSS accepts what it makes (C31) -/
namespace Verif.PkPad
open Verif.Hash Verif.Kdf Verif.Hmac

/-! ## PKCS #1 v1.5 encryption padding -/

/-- `Pad` makes `00 02 PS 00 M` with the non-zero bytes given, and `Unpad` finds every message up to `MaxUnpaddedLength` again, for every content of the buffer before. -/
theorem pkcs_round_trip (bits : Nat) (hb : 2 ≤ bits / 8) (fresh : List Byte) (hf : fresh.length = (bits + 7) / 8) (rnd : Nat → Byte) (hr : ∀ i, rnd i ≠ 0)
    (m : List Byte) (hm : m.length ≤ pkcsMax bits) :
    ∃ ps, ps.length + m.length + 2 = bits / 8 ∧ (∀ x ∈ ps, x ≠ 0) ∧ pkcsPad fresh rnd m bits = .ok (Spec.pkcs bits ps m) ∧ pkcsUnpad (Spec.pkcs bits ps m) bits = .ok (some m) := by
  have hl : m.length + 2 ≤ bits / 8 := by unfold pkcsMax at hm; omega
  refine ⟨(List.range' 1 (bits / 8 - m.length - 2)).map rnd, by simp; omega, ?_, pkcsPad_eq fresh rnd m bits hf hl, ?_⟩
  · intro x hx
    obtain ⟨i, _, rfl⟩ := List.mem_map.mp hx
    exact hr i
  · have := pkcsUnpad_sep (Spec.lead bits) ((List.range' 1 (bits / 8 - m.length - 2)).map rnd) m 2 bits (lead_length bits) (by simp; omega) (by
      intro x hx
      obtain ⟨i, _, rfl⟩ := List.mem_map.mp hx
      exact hr i)
    rw [if_pos ⟨rfl, rfl, hm⟩] at this
    simpa [Spec.pkcs] using this

/-- What `Unpad` accepts: the encodings of messages up to `MaxUnpaddedLength`, and blocks without a separator as the empty message. Everything else is reported invalid. -/
theorem pkcs_unpad_exact (bits : Nat) (hb : 1 ≤ bits / 8) (block : List Byte) (hl : block.length = (bits + 7) / 8) :
    ∃ r, pkcsUnpad block bits = .ok r ∧ ∀ m, r = some m ↔
      (m.length ≤ pkcsMax bits ∧ ∃ ps : List Byte, (∀ x ∈ ps, x ≠ 0) ∧ block = Spec.pkcs bits ps m) ∨
      (m = [] ∧ ∃ ps : List Byte, (∀ x ∈ ps, x ≠ 0) ∧ block = Spec.lead bits ++ [2] ++ ps) := by
  rw [show (bits + 7) / 8 = off bits + bits / 8 from bytes_eq bits] at hl
  obtain ⟨z, r, rfl, hz, hr⟩ := split_at block _ _ hl
  obtain ⟨t, r, rfl, ht, hr⟩ := split_at r 1 (bits / 8 - 1) (by omega)
  obtain ⟨t, rfl⟩ := List.length_eq_one_iff.mp ht
  have hlead := lead_length bits
  rcases first_zero r with hne | ⟨ps, m0, rfl, hne⟩
  · refine ⟨_, pkcsUnpad_nosep z r t bits hz (by omega) hne, ?_⟩
    intro m
    constructor
    · intro h
      split at h
      · rename_i c
        right
        injection h with h
        exact ⟨h.symm, r, hne, by rw [c.1, c.2]; simp⟩
      · cases h
    · rintro (⟨_, ps, _, h⟩ | ⟨rfl, ps, _, h⟩)
      · exfalso
        unfold Spec.pkcs at h
        simp only [List.append_assoc] at h
        obtain ⟨_, h⟩ := List.append_inj h (by rw [hz, hlead])
        obtain ⟨_, h⟩ := List.append_inj h rfl
        exact hne 0 (by rw [h]; simp) rfl
      · simp only [List.append_assoc] at h
        obtain ⟨h1, h⟩ := List.append_inj h (by rw [hz, hlead])
        obtain ⟨h2, _⟩ := List.append_inj h rfl
        rw [if_pos ⟨h1, by simpa using h2⟩]
  · refine ⟨_, pkcsUnpad_sep z ps m0 t bits hz (by simp at hr; omega) hne, ?_⟩
    intro m
    constructor
    · intro h
      split at h
      · rename_i c
        left
        injection h with h
        subst h
        exact ⟨c.2.2, ps, hne, by rw [c.1, c.2.1]; simp [Spec.pkcs]⟩
      · cases h
    · rintro (⟨hm, ps', hne', h⟩ | ⟨rfl, ps', hne', h⟩)
      · unfold Spec.pkcs at h
        simp only [List.append_assoc] at h
        obtain ⟨h1, h⟩ := List.append_inj h (by rw [hz, hlead])
        obtain ⟨h2, h⟩ := List.append_inj h rfl
        have hmm : m0 = m := first_zero_unique ps m0 ps' m hne hne' h
        subst hmm
        rw [if_pos ⟨h1, by simpa using h2, hm⟩]
      · exfalso
        simp only [List.append_assoc] at h
        obtain ⟨_, h⟩ := List.append_inj h (by rw [hz, hlead])
        obtain ⟨_, h⟩ := List.append_inj h rfl
        exact hne' 0 (by rw [← h]; simp) rfl

/-- A block without separator, which no message is encoded to, is accepted. -/
theorem pkcs_no_separator_accepted : ∃ bits block, block.length = (bits + 7) / 8 ∧ pkcsUnpad block bits = .ok (some []) ∧ ∀ ps m, block ≠ Spec.pkcs bits ps m := by
  refine ⟨127, 0 :: 2 :: List.replicate 14 7, by decide, by decide +kernel, ?_⟩
  intro ps m h
  have h0 : Spec.pkcs 127 ps m = [0] ++ ([2] ++ (ps ++ ([0] ++ m))) := by simp [Spec.pkcs, Spec.lead]
  rw [h0] at h
  have : (0 : Byte) ∈ List.replicate 14 (7 : Byte) := by
    have h := congrArg (List.drop 2) h
    simp only [List.drop_succ_cons, List.drop_zero, List.cons_append, List.nil_append] at h
    rw [h]; simp
  exact absurd this (by decide)

/-- When the block has at least 11 bytes an accepted encoding has at least 8 bytes of padding. -/
theorem pkcs_accepted_padding (bits : Nat) (hb : 10 ≤ bits / 8) (ps m : List Byte) (hl : (Spec.pkcs bits ps m).length = (bits + 7) / 8) (hm : m.length ≤ pkcsMax bits) : 8 ≤ ps.length := by
  have h2 : (bits + 7) / 8 = off bits + bits / 8 := bytes_eq bits
  have h1 := lead_length bits
  simp only [Spec.pkcs, List.length_append, List.length_singleton] at hl
  unfold pkcsMax at hm
  omega

example : ∃ ps, ps.length + 3 + 2 = 127 / 8 ∧ (∀ x ∈ ps, x ≠ 0) ∧ pkcsPad (List.replicate 16 9) (fun i => BitVec.ofNat 8 (i % 255 + 1)) [0, 1, 0] 127 = .ok (Spec.pkcs 127 ps [0, 1, 0]) ∧
    pkcsUnpad (Spec.pkcs 127 ps [0, 1, 0]) 127 = .ok (some [0, 1, 0]) :=
  pkcs_round_trip 127 (by decide) _ (by decide) _ (by
    intro i h
    have := congrArg BitVec.toNat h
    rw [BitVec.toNat_ofNat, Nat.mod_eq_of_lt (by omega)] at this
    simp at this) [0, 1, 0] (by decide)
example : pkcsPad (List.replicate 16 9) (fun i => BitVec.ofNat 8 (i + 1)) [0xaa, 0, 0xbb] 127 = .ok [0, 2, 2, 3, 4, 5, 6, 7, 8, 9, 10, 11, 0, 0xaa, 0, 0xbb] := by decide +kernel
/-- Too little padding, a wrong type and a wrong first byte are reported. -/
example : pkcsUnpad [0, 2, 2, 3, 4, 5, 6, 7, 8, 0, 10, 11, 0, 0xaa, 0, 0xbb] 127 = .ok none ∧ pkcsUnpad [0, 1, 2, 3, 4, 5, 6, 7, 8, 9, 10, 11, 0, 0xaa, 0, 0xbb] 127 = .ok none ∧
    pkcsUnpad [1, 2, 2, 3, 4, 5, 6, 7, 8, 9, 10, 11, 0, 0xaa, 0, 0xbb] 127 = .ok none := by decide +kernel

section
variable {σ : Type} {O : Obj σ} {H : List Byte → List Byte} {lim : Nat} {Rep : σ → List Byte → Prop}

/-! ## PKCS #1 v1.5 signatures, EMSA2 -/

/-- The representative is `00 01 FF … FF 00 || identifier || hash of the message`, with at least 8 bytes `FF`; a representative is accepted if and only if it is this one. -/
theorem pkcs1_exact (C : O.Computes H lim Rep) (s : σ) (msg : List Byte) (hs : Rep s msg) (fresh hashId rep : List Byte) (bits : Nat) (hf : fresh.length = (bits + 7) / 8)
    (hl : pkcs1MinBits hashId.length O.digestSize ≤ bits) :
    (∃ s', pkcs1Compute O s fresh hashId bits = .ok (s', Spec.pkcs1 bits (hashId ++ H msg))) ∧
    pkcs1Verify O s fresh hashId rep bits = .ok (decide (rep = Spec.pkcs1 bits (hashId ++ H msg))) ∧
    8 ≤ bits / 8 - (hashId ++ H msg).length - 2 ∧ (Spec.pkcs1 bits (hashId ++ H msg)).length = (bits + 7) / 8 := by
  unfold pkcs1MinBits at hl
  obtain ⟨s', h, _⟩ := pkcs1Compute_eq C s msg hs fresh hashId bits hf (by omega)
  have h2 : (bits + 7) / 8 = off bits + bits / 8 := bytes_eq bits
  have h1 := lead_length bits
  refine ⟨⟨s', h⟩, by unfold pkcs1Verify; rw [h]; rfl, by simp [C.length]; omega, ?_⟩
  simp [Spec.pkcs1, C.length, h1]; omega

/-- EMSA2 as P1363 has it, for key lengths that are a multiple of 8. -/
theorem emsa2_exact (C : O.Computes H lim Rep) (s : σ) (msg : List Byte) (hs : Rep s msg) (fresh : List Byte) (hashId : Byte) (empty : Bool) (bits : Nat)
    (hf : fresh.length = (bits + 7) / 8) (hl : emsa2MinBits O.digestSize ≤ bits) (h7 : bits % 8 = 7) :
    (∃ s', emsa2Compute O s fresh hashId empty bits = .ok (s', Spec.emsa2 ((bits + 7) / 8) empty (H msg) hashId)) ∧
    (∀ rep, emsa2Verify O s fresh hashId empty rep bits = .ok (decide (rep = Spec.emsa2 ((bits + 7) / 8) empty (H msg) hashId))) ∧
    (Spec.emsa2 ((bits + 7) / 8) empty (H msg) hashId).length = (bits + 7) / 8 := by
  obtain ⟨s', h, _⟩ := emsa2Compute_eq C s msg hs fresh hashId empty bits hf hl h7
  refine ⟨⟨s', h⟩, fun rep => by unfold emsa2Verify; rw [h]; rfl, ?_⟩
  have := C.length msg
  unfold emsa2MinBits at hl
  simp only [Spec.emsa2, List.length_append, List.length_cons, List.length_nil, List.length_replicate]
  omega

/-! ## OAEP -/

/-- `Pad` is EME-OAEP and `Unpad` finds every message up to `MaxUnpaddedLength` again, for every label and seed. -/
theorem oaep_round_trip (C : O.Computes H lim Rep) (hd0 : 0 < O.digestSize) (s : σ) (hs : Rep s []) (fresh seed label m : List Byte) (bits : Nat)
    (hf : fresh.length = (bits + 7) / 8) (hseed : seed.length = O.digestSize) (hb : 2 * O.digestSize + 1 ≤ bits / 8) (hm : m.length ≤ oaepMax O.digestSize bits)
    (hlab : label.length < lim) (hlim : bits / 8 + 4 < lim) :
    oaepPad O s fresh seed label m bits = .ok (Spec.oaep H O.digestSize bits label seed m) ∧
    (Spec.oaep H O.digestSize bits label seed m).length = (bits + 7) / 8 ∧
    oaepUnpad O s (Spec.oaep H O.digestSize bits label seed m) label bits = .ok (some m) := by
  unfold oaepMax at hm
  have hlen : (Spec.oaep H O.digestSize bits label seed m).length = (bits + 7) / 8 := by
    have h2 : (bits + 7) / 8 = off bits + bits / 8 := bytes_eq bits
    have h1 := lead_length bits
    have hmg := mgf_length H O.digestSize hd0 C.length
    have hDBl : (Spec.oaepDB H O.digestSize label m (bits / 8 - O.digestSize)).length = bits / 8 - O.digestSize := by simp [Spec.oaepDB, C.length]; omega
    unfold Spec.oaep
    simp only [List.length_append]
    rw [xor_length _ _ (by rw [hmg, hseed]), xor_length _ _ (by rw [hmg, hDBl]), hDBl]
    omega
  refine ⟨oaepPad_eq C hd0 s hs fresh seed label m bits hf hseed (by omega) hlab hlim, hlen, ?_⟩
  obtain ⟨r, h1, h2⟩ := oaepUnpad_iff C hd0 s hs _ label bits hlen (by omega) hlab hlim
  rw [h1, (h2 m).mpr ⟨by omega, seed, hseed, rfl⟩]

/-- `Unpad` accepts a block if and only if it is an OAEP encoding with this label, of the message it returns; every other block is reported invalid. -/
theorem oaep_unpad_exact (C : O.Computes H lim Rep) (hd0 : 0 < O.digestSize) (s : σ) (hs : Rep s []) (block label : List Byte) (bits : Nat)
    (hb : block.length = (bits + 7) / 8) (hl : 2 * O.digestSize ≤ bits / 8) (hlab : label.length < lim) (hlim : bits / 8 + 4 < lim) :
    ∃ r, oaepUnpad O s block label bits = .ok r ∧ ∀ m, r = some m ↔
      m.length + 2 * O.digestSize + 1 ≤ bits / 8 ∧ ∃ seed : List Byte, seed.length = O.digestSize ∧ block = Spec.oaep H O.digestSize bits label seed m :=
  oaepUnpad_iff C hd0 s hs block label bits hb hl hlab hlim

/-- With a key too small for the hash the empty message passes the test of the length, and padding it is undefined. -/
theorem oaep_small_key_undefined (C : O.Computes H lim Rep) (s : σ) (hs : Rep s []) (fresh seed label : List Byte) (bits : Nat) (hf : fresh.length = (bits + 7) / 8)
    (hb : bits / 8 < 2 * O.digestSize + 1) (hlab : label.length < lim) : 0 ≤ oaepMax O.digestSize bits ∧ oaepPad O s fresh seed label [] bits = .error .undefinedBehaviour := by
  refine ⟨Nat.zero_le _, ?_⟩
  have h2 : (bits + 7) / 8 = off bits + bits / 8 := bytes_eq bits
  rw [h2] at hf
  obtain ⟨z, r, rfl, hz, hr⟩ := split_at fresh _ _ hf
  obtain ⟨s', hdig, _⟩ := C.calculateDigest s [] label hs (by simpa using hlab)
  rw [List.nil_append] at hdig
  unfold oaepPad
  rw [leadZero_eq _ _ _ hz]
  simp only [bind, Except.bind]
  by_cases h : bits / 8 < O.digestSize
  · rw [if_pos h]
  · rw [if_neg h, hdig]
    simp only
    by_cases hw : off bits + O.digestSize + (H label).length ≤ (Spec.lead bits ++ r).length
    · unfold Verif.Hmac.write
      rw [if_pos hw]
      simp only
      rw [if_pos (by simp only [List.length_nil]; omega)]
    · unfold Verif.Hmac.write
      rw [if_neg hw]

/-! ## PSS and PSSR -/

/-- `ComputeMessageRepresentative` is EMSA-PSS (EMSR3 with a recoverable part), and `RecoverMessageFromRepresentative` accepts it and recovers that part: for every message,
recoverable part up to `MaxRecoverableLength`, salt and bit length not below `MinRepresentativeBitLength`, if `MinPadLen` is 0 as in `PSS` and `PSSR`. -/
theorem pss_round_trip (C : O.Computes H lim Rep) (hd0 : 0 < O.digestSize) (s : σ) (msg : List Byte) (hs : Rep s msg) (P : Pss) (hp : P.minPad = 0) (fresh salt m : List Byte) (bits : Nat)
    (hf : fresh.length = (bits + 7) / 8) (hsalt : salt.length = P.saltLen) (hl : pssMinBits P O.digestSize ≤ bits) (hm : m.length ≤ pssMaxRec P bits O.digestSize)
    (h64 : bits < 2 ^ 64) (hlim : (bits + 7) / 8 + 8 < lim) :
    pssCompute O s P fresh salt m bits = .ok (Spec.pss H O.digestSize bits P.hashId m (H msg) salt) ∧
    (Spec.pss H O.digestSize bits P.hashId m (H msg) salt).length = (bits + 7) / 8 ∧
    Spec.clearTop bits (Spec.pss H O.digestSize bits P.hashId m (H msg) salt) = Spec.pss H O.digestSize bits P.hashId m (H msg) salt ∧
    pssRecover O s P (Spec.pss H O.digestSize bits P.hashId m (H msg) salt) bits = .ok (some m) := by
  have hL : P.minPad + P.saltLen + O.digestSize + P.hashId.length + 2 + m.length ≤ (bits + 7) / 8 := pss_rec_bytes P bits O.digestSize m.length hl hm
  have h8 : 8 * ((bits + 7) / 8) ≤ bits + 7 := by omega
  obtain ⟨hlen, htop⟩ := pss_shape C hd0 P bits m (H msg) salt (by omega)
  refine ⟨pssCompute_eq C hd0 s msg hs P fresh salt m bits hf (by unfold bitsToBytes; omega) (by omega) (by omega), hlen, htop, ?_⟩
  obtain ⟨r, h1, h2⟩ := pssRecover_iff C hd0 s msg hs P _ bits hlen htop hl h64 hlim
  rw [h1, (h2 m).mpr ⟨hm, .inr (by rw [hp]; omega), salt, hsalt, rfl⟩]

/-- The same for every `MinPadLen`, if the zero bytes before the separator pass the test of the verifier. -/
theorem pss_round_trip_partial (C : O.Computes H lim Rep) (hd0 : 0 < O.digestSize) (s : σ) (msg : List Byte) (hs : Rep s msg) (P : Pss) (fresh salt m : List Byte) (bits : Nat)
    (hf : fresh.length = (bits + 7) / 8) (hsalt : salt.length = P.saltLen) (hl : pssMinBits P O.digestSize ≤ bits) (hm : m.length ≤ pssMaxRec P bits O.digestSize)
    (h64 : bits < 2 ^ 64) (hlim : (bits + 7) / 8 + 8 < lim) (hpad : PadOk P bits ((bits + 7) / 8 - P.hashId.length - 1 - O.digestSize - P.saltLen - m.length - 1)) :
    pssCompute O s P fresh salt m bits = .ok (Spec.pss H O.digestSize bits P.hashId m (H msg) salt) ∧
    pssRecover O s P (Spec.pss H O.digestSize bits P.hashId m (H msg) salt) bits = .ok (some m) := by
  have hL : P.minPad + P.saltLen + O.digestSize + P.hashId.length + 2 + m.length ≤ (bits + 7) / 8 := pss_rec_bytes P bits O.digestSize m.length hl hm
  have h8 : 8 * ((bits + 7) / 8) ≤ bits + 7 := by omega
  obtain ⟨hlen, htop⟩ := pss_shape C hd0 P bits m (H msg) salt (by omega)
  refine ⟨pssCompute_eq C hd0 s msg hs P fresh salt m bits hf (by unfold bitsToBytes; omega) (by omega) (by omega), ?_⟩
  obtain ⟨r, h1, h2⟩ := pssRecover_iff C hd0 s msg hs P _ bits hlen htop hl h64 hlim
  rw [h1, (h2 m).mpr ⟨hm, hpad, salt, hsalt, rfl⟩]

/-- `RecoverMessageFromRepresentative` accepts a representative of the given number of bits if and only if it is the encoding of the hash of the message, the recovered part and some salt. -/
theorem pss_recover_exact (C : O.Computes H lim Rep) (hd0 : 0 < O.digestSize) (s : σ) (msg : List Byte) (hs : Rep s msg) (P : Pss) (hp : P.minPad = 0) (rep : List Byte) (bits : Nat)
    (hb : rep.length = (bits + 7) / 8) (htop : Spec.clearTop bits rep = rep) (hl : pssMinBits P O.digestSize ≤ bits) (h64 : bits < 2 ^ 64) (hlim : (bits + 7) / 8 + 8 < lim) :
    ∃ r, pssRecover O s P rep bits = .ok r ∧ ∀ m, r = some m ↔
      m.length ≤ pssMaxRec P bits O.digestSize ∧ ∃ salt : List Byte, salt.length = P.saltLen ∧ rep = Spec.pss H O.digestSize bits P.hashId m (H msg) salt := by
  obtain ⟨r, h1, h2⟩ := pssRecover_iff C hd0 s msg hs P rep bits hb htop hl h64 hlim
  refine ⟨r, h1, fun m => ?_⟩
  rw [h2 m]
  exact ⟨fun h => ⟨h.1, h.2.2⟩, fun h => ⟨h.1, .inr (by rw [hp]; omega), h.2⟩⟩

/-- `VerifyMessageRepresentative` accepts if and only if the representative is EMSA-PSS of the message with some salt and without a recoverable part. -/
theorem pss_verify_exact (C : O.Computes H lim Rep) (hd0 : 0 < O.digestSize) (s : σ) (msg : List Byte) (hs : Rep s msg) (P : Pss) (hp : P.minPad = 0) (rep : List Byte) (bits : Nat)
    (hb : rep.length = (bits + 7) / 8) (htop : Spec.clearTop bits rep = rep) (hl : pssMinBits P O.digestSize ≤ bits) (h64 : bits < 2 ^ 64) (hlim : (bits + 7) / 8 + 8 < lim) :
    ∃ v, pssVerify O s P rep bits = .ok v ∧ (v = true ↔ ∃ salt : List Byte, salt.length = P.saltLen ∧ rep = Spec.pss H O.digestSize bits P.hashId [] (H msg) salt) := by
  obtain ⟨r, h1, h2⟩ := pss_recover_exact C hd0 s msg hs P hp rep bits hb htop hl h64 hlim
  refine ⟨decide (r = some []), by unfold pssVerify; rw [h1]; rfl, ?_⟩
  rw [decide_eq_true_eq, h2 []]
  exact ⟨fun h => h.2, fun h => ⟨Nat.zero_le _, h⟩⟩
end

/-! ## The hypotheses can be met -/

abbrev T := iterated toy (fun _ => true) (fun _ => false)
def t0 : IterHash.State := IterHash.new toy (List.replicate 8 0xcc)

private theorem t0_rep : ∃ Rep, T.Computes (IterHash.digest toy) (toy.W * toy.W) Rep ∧ Rep t0 [] :=
  ⟨_, iterated_computes toy_ok (by intro st ws; simp [toy]) _ _, ⟨by decide, by simp [t0, IterHash.new], by simp [t0, IterHash.new], by simp [t0, IterHash.new, toy], by simp, by simp [t0, IterHash.new, IterHash.foldFrom]⟩⟩

example : oaepPad T t0 (List.replicate 16 7) [1, 2, 3, 4] [9] [5, 0, 6] 127 = .ok (Spec.oaep (IterHash.digest toy) 4 127 [9] [1, 2, 3, 4] [5, 0, 6]) ∧
    oaepUnpad T t0 (Spec.oaep (IterHash.digest toy) 4 127 [9] [1, 2, 3, 4] [5, 0, 6]) [9] 127 = .ok (some [5, 0, 6]) := by
  obtain ⟨R, C, h⟩ := t0_rep
  have := oaep_round_trip C (by decide) t0 h (List.replicate 16 7) [1, 2, 3, 4] [9] [5, 0, 6] 127 (by decide) (by decide) (by decide) (by decide) (by decide) (by decide)
  exact ⟨this.1, this.2.2⟩

/-- Another label is reported. -/
example : oaepUnpad T t0 (Spec.oaep (IterHash.digest toy) 4 127 [9] [1, 2, 3, 4] [5, 0, 6]) [8] 127 = .ok none := by decide +kernel

private def pssr : Pss := { allowRecovery := true, saltLen := 4, minPad := 0, hashId := [] }
def pssr1 : Pss := { allowRecovery := true, saltLen := 4, minPad := 1, hashId := [0x33] }

example : pssCompute T t0 pssr (List.replicate 16 7) [1, 2, 3, 4] [5, 0, 6] 127 = .ok (Spec.pss (IterHash.digest toy) 4 127 [] [5, 0, 6] (IterHash.digest toy []) [1, 2, 3, 4]) ∧
    pssRecover T t0 pssr (Spec.pss (IterHash.digest toy) 4 127 [] [5, 0, 6] (IterHash.digest toy []) [1, 2, 3, 4]) 127 = .ok (some [5, 0, 6]) := by
  obtain ⟨R, C, h⟩ := t0_rep
  have := pss_round_trip C (by decide) t0 [] h pssr rfl (List.replicate 16 7) [1, 2, 3, 4] [5, 0, 6] 127 (by decide) (by decide) (by decide) (by decide) (by decide) (by decide)
  exact ⟨this.1, this.2.2.2⟩

/-- With a `MinPadLen` of 1 the verifier rejects what the signer makes of a recoverable part of the greatest length: the byte for the bits beyond a multiple of 8 is not counted. -/
theorem pss_min_pad_rejects_own : ∃ bits rep, pssMinBits pssr1 4 ≤ bits ∧ pssMaxRec pssr1 bits 4 = 4 ∧
    pssCompute T t0 pssr1 (List.replicate 16 7) [1, 2, 3, 4] [5, 0, 6, 8] bits = .ok rep ∧ pssRecover T t0 pssr1 rep bits = .ok none := by
  refine ⟨127, Spec.pss (IterHash.digest toy) 4 127 [0x33] [5, 0, 6, 8] (IterHash.digest toy []) [1, 2, 3, 4], by decide, by decide, by decide +kernel, by decide +kernel⟩

end Verif.PkPad
