import Verif.Asn.Proofs3

/-!
# ASN.1: lengths, strings, unsigned integers, big integers, object identifiers (C20, C21), OpenPGP integers (C51), DERReencode (C52)

`IsLength`, `IsTLV`, `IsArc`, `IsArcs`, `Ber` (Spec.lean) transcribe X.690.  `sz` is `sizeof(size_t)`.
-/
namespace Verif.Asn
open Verif.Misc

/-! ## C21: BER length decoding -/

/-- `BERLengthDecode(bt, lword&, bool&)` reports a definite length `n` and leaves `rest` exactly when the input starts with a
length field that says `n`, and `n` fits an `lword`. -/
theorem berLength_exact (bt rest : List Byte) (n : Nat) :
    berLength bt = .ok (.definite n, rest) ↔ n < 2 ^ 64 ∧ ∃ p, IsLength p n ∧ bt = p ++ rest :=
  berLength_definite bt rest n

/-- It reports an indefinite length exactly on the octet `0x80`. -/
theorem berLength_indefinite_exact (bt rest : List Byte) :
    berLength bt = .ok (.indefinite, rest) ↔ bt = 0x80 :: rest := berLength_indefinite bt rest

/-- Everything else is reported: `return false` or `BERDecodeErr`. -/
theorem berLength_rejects (bt : List Byte) (h1 : ∀ p n, IsLength p n → n < 2 ^ 64 → ¬ p <+: bt) (h2 : bt.head? ≠ some 0x80) :
    berLength bt = .ok (.truncated, []) ∨ berLength bt = .error .berDecodeErr := by
  rcases berLength_other bt with ⟨n, r, e⟩ | ⟨r, e⟩ | e | e
  · obtain ⟨hn, p, hp, rfl⟩ := (berLength_definite _ _ _).mp e
    exact absurd (List.prefix_append p r) (h1 p n hp hn)
  · rw [berLength_indefinite] at e
    subst e; simp at h2
  · exact Or.inl e
  · exact Or.inr e

/-- The `size_t` overload: a length is returned exactly when the field says it and it fits `lword` and `size_t`; `false` exactly
for an indefinite length; anything else throws `BERDecodeErr`. -/
theorem berLengthSize_exact (sz : Nat) (bt : List Byte) :
    (∀ n rest, berLengthSize sz bt = .ok (some n, rest) ↔ n < 2 ^ 64 ∧ n < 256 ^ sz ∧ ∃ p, IsLength p n ∧ bt = p ++ rest) ∧
    (∀ rest, berLengthSize sz bt = .ok (none, rest) ↔ bt = 0x80 :: rest) ∧
    (∀ e, berLengthSize sz bt = .error e → e = .berDecodeErr) :=
  ⟨fun n rest => berLengthSize_some sz bt rest n, fun rest => berLengthSize_none sz bt rest, fun e => berLengthSize_error sz bt e⟩

example : IsLength [0x82, 0x01, 0x00] 256 := Or.inr ⟨0x82, [0x01, 0x00], rfl, by decide, by decide, by decide⟩
example : berLength [0x82, 0x01, 0x00, 0x55] = .ok (.definite 256, [0x55]) := by decide +kernel
example : berLength [0x80, 0x55] = .ok (.indefinite, [0x55]) := by decide +kernel
example : berLength [0x89, 1, 0, 0, 0, 0, 0, 0, 0, 0] = .error .berDecodeErr := by decide +kernel
example : berLength [0x89, 0, 1, 0, 0, 0, 0, 0, 0, 0, 7] = .ok (.definite (2 ^ 56), [7]) := by decide +kernel
example : berLength [0x83, 1, 2] = .ok (.truncated, []) := by decide +kernel
example : berLengthSize 4 [0x85, 1, 0, 0, 0, 0] = .error .berDecodeErr := by decide +kernel

/-! ## C20: lengths -/

/-- Round trip of lengths: what follows is untouched. -/
theorem length_round_trip (n : Nat) (h : n < 2 ^ 64) (rest : List Byte) :
    berLength (derLength n ++ rest) = .ok (.definite n, rest) := berLength_derLength n h rest

/-- DER length fields are length fields, have the least number of octets, and are the only ones that do. -/
theorem length_canonical (n : Nat) (h : n < 2 ^ 64) :
    IsLength (derLength n) n ∧ (∀ p, IsLength p n → (derLength n).length ≤ p.length) ∧
      (∀ p, IsLength p n → p.length = (derLength n).length → p = derLength n) := by
  rw [derLength_eq n h]
  exact ⟨minLength_isLength n h, minLength_least n, fun p hp he => minLength_unique n p hp (by omega)⟩

example : derLength 0x1234 = [0x82, 0x12, 0x34] ∧ derLength 127 = [127] ∧ derLength 128 = [0x81, 128] := by decide +kernel

/-! ## C20: strings -/

/-- `BERDecodeOctetString`, `BERDecodeTextString`, `BERDecodeDate` accept exactly a tag, a length and that many octets, return
those octets, and leave the rest. -/
theorem string_decode_exact (sz : Nat) (tag : Byte) (bt c rest : List Byte) :
    berString sz tag bt = .ok (c, rest) ↔
      c.length < 2 ^ 64 ∧ c.length < 256 ^ sz ∧ ∃ p, IsTLV tag p c ∧ bt = p ++ rest := berString_iff sz tag bt c rest

/-- Round trip of octet strings, text strings and dates. -/
theorem string_round_trip (sz : Nat) (tag : Byte) (c rest : List Byte) (h : c.length < 2 ^ 64) (h' : c.length < 256 ^ sz) :
    berString sz tag (derString tag c ++ rest) = .ok (c, rest) :=
  (berString_iff _ _ _ _ _).mpr ⟨h, h', _, derString_isTLV tag c h, rfl⟩

example : derString 0x04 [1, 2, 3] = [0x04, 3, 1, 2, 3] ∧ berString 8 0x04 [0x04, 0x81, 3, 1, 2, 3, 9] = .ok ([1, 2, 3], [9]) ∧
    berString 8 0x04 [0x04, 4, 1, 2, 3] = .error .berDecodeErr := by decide +kernel

/-- `BERDecodeNull` accepts exactly the tag 5 with length zero. -/
theorem null_decode_exact (sz : Nat) (bt rest : List Byte) :
    berNull sz bt = .ok ((), rest) ↔ ∃ p, IsTLV 0x05 p [] ∧ bt = p ++ rest := berNull_iff sz bt rest

theorem null_round_trip (sz : Nat) (rest : List Byte) : berNull sz (derNull ++ rest) = .ok ((), rest) :=
  (berNull_iff _ _ _).mpr ⟨derNull, ⟨[0], Or.inl ⟨0, rfl, by decide, rfl⟩, rfl⟩, rfl⟩

/-- `BERDecodeBitString` accepts exactly a non-empty content whose first octet is at most 7. -/
theorem bitString_decode_exact (sz : Nat) (bt c rest : List Byte) (u : Nat) :
    berBitString sz bt = .ok ((c, u), rest) ↔
      c.length + 1 < 2 ^ 64 ∧ c.length + 1 < 256 ^ sz ∧ u ≤ 7 ∧ ∃ p, IsTLV 0x03 p (BitVec.ofNat 8 u :: c) ∧ bt = p ++ rest :=
  berBitString_iff sz bt c rest u

theorem bitString_round_trip (sz : Nat) (c rest : List Byte) (u : Nat) (h : c.length + 1 < 2 ^ 64) (h' : c.length + 1 < 256 ^ sz)
    (hu : u ≤ 7) : berBitString sz (derBitString c u ++ rest) = .ok ((c, u), rest) :=
  (berBitString_iff _ _ _ _ _).mpr ⟨h, h', hu, _, ⟨_, by rw [List.length_cons, derLength_eq _ h]; exact minLength_isLength _ h, rfl⟩, rfl⟩

example : berBitString 8 (derBitString [0xa5, 0x80] 7 ++ [1]) = .ok (([0xa5, 0x80], 7), [1]) ∧
    berBitString 8 [0x03, 2, 8, 0xff] = .error .berDecodeErr ∧ berBitString 8 [0x03, 0] = .error .berDecodeErr := by decide +kernel

/-! ## C20: unsigned integers -/

/-- `DEREncodeUnsigned` writes a TLV whose content is the shortest two's complement form of the value. -/
theorem unsigned_canonical (size w : Nat) (tag : Byte) (hs : 1 ≤ size) (hs' : size < 2 ^ 32) (hw : w < 256 ^ size) (ht : tag ≠ 0x01) :
    ∃ c, derUnsigned size w tag = tag :: (minLength c.length ++ c) ∧ c ≠ [] ∧ Integer.ofTwos c = w ∧
      ∀ c', c' ≠ [] → Integer.ofTwos c' = w → c.length ≤ c'.length := by
  have hb : bitLen w ≤ 8 * size := bitLen_le (by rw [Nat.pow_mul]; exact hw)
  refine ⟨beBytes (bitLen w / 8 + 1) w, ?_, ?_, ofTwos_beBytes w, ?_⟩
  · rw [derUnsigned_eq size w tag hs hw ht, beBytes_length, derLength_eq _ (by omega)]
  · intro h; have := congrArg List.length h; simp at this
  · intro c' h1 h2; rw [beBytes_length]; exact bitLen_min c' h1 w h2

/-- What `BERDecodeUnsigned` accepts: exactly a TLV whose content, read as an unsigned big-endian number, fits the type and the
range; `BOOLEAN` needs one octet, `INTEGER` and `ENUMERATED` at least one. -/
theorem unsigned_decode_exact (sz size : Nat) (tag : Byte) (lo hi : Nat) (bt rest : List Byte) (w : Nat) :
    berUnsigned sz size tag lo hi bt = .ok (w, rest) ↔
      ∃ p c, IsTLV tag p c ∧ bt = p ++ rest ∧ c.length < 2 ^ 64 ∧ c.length < 256 ^ sz ∧
        (tag = 0x01 → c.length = 1) ∧ (tag = 0x02 ∨ tag = 0x0a → c ≠ []) ∧
        w = beVal c ∧ w < 256 ^ size ∧ lo ≤ w ∧ w ≤ hi := berUnsigned_iff sz size tag lo hi bt rest w

/-- Round trip of unsigned integers of every width, for every permitted range. -/
theorem unsigned_round_trip (sz size w : Nat) (tag : Byte) (lo hi : Nat) (hs : 1 ≤ size) (hs' : size < 2 ^ 32) (hsz : 8 ≤ sz)
    (hw : w < 256 ^ size) (ht : tag ≠ 0x01) (h1 : lo ≤ w) (h2 : w ≤ hi) (rest : List Byte) :
    berUnsigned sz size tag lo hi (derUnsigned size w tag ++ rest) = .ok (w, rest) := by
  have hb : bitLen w ≤ 8 * size := bitLen_le (by rw [Nat.pow_mul]; exact hw)
  have h64 : bitLen w / 8 + 1 < 2 ^ 64 := by omega
  have hp : 256 ^ 8 ≤ 256 ^ sz := Nat.pow_le_pow_right (by omega) hsz
  rw [berUnsigned_iff, derUnsigned_eq size w tag hs hw ht, derLength_eq _ h64]
  refine ⟨_, beBytes (bitLen w / 8 + 1) w, ⟨_, by rw [beBytes_length]; exact minLength_isLength _ h64, rfl⟩, rfl,
    by rw [beBytes_length]; exact h64, by rw [beBytes_length]; omega, fun h => absurd h ht, ?_, ?_, hw, h1, h2⟩
  · intro _ h; have := congrArg List.length h; simp at this
  · rw [beVal_beBytes, Nat.mod_eq_of_lt]
    have h3 := bitLen_lt w
    have h4 : 2 ^ bitLen w ≤ 2 ^ (8 * (bitLen w / 8 + 1)) := Nat.pow_le_pow_right (by omega) (by omega)
    rw [Nat.pow_mul 2 8] at h4
    have e : (2 ^ 8) ^ (bitLen w / 8 + 1) = 256 ^ (bitLen w / 8 + 1) := rfl
    omega

/-- Booleans: one content octet, `0xff` for true and `0` for false; decoding gives a value with the same truth. -/
theorem boolean_round_trip (sz size w lo hi : Nat) (hs : 1 ≤ size) (hsz : 1 ≤ sz) (hlo : lo = 0) (hhi : 255 ≤ hi) (rest : List Byte) :
    derUnsigned size w 0x01 = [0x01, 0x01, if w ≠ 0 then 0xff else 0] ∧
    ∃ v, berUnsigned sz size 0x01 lo hi (derUnsigned size w 0x01 ++ rest) = .ok (v, rest) ∧ (v ≠ 0 ↔ w ≠ 0) := by
  have e : derUnsigned size w 0x01 = [0x01, 0x01, if w ≠ 0 then 0xff else 0] := by
    unfold derUnsigned; rw [if_pos rfl]; rfl
  refine ⟨e, if w ≠ 0 then 255 else 0, ?_, by split <;> simp_all⟩
  have hp : 256 ^ 1 ≤ 256 ^ sz := Nat.pow_le_pow_right (by omega) hsz
  have hp2 : 256 ^ 1 ≤ 256 ^ size := Nat.pow_le_pow_right (by omega) hs
  rw [e, berUnsigned_iff]
  refine ⟨[0x01, 0x01, if w ≠ 0 then 0xff else 0], [if w ≠ 0 then 0xff else 0], ⟨[0x01], Or.inl ⟨0x01, rfl, by decide, rfl⟩, rfl⟩, rfl,
    by simp, by simp; omega, by simp, by simp, ?_, ?_, ?_, ?_⟩
  · split <;> rfl
  · split <;> omega
  · omega
  · split <;> omega

example : derUnsigned 4 128 0x02 = [0x02, 0x02, 0x00, 0x80] ∧ derUnsigned 4 0 0x02 = [0x02, 0x01, 0x00] ∧
    derUnsigned 4 0xffffffff 0x02 = [0x02, 0x05, 0x00, 0xff, 0xff, 0xff, 0xff] := by decide +kernel
example : berUnsigned 8 4 0x02 0 0xffffffff (derUnsigned 4 0xdeadbeef 0x02 ++ [1, 2]) = .ok (0xdeadbeef, [1, 2]) := by decide +kernel

/-! ## C20: big integers -/

/-- `Integer::DEREncode` writes a TLV whose content is the shortest two's complement form of the value. -/
theorem integer_canonical {ws : Nat} (hws : ∃ k, ws = 2 ^ k) {x : Integer.Obj} (hx : Integer.Ok ws x)
    (hlen : Integer.minEncodedSize ws x true < 2 ^ 64) :
    ∃ c, derInteger ws x = 0x02 :: (minLength c.length ++ c) ∧ c ≠ [] ∧ Integer.ofTwos c = Integer.value ws x ∧
      ∀ n, 1 ≤ n → Integer.FitsSigned n (Integer.value ws x) → c.length ≤ n := by
  obtain ⟨m1, m2, m3⟩ := Integer.minEncodedSize_signed_least hws hx
  have he := (Integer.encode_bytes hws hx (Integer.minEncodedSize ws x true)).2
  have hl : (Integer.encode ws x (Integer.minEncodedSize ws x true) true).length = Integer.minEncodedSize ws x true := by
    rw [he, Integer.twosBytes_length]
  refine ⟨Integer.encode ws x (Integer.minEncodedSize ws x true) true, ?_, ?_, ?_, ?_⟩
  · unfold derInteger derGeneral; rw [hl, derLength_eq _ hlen]
  · intro h; rw [h] at hl; simp at hl; omega
  · rw [he, Integer.ofTwos_twosBytes (by omega) m2]
  · intro n h1 h2; rw [hl]; exact m3 n h1 h2

/-- Round trip of big integers.  Missing: the values `-2^(WORD_BITS * 2^(k+1))`, for which it is false
(`integer_round_trip_fails`). -/
theorem integer_round_trip_partial {ws : Nat} (hws : ∃ k, ws = 2 ^ k) {x : Integer.Obj} (hx : Integer.Ok ws x)
    (hlen : Integer.minEncodedSize ws x true < 2 ^ 64)
    (hex : ∀ k, Integer.value ws x ≠ -(2 ^ (8 * ws * 2 ^ (k + 1)))) (rest : List Byte) :
    ∃ y, berInteger ws (derInteger ws x ++ rest) = .ok (y, rest) ∧ Integer.Ok ws y ∧ Integer.value ws y = Integer.value ws x := by
  obtain ⟨y, h1, h2, h3⟩ := Integer.signed_round_trip_partial hws hx _ (le_refl _) hex []
  have he := (Integer.encode_bytes hws hx (Integer.minEncodedSize ws x true)).2
  have hl : (Integer.encode ws x (Integer.minEncodedSize ws x true) true).length = Integer.minEncodedSize ws x true := by
    rw [he, Integer.twosBytes_length]
  rw [List.append_nil] at h1
  refine ⟨y, ?_, h2, h3⟩
  unfold derInteger derGeneral berInteger
  apply berGeneral_definite
  · rw [hl, derLength_eq _ hlen]; exact minLength_isLength _ hlen
  · omega
  · simp only [hl]; rw [if_neg (by omega)]; exact h1

/-- The negation for `-2^128` with 64-bit words: the decoded object is a negative zero. -/
theorem integer_round_trip_fails :
    let x : Integer.Obj := ⟨[0, 0, 1, 0], true⟩
    Integer.Ok 8 x ∧ Integer.value 8 x = -(2 ^ 128) ∧ berInteger 8 (derInteger 8 x) = .ok (⟨[0, 0], true⟩, []) := by
  refine ⟨Integer.decode_signed_negative_zero.1, Integer.decode_signed_negative_zero.2.1, ?_⟩
  decide +kernel

/-- `Integer::BERDecode` of an `INTEGER` without content octets reads an uninitialised variable. -/
theorem integer_empty_content_undefined (rest : List Byte) : berInteger 8 ([0x02, 0x00] ++ rest) = .error .undefinedBehaviour := by
  have hi : berInit 0x02 ([0x02, 0x00] ++ rest) = .ok (some 0, rest) :=
    (berInit_definite _ _ _ _).mpr ⟨by decide, [0], Or.inl ⟨0, rfl, by decide, rfl⟩, rfl⟩
  simp only [berInteger, berGeneral, hi, bind, Except.bind, List.take_zero]
  rfl

/-- `BERDecodeUnsigned` accepts negative `INTEGER`s and misreads them: `02 01 FF` encodes `-1`, the result is 255. -/
theorem unsigned_misreads_negative :
    IsTLV 0x02 [0x02, 0x01, 0xff] [0xff] ∧ Integer.ofTwos [0xff] = -1 ∧
      berUnsigned 8 4 0x02 0 0xffffffff [0x02, 0x01, 0xff] = .ok (255, []) := by
  refine ⟨⟨[0x01], Or.inl ⟨0x01, rfl, by decide, rfl⟩, rfl⟩, ?_, ?_⟩ <;> decide +kernel

/-- Unsigned octet strings of a fixed length: round trip of the magnitude. -/
theorem integer_octets_round_trip {ws : Nat} (hws : ∃ k, ws = 2 ^ k) {x : Integer.Obj} (hx : Integer.Ok ws x) (n : Nat)
    (hn : Integer.minEncodedSize ws x false ≤ n) (h64 : n < 2 ^ 64) (rest : List Byte) :
    ∃ y, berIntegerOctets ws n (derIntegerOctets ws x n ++ rest) = .ok (y, rest) ∧ Integer.Ok ws y ∧
      Integer.value ws y = |Integer.value ws x| := by
  obtain ⟨y, h1, h2, h3⟩ := Integer.unsigned_round_trip hws hx n hn []
  have hl : (Integer.encode ws x n false).length = n := by rw [(Integer.encode_bytes hws hx n).1, beBytes_length]
  rw [List.append_nil] at h1
  refine ⟨y, ?_, h2, h3⟩
  unfold derIntegerOctets derGeneral berIntegerOctets
  apply berGeneral_definite
  · rw [hl, derLength_eq _ h64]; exact minLength_isLength _ h64
  · omega
  · simp only [hl]; rw [if_neg (by omega)]; exact h1

example : derInteger 8 Integer.exBig = 0x02 :: 0x19 :: [0xfe] ++ List.replicate 23 0xff ++ [0xfb] := by decide +kernel
example : Integer.minEncodedSize 8 Integer.exBig true < 2 ^ 64 := by decide +kernel
example : ∀ k, Integer.value 8 Integer.exBig ≠ -(2 ^ (8 * 8 * 2 ^ (k + 1))) := by
  intro k h
  have h1 : Integer.value 8 Integer.exBig = -(2 ^ 192 + 5) := by decide +kernel
  rw [h1] at h
  have h2 : (2 : Int) ^ 192 + 5 = 2 ^ (8 * 8 * 2 ^ (k + 1)) := by omega
  have h3 : (2 ^ 192 + 5) % 2 = (2 ^ (8 * 8 * 2 ^ (k + 1)) : Nat) % 2 := by
    have : ((2 ^ 192 + 5 : Nat) : Int) = ((2 ^ (8 * 8 * 2 ^ (k + 1)) : Nat) : Int) := by push_cast; exact_mod_cast h2
    exact congrArg (· % 2) (by exact_mod_cast this)
  have h4 : 0 < 8 * 8 * 2 ^ (k + 1) := by have := Nat.two_pow_pos (k + 1); omega
  obtain ⟨m, hm⟩ : ∃ m, 8 * 8 * 2 ^ (k + 1) = m + 1 := ⟨8 * 8 * 2 ^ (k + 1) - 1, by omega⟩
  rw [hm, Nat.pow_succ] at h3
  omega

/-! ## C20: object identifiers -/

/-- `OID::BERDecode` accepts exactly a TLV whose content is one octet followed by arcs below `2^32`; it splits the first octet
as `b / 40`, `b % 40` and leaves the rest. -/
theorem oid_decode_exact (sz : Nat) (bt rest : List Byte) (vs : List Nat) :
    berOid sz bt = .ok (vs, rest) ↔
      ∃ p b c arcs, IsTLV 0x06 p (b :: c) ∧ bt = p ++ rest ∧ c.length + 1 < 2 ^ 64 ∧ c.length + 1 < 256 ^ sz ∧
        IsArcs c arcs ∧ (∀ a ∈ arcs, a < 2 ^ 32) ∧ vs = [b.toNat / 40, b.toNat % 40] ++ arcs := berOid_iff sz bt rest vs

/-- `OID::EncodeValue` writes an arc in base 128 without a redundant leading octet. -/
theorem oid_arc_canonical (v : Nat) (h : v < 2 ^ 32) : IsArc (oidEncodeValue v) v ∧ (oidEncodeValue v).headD 0 ≠ 0x80 :=
  oidEncodeValue_spec v h

/-- Round trip of object identifiers whose second arc is below 40 and whose first two arcs fit one octet.  Missing: the other
second arcs X.660 allows under `2.`, for which it is false (`oid_round_trip_fails`). -/
theorem oid_round_trip_partial (sz a b : Nat) (arcs : List Nat) (hb : b < 40) (hab : a * 40 + b < 256) (harcs : ∀ v ∈ arcs, v < 2 ^ 32)
    (hlen : (oidContent (a :: b :: arcs)).length < 2 ^ 64) (hsz : (oidContent (a :: b :: arcs)).length < 256 ^ sz) (rest : List Byte) :
    berOid sz (derOid (a :: b :: arcs) ++ rest) = .ok (a :: b :: arcs, rest) := by
  rw [berOid_iff]
  have e : (BitVec.ofNat 8 (a * 40 + b)).toNat = a * 40 + b := by rw [BitVec.toNat_ofNat]; omega
  have hc : oidContent (a :: b :: arcs) = BitVec.ofNat 8 (a * 40 + b) :: arcs.flatMap oidEncodeValue := rfl
  refine ⟨derOid (a :: b :: arcs), BitVec.ofNat 8 (a * 40 + b), arcs.flatMap oidEncodeValue, arcs, ⟨derLength (oidContent (a :: b :: arcs)).length, ?_, rfl⟩, rfl, ?_, ?_, isArcs_flatMap arcs harcs, harcs, ?_⟩
  · rw [← hc, derLength_eq _ hlen]; exact minLength_isLength _ hlen
  · rw [hc] at hlen; simpa using hlen
  · rw [hc] at hsz; simpa using hsz
  · rw [e, show (a * 40 + b) / 40 = a by omega, show (a * 40 + b) % 40 = b by omega]; rfl

example : derOid [1, 2, 840, 113549, 1] = [0x06, 0x07, 0x2a, 0x86, 0x48, 0x86, 0xf7, 0x0d, 0x01] := by decide +kernel
example : berOid 8 (derOid [1, 2, 840, 113549, 0xffffffff] ++ [7]) = .ok ([1, 2, 840, 113549, 0xffffffff], [7]) := by decide +kernel
example : berOid 8 [0x06, 0x02, 0x2a, 0x86, 0x48] = .error .berDecodeErr := by decide +kernel
example : berOid 8 [0x06, 0x06, 0x2a, 0x9f, 0xff, 0xff, 0xff, 0x7f] = .error .berDecodeErr := by decide +kernel

/-- The negation for `2.999` (X.660's example arc) and `2.40`: the first octet overflows or is split differently. -/
theorem oid_round_trip_fails :
    berOid 8 (derOid [2, 999, 3]) = .ok ([1, 15, 3], []) ∧ berOid 8 (derOid [2, 40]) = .ok ([3, 0], []) := by decide +kernel

/-! ## C51: OpenPGP integers -/

/-- `OpenPGPDecode(OpenPGPEncode(x))` is the magnitude of `x`, and what follows is untouched, when `x` has fewer than `2^16`
bits. Missing: longer integers, for which it is false (`pgp_round_trip_fails`). -/
theorem pgp_round_trip_partial {ws : Nat} (hws : ∃ k, ws = 2 ^ k) {x : Integer.Obj} (hx : Integer.Ok ws x)
    (h16 : (Integer.value ws x).natAbs < 2 ^ (2 ^ 16 - 1)) (rest : List Byte) :
    ∃ y, pgpDecode ws (pgpEncode ws x ++ rest) = .ok (y, rest) ∧ Integer.Ok ws y ∧ Integer.value ws y = |Integer.value ws x| := by
  have hw : 0 < ws := by obtain ⟨k, e⟩ := hws; rw [e]; exact Nat.two_pow_pos k
  have hbc : Integer.bitCount ws x = bitLen (Integer.value ws x).natAbs := (Integer.bits_exact hws hx 0).2.2.1
  have hlt : bitLen (Integer.value ws x).natAbs < 2 ^ 16 := by
    have := bitLen_le h16; omega
  generalize hL : bitLen (Integer.value ws x).natAbs = L at *
  have he : pgpEncode ws x = beBytes 2 L ++ Integer.encode ws x ((L + 7) / 8) false := by
    unfold pgpEncode; rw [hbc, Nat.mod_eq_of_lt hlt]
  have hn : (Integer.value ws x).natAbs < 256 ^ ((L + 7) / 8) := by
    have h1 := bitLen_lt (Integer.value ws x).natAbs
    have h2 : 2 ^ L ≤ 2 ^ (8 * ((L + 7) / 8)) := Nat.pow_le_pow_right (by omega) (by omega)
    rw [Nat.pow_mul 2 8] at h2
    rw [hL] at h1
    exact Nat.lt_of_lt_of_le h1 h2
  have hen := (Integer.encode_bytes hws hx ((L + 7) / 8)).1
  have hl : (Integer.encode ws x ((L + 7) / 8) false).length = (L + 7) / 8 := by rw [hen, beBytes_length]
  obtain ⟨y, h1, h2, h3⟩ := Integer.decode_unsigned hw (Integer.encode ws x ((L + 7) / 8) false ++ rest) ((L + 7) / 8) (by simp [hl])
  rw [List.drop_left' hl] at h1
  rw [List.take_left' hl, hen, beVal_beBytes, Nat.mod_eq_of_lt hn] at h3
  refine ⟨y, ?_, h2, by rw [h3, Int.natCast_natAbs]⟩
  have ht : (pgpEncode ws x ++ rest).take 2 = beBytes 2 L := by rw [he, List.append_assoc, List.take_left' (by simp)]
  have hd : (pgpEncode ws x ++ rest).drop 2 = Integer.encode ws x ((L + 7) / 8) false ++ rest := by
    rw [he, List.append_assoc, List.drop_left' (by simp)]
  unfold pgpDecode
  rw [ht, hd, beVal_beBytes, Nat.mod_eq_of_lt (by omega), if_neg (by rw [he]; simp), if_neg (by simp [hl])]
  exact h1

theorem pgpEncode_power2 {x : Integer.Obj} (hx : Integer.Ok 8 x) (n : Nat) (hn : n % 2 ^ 16 = 0) (h8 : 8 ≤ n)
    (hv : Integer.value 8 x = 2 ^ n) : pgpEncode 8 x = [0, 1, 0] := by
  have hb : Integer.bitCount 8 x = bitLen (Integer.value 8 x).natAbs := (Integer.bits_exact ⟨3, rfl⟩ hx 0).2.2.1
  have ha : (Integer.value 8 x).natAbs = 2 ^ n := by rw [hv, Int.natAbs_pow]; rfl
  have hl : bitLen (2 ^ n) = n + 1 := bitLen_unique (Nat.pow_lt_pow_right (by omega) (by omega)) (le_refl _)
  have hm : (n + 1) % 2 ^ 16 = 1 := by omega
  unfold pgpEncode
  have he : Integer.encode 8 x ((1 + 7) / 8) false = beBytes ((1 + 7) / 8) (Integer.value 8 x).natAbs := (Integer.encode_bytes ⟨3, rfl⟩ hx _).1
  rw [hb, ha, hl, hm]
  simp only []
  rw [he, ha]
  have h0 : beBytes ((1 + 7) / 8) (2 ^ n) = [0] := by
    rw [show (1 + 7) / 8 = 0 + 1 from rfl, Integer.beBytes_succ]
    obtain ⟨m, rfl⟩ : ∃ m, n = m + 8 := ⟨n - 8, by omega⟩
    have : BitVec.ofNat 8 (2 ^ (m + 8) / 256 ^ 0) = 0 := by
      apply byte_ext
      rw [BitVec.toNat_ofNat, Nat.pow_add, Nat.pow_zero, Nat.div_one, Nat.mul_mod_left]
      rfl
    rw [this]; rfl
  rw [h0]; decide

/-- The negation for every `2^n` with `n` a positive multiple of `65536`: the bit count is truncated to 16 bits and the integer
decodes to zero. -/
theorem pgp_round_trip_fails (m : Nat) :
    let n := 65536 * (m + 1)
    ∃ x y, Integer.Ok 8 x ∧ Integer.value 8 x = 2 ^ n ∧ pgpDecode 8 (pgpEncode 8 x) = .ok (y, []) ∧ Integer.value 8 y = 0 := by
  intro n
  have hp := Integer.power2_spec (ws := 8) (by omega) n
  refine ⟨Integer.power2 8 n, ⟨[0, 0], false⟩, hp.1, hp.2, ?_, by decide +kernel⟩
  rw [pgpEncode_power2 hp.1 n (by simp only [n]; omega) (by simp only [n]; omega) hp.2]
  decide +kernel

example : pgpEncode 8 Integer.exMax = [0x00, 0x80] ++ List.replicate 16 0xff := by decide +kernel

/-! ## C52: DERReencode -/

/-- `DERReencode` of any well-formed BER value writes the same value with every indefinite length on the way down replaced by
the minimal definite length, consumes exactly that value, and leaves what follows. -/
theorem reencode_exact (t : Ber) (h : t.WF) (rest : List Byte) : derReencodeTop (t.octets ++ rest) = .ok (t.der, rest) :=
  derReencode_spec t _ rest h (by simp; omega)

/-- A value that is already DER at its outer level is copied. -/
theorem reencode_der (tag : Byte) (c rest : List Byte) (hc : c.length < 2 ^ 64) (ht : tag ≠ 0) :
    derReencodeTop (derGeneral tag c ++ rest) = .ok (derGeneral tag c, rest) := by
  have h : (Ber.definite tag (minLength c.length) c).WF := by
    rw [Ber.WF]; exact ⟨minLength_isLength _ hc, hc, fun h => ht h.1⟩
  have := reencode_exact _ h rest
  simpa [Ber.octets, Ber.der, derGeneral, derLength_eq _ hc] using this

def exBer : Ber := .indefinite 0x30 [.definite 0x02 [0x81, 1] [5], .indefinite 0x24 [.definite 4 [2] [1, 2]]]
theorem exBer_wf : exBer.WF := by
  simp only [exBer, Ber.WF, WFList, derList, Ber.der, minLength]
  refine ⟨by decide, by decide, ⟨Or.inr ⟨0x81, [1], rfl, by decide, by decide, by decide⟩, by decide, by decide⟩,
    ⟨by decide, by decide, ⟨Or.inl ⟨2, rfl, by decide, by decide⟩, by decide, by decide⟩, trivial⟩, trivial⟩
example : derReencodeTop [0x30, 0x80, 0x02, 0x81, 0x01, 0x05, 0x24, 0x80, 0x04, 0x02, 1, 2, 0, 0, 0, 0, 9] =
    .ok ([0x30, 9, 0x02, 0x01, 0x05, 0x24, 4, 0x04, 0x02, 1, 2], [9]) := by
  have := reencode_exact exBer exBer_wf [9]
  simpa [exBer, Ber.octets, octetsList, Ber.der, derList, minLength] using this

end Verif.Asn
