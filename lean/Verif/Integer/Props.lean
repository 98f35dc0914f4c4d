import Verif.Integer.EncProofs

/-!
# Properties of Integer: addition, subtraction, comparison, shifts (C23) and byte encodings (C22)

`value ws x` is the integer an object stands for: the little-endian value of its words in base `2^(8*ws)` with its sign.
`Ok ws x` is the class invariant: words in range, a power-of-two number of words, no negative zero.
-/
namespace Verif.Integer

open Verif.Misc

/-! ## Concrete objects used as witnesses (64-bit words) -/

/-- `2^128 - 1` -/
def exMax : Obj := ⟨[2 ^ 64 - 1, 2 ^ 64 - 1], false⟩
/-- `-1` -/
def exNeg : Obj := ⟨[1, 0], true⟩
/-- `-(2^192 + 5)`, four words -/
def exBig : Obj := ⟨[5, 0, 0, 1], true⟩

theorem words_of_forall {B : Nat} {l : List Nat} (h : l.all (· < B) = true) : Words B l := by
  intro w hw; have := List.all_eq_true.mp h w hw; simpa using this

example : Ok 8 exMax := ⟨words_of_forall (by decide +kernel), ⟨0, rfl⟩, by simp [exMax]⟩
theorem exNeg_ok : Ok 8 exNeg := ⟨words_of_forall (by decide +kernel), ⟨0, rfl⟩, fun _ => by decide +kernel⟩
theorem exBig_ok : Ok 8 exBig := ⟨words_of_forall (by decide +kernel), ⟨1, rfl⟩, fun _ => by decide +kernel⟩
theorem exMax_ok : Ok 8 exMax := ⟨words_of_forall (by decide +kernel), ⟨0, rfl⟩, by simp [exMax]⟩
example : value 8 exMax = 2 ^ 128 - 1 ∧ value 8 exNeg = -1 ∧ value 8 exBig = -(2 ^ 192 + 5) := by decide +kernel

/-! ## C23: word arrays -/

/-- `Add`: for arrays of any even length the words written and the carry are the exact sum. -/
theorem wordAdd_exact {B N : Nat} (hB : 1 < B) (hN : N % 2 = 0) (A Bs : List Nat) (hA : Words B A) (hBs : Words B Bs)
    (h1 : A.length = N) (h2 : Bs.length = N) :
    (baselineAdd B N A Bs).1.length = N ∧ Words B (baselineAdd B N A Bs).1 ∧ (baselineAdd B N A Bs).2 ≤ 1 ∧
      wval B (baselineAdd B N A Bs).1 + B ^ N * (baselineAdd B N A Bs).2 = wval B A + wval B Bs := by
  have := baselineAdd_spec hB hN A Bs hA hBs (by omega) (by omega)
  rw [List.take_of_length_le (by omega : A.length ≤ N), List.take_of_length_le (by omega : Bs.length ≤ N)] at this
  exact this

/-- `Subtract`: for arrays of any even length the words written and the borrow are the exact difference. -/
theorem wordSub_exact {B N : Nat} (hB : 1 < B) (hN : N % 2 = 0) (A Bs : List Nat) (hA : Words B A) (hBs : Words B Bs)
    (h1 : A.length = N) (h2 : Bs.length = N) :
    (baselineSub B N A Bs).1.length = N ∧ Words B (baselineSub B N A Bs).1 ∧ (baselineSub B N A Bs).2 ≤ 1 ∧
      (wval B (baselineSub B N A Bs).1 : Int) = (wval B A : Int) - wval B Bs + B ^ N * (baselineSub B N A Bs).2 := by
  have := baselineSub_spec hB hN A Bs hA hBs (by omega) (by omega)
  rw [List.take_of_length_le (by omega : A.length ≤ N), List.take_of_length_le (by omega : Bs.length ≤ N)] at this
  refine ⟨this.1, this.2.1, this.2.2.1, ?_⟩
  have h := this.2.2.2
  have h' : ((wval B (baselineSub B N A Bs).1 + wval B Bs : Nat) : Int) = ((wval B A + B ^ N * (baselineSub B N A Bs).2 : Nat) : Int) := by rw [h]
  push_cast at h'
  omega

example : baselineAdd (2 ^ 64) 2 [2 ^ 64 - 1, 2 ^ 64 - 1] [1, 0] = ([0, 0], 1) := by decide +kernel
example : baselineSub (2 ^ 64) 2 [0, 0] [1, 0] = ([2 ^ 64 - 1, 2 ^ 64 - 1], 1) := by decide +kernel

/-! ## C23: signed integers -/

/-- `a + b`, `a += b`, `a - b`, `a -= b`, `++a`, `--a`, `-a`, copying and assignment compute the mathematical result on
every pair of integers, of any size and sign, and leave well-formed objects.  (`a += a` and `a -= a` are the instance
`b = a`.) -/
theorem arithmetic_exact {ws : Nat} (hw : 0 < ws) {a b : Obj} (ha : Ok ws a) (hb : Ok ws b) :
    (Ok ws (plus ws a b) ∧ value ws (plus ws a b) = value ws a + value ws b) ∧
    (Ok ws (plusAssign ws a b) ∧ value ws (plusAssign ws a b) = value ws a + value ws b) ∧
    (Ok ws (minus ws a b) ∧ value ws (minus ws a b) = value ws a - value ws b) ∧
    (Ok ws (minusAssign ws a b) ∧ value ws (minusAssign ws a b) = value ws a - value ws b) ∧
    (Ok ws (preInc ws a) ∧ value ws (preInc ws a) = value ws a + 1) ∧
    (Ok ws (preDec ws a) ∧ value ws (preDec ws a) = value ws a - 1) ∧
    (Ok ws (neg a) ∧ value ws (neg a) = -value ws a) ∧
    (Ok ws (negate a) ∧ value ws (negate a) = -value ws a) ∧
    (Ok ws (absoluteValue a) ∧ value ws (absoluteValue a) = |value ws a|) ∧
    (Ok ws (copyCtor a) ∧ value ws (copyCtor a) = value ws a) ∧
    (Ok ws (assign a b) ∧ value ws (assign a b) = value ws b) :=
  ⟨plus_spec hw ha hb, plusAssign_spec hw ha hb, minus_spec hw ha hb, minusAssign_spec hw ha hb, preInc_spec hw ha,
    preDec_spec hw ha, neg_spec hw ha, negate_spec hw ha,
    ⟨(absoluteValue_spec hw ha).1, by rw [(absoluteValue_spec hw ha).2, Int.natCast_natAbs]⟩, copyCtor_spec hw ha, assign_spec hw a hb⟩

-- a carry out of the top word, a borrow through three words, and the two sign changes
example : value 8 (plus 8 exMax ⟨[1, 0], false⟩) = 2 ^ 128 := by decide +kernel
example : value 8 (plusAssign 8 exBig exMax) = -(2 ^ 192 + 5) + (2 ^ 128 - 1) := by decide +kernel
example : value 8 (minus 8 exMax exBig) = 2 ^ 128 - 1 + (2 ^ 192 + 5) := by decide +kernel
example : preDec 8 zero = exNeg ∧ preInc 8 exNeg = zero := by decide +kernel

/-- `Compare` is the sign of the difference, so `==`, `<`, `<=`, ... agree with the integers. -/
theorem compare_exact {ws : Nat} (hw : 0 < ws) {a b : Obj} (ha : Ok ws a) (hb : Ok ws b) :
    compare a b = Int.sign (value ws a - value ws b) := by
  rw [compare_spec hw ha hb]
  split
  · rw [Int.sign_eq_one_of_pos (by omega)]
  · split
    · rw [Int.sign_eq_neg_one_of_neg (by omega)]
    · rw [show value ws a - value ws b = 0 by omega]; rfl

example : compare exBig exNeg = -1 ∧ compare exNeg exBig = 1 ∧ compare exMax exNeg = 1 := by decide +kernel

/-- `operator!` tests for zero. -/
theorem not_exact {ws : Nat} (hw : 0 < ws) {a : Obj} (ha : Ok ws a) : isZero a = true ↔ value ws a = 0 := by
  rw [isZero_spec hw ha]; simp

/-- `<<=` multiplies by `2^n`; `>>=` divides the magnitude by `2^n` rounding towards zero, for every `n`. -/
theorem shifts_exact {ws : Nat} (hw : 0 < ws) {a : Obj} (ha : Ok ws a) (n : Nat) :
    (Ok ws (shlAssign ws a n) ∧ value ws (shlAssign ws a n) = value ws a * 2 ^ n) ∧
    (Ok ws (shrAssign ws a n) ∧ value ws (shrAssign ws a n) = (value ws a).tdiv (2 ^ n)) :=
  ⟨shlAssign_spec hw ha n, shrAssign_spec hw ha n⟩

example : value 8 (shlAssign 8 exBig 67) = -(2 ^ 192 + 5) * 2 ^ 67 ∧ value 8 (shrAssign 8 exBig 2) = -(2 ^ 190 + 1) := by decide +kernel

/-- `GetBit`, `SetBit`, `BitCount`, `ByteCount`, `Power2` read and write the binary expansion of the magnitude. -/
theorem bits_exact {ws : Nat} (hws : ∃ k, ws = 2 ^ k) {a : Obj} (ha : Ok ws a) (n : Nat) :
    getBit ws a n = (value ws a).natAbs.testBit n ∧
    (Ok ws (setBit ws a n) ∧ (setBit ws a n).neg = a.neg ∧ (value ws (setBit ws a n)).natAbs = (value ws a).natAbs ||| 2 ^ n) ∧
    bitCount ws a = bitLen (value ws a).natAbs ∧ byteCount ws a = byteLen (value ws a).natAbs ∧
    (Ok ws (power2 ws n) ∧ value ws (power2 ws n) = 2 ^ n) := by
  have hw : 0 < ws := by obtain ⟨k, e⟩ := hws; rw [e]; exact Nat.two_pow_pos k
  exact ⟨getBit_spec hw ha n, setBit_spec hw ha n, bitCount_spec hw ha, byteCount_spec hws ha, power2_spec hw n⟩

example : getBit 8 exBig 192 = true ∧ bitCount 8 exBig = 193 ∧ byteCount 8 exBig = 25 := by decide +kernel

/-! ## C22: byte encodings -/

/-- `Encode(out, n, UNSIGNED)` is the `n` low bytes of the magnitude, most significant first; `Encode(out, n, SIGNED)` is the
`n`-byte two's complement form. -/
theorem encode_bytes {ws : Nat} (hws : ∃ k, ws = 2 ^ k) {x : Obj} (hx : Ok ws x) (n : Nat) :
    encode ws x n false = beBytes n (value ws x).natAbs ∧ encode ws x n true = twosBytes n (value ws x) := by
  have hw : 0 < ws := by obtain ⟨k, e⟩ := hws; rw [e]; exact Nat.two_pow_pos k
  exact ⟨encode_unsigned_spec hw hx n, encode_signed_spec hws hx n⟩

example : encode 8 exBig 2 true = [0xff, 0xfb] ∧ encode 8 exBig 2 false = [0x00, 0x05] := by decide +kernel

/-- `MinEncodedSize(UNSIGNED)` is the least positive length that holds the magnitude. -/
theorem minEncodedSize_unsigned_least {ws : Nat} (hws : ∃ k, ws = 2 ^ k) {x : Obj} (hx : Ok ws x) :
    1 ≤ minEncodedSize ws x false ∧ (value ws x).natAbs < 256 ^ minEncodedSize ws x false ∧
      ∀ n, 1 ≤ n → (value ws x).natAbs < 256 ^ n → minEncodedSize ws x false ≤ n := by
  rw [minEncodedSize_unsigned hws hx]
  refine ⟨by omega, ?_, ?_⟩
  · exact Nat.lt_of_lt_of_le (byteLen_lt _) (Nat.pow_le_pow_right (by omega) (by omega))
  · intro n hn h
    have := byteLen_le h
    omega

/-- `MinEncodedSize(SIGNED)` is the least positive length whose two's complement range contains the value. -/
theorem minEncodedSize_signed_least {ws : Nat} (hws : ∃ k, ws = 2 ^ k) {x : Obj} (hx : Ok ws x) :
    1 ≤ minEncodedSize ws x true ∧ FitsSigned (minEncodedSize ws x true) (value ws x) ∧
      ∀ n, 1 ≤ n → FitsSigned n (value ws x) → minEncodedSize ws x true ≤ n :=
  minEncodedSize_signed hws hx

example : minEncodedSize 8 ⟨[128, 0], true⟩ true = 1 ∧ minEncodedSize 8 ⟨[128, 0], false⟩ true = 2 ∧
    minEncodedSize 8 ⟨[129, 0], true⟩ true = 2 := by decide +kernel

/-- `Decode(bt, n, UNSIGNED)` reads exactly `n` bytes, big-endian. -/
theorem decode_unsigned {ws : Nat} (hw : 0 < ws) (bt : List Byte) (n : Nat) (hn : n ≤ bt.length) :
    ∃ x, decode ws bt n false = .ok (x, bt.drop n) ∧ Ok ws x ∧ value ws x = beVal (bt.take n) :=
  decode_unsigned_spec hw bt n hn

/-- `Decode(bt, n, SIGNED)` reads exactly `n ≥ 1` bytes as two's complement, unless the encoded number is
`-2^(WORD_BITS * 2^(k+1))` for some `k` (see `decode_signed_negative_zero`). -/
theorem decode_signed {ws : Nat} (hw : 0 < ws) (bt : List Byte) (n : Nat) (hn : n ≤ bt.length) (h0 : 0 < n)
    (hex : ∀ k, ofTwos (bt.take n) ≠ -(2 ^ (8 * ws * 2 ^ (k + 1)))) :
    ∃ x, decode ws bt n true = .ok (x, bt.drop n) ∧ Ok ws x ∧ value ws x = ofTwos (bt.take n) := by
  obtain ⟨x, h1, h2, _⟩ := decode_signed_core hw bt n hn h0
  exact ⟨x, h1, h2 hex⟩

theorem pow_ne_of_not_pow {v : Int} {e : Nat} (h : v.natAbs ≠ 2 ^ e) : v ≠ -(2 ^ e) := by
  intro h'; apply h; rw [h', Int.natAbs_neg, Int.natAbs_pow]; rfl

example : ∀ k, ofTwos ([0xff, 0x00, 0x7a].take 2) ≠ -(2 ^ (8 * 8 * 2 ^ (k + 1))) := by
  intro k
  apply pow_ne_of_not_pow
  have h1 : (ofTwos (([0xff, 0x00, 0x7a] : List Byte).take 2)).natAbs = 256 := by decide +kernel
  rw [h1]
  have h2 : 2 ^ 9 ≤ 2 ^ (8 * 8 * 2 ^ (k + 1)) := Nat.pow_le_pow_right (by omega) (by
    have := Nat.two_pow_pos (k + 1); omega)
  omega
example : decode 8 [0xff, 0x00, 0x7a] 2 true = .ok (⟨[256, 0], true⟩, [0x7a]) := by decide +kernel

/-- A stream that is too short is refused. -/
theorem decode_short (ws : Nat) (bt : List Byte) (n : Nat) (signed : Bool) (h : bt.length < n) :
    decode ws bt n signed = .error .invalidArgument := by
  unfold decode; rw [if_pos h]

/-- Unsigned round trip: for every integer and every length at least `MinEncodedSize`, decoding gives the magnitude back and
leaves what follows untouched. -/
theorem unsigned_round_trip {ws : Nat} (hws : ∃ k, ws = 2 ^ k) {x : Obj} (hx : Ok ws x) (n : Nat)
    (hn : minEncodedSize ws x false ≤ n) (rest : List Byte) :
    ∃ y, decode ws (encode ws x n false ++ rest) n false = .ok (y, rest) ∧ Ok ws y ∧ value ws y = |value ws x| := by
  have hw : 0 < ws := by obtain ⟨k, e⟩ := hws; rw [e]; exact Nat.two_pow_pos k
  have he := (encode_bytes hws hx n).1
  have hl : (encode ws x n false).length = n := by rw [he, beBytes_length]
  obtain ⟨y, h1, h2, h3⟩ := decode_unsigned hw (encode ws x n false ++ rest) n (by simp [hl])
  rw [List.drop_left' hl] at h1
  rw [List.take_left' hl, he, beVal_beBytes] at h3
  refine ⟨y, h1, h2, ?_⟩
  have hm := minEncodedSize_unsigned_least hws hx
  have := Nat.pow_le_pow_right (n := 256) (by omega) hn
  rw [h3, Nat.mod_eq_of_lt (by omega), Int.natCast_natAbs]

/-- Signed round trip: for every integer other than `-2^(WORD_BITS * 2^(k+1))` and every length at least `MinEncodedSize`,
decoding gives the integer back and leaves what follows untouched. -/
theorem signed_round_trip_partial {ws : Nat} (hws : ∃ k, ws = 2 ^ k) {x : Obj} (hx : Ok ws x) (n : Nat)
    (hn : minEncodedSize ws x true ≤ n) (hex : ∀ k, value ws x ≠ -(2 ^ (8 * ws * 2 ^ (k + 1)))) (rest : List Byte) :
    ∃ y, decode ws (encode ws x n true ++ rest) n true = .ok (y, rest) ∧ Ok ws y ∧ value ws y = value ws x := by
  have hw : 0 < ws := by obtain ⟨k, e⟩ := hws; rw [e]; exact Nat.two_pow_pos k
  obtain ⟨m1, m2, m3⟩ := minEncodedSize_signed_least hws hx
  have he := (encode_bytes hws hx n).2
  have hl : (encode ws x n true).length = n := by rw [he, twosBytes_length]
  have hf : FitsSigned n (value ws x) := by
    have h1 : (2 : Int) ^ (8 * minEncodedSize ws x true - 1) ≤ 2 ^ (8 * n - 1) :=
      pow_le_pow_right₀ (by norm_num) (by omega)
    exact ⟨by have := m2.1; omega, by have := m2.2; omega⟩
  have ho : ofTwos ((encode ws x n true ++ rest).take n) = value ws x := by
    rw [List.take_left' hl, he, ofTwos_twosBytes (by omega) hf]
  obtain ⟨y, h1, h2, h3⟩ := decode_signed hw (encode ws x n true ++ rest) n (by simp [hl]) (by omega) (by rw [ho]; exact hex)
  rw [List.drop_left' hl] at h1
  exact ⟨y, h1, h2, by rw [h3, ho]⟩

/-- A shorter length keeps the low bytes (of the magnitude, of the two's complement form). -/
theorem encode_short_keeps_low_bytes {ws : Nat} (hws : ∃ k, ws = 2 ^ k) {x : Obj} (hx : Ok ws x) (signed : Bool) (m n : Nat)
    (h : m ≤ n) : encode ws x m signed = (encode ws x n signed).drop (n - m) := by
  obtain ⟨a1, a2⟩ := encode_bytes hws hx m
  obtain ⟨b1, b2⟩ := encode_bytes hws hx n
  have key : ∀ v : Nat, beBytes m v = (beBytes n v).drop (n - m) := by
    intro v
    have := beBytes_append (n - m) m v
    rw [show n - m + m = n by omega] at this
    rw [this, List.drop_left' (by simp)]
  cases signed
  · rw [a1, b1]; exact key _
  · rw [a2, b2]
    unfold twosBytes
    rw [← key]
    have hd : (256 : Int) ^ m ∣ 256 ^ n := pow_dvd_pow _ h
    have e : ((value ws x % 256 ^ n).toNat) % 256 ^ m = (value ws x % 256 ^ m).toNat := by
      have h1 := Int.emod_nonneg (value ws x) (by positivity : (256 : Int) ^ n ≠ 0)
      have h2 := Int.emod_nonneg (value ws x) (by positivity : (256 : Int) ^ m ≠ 0)
      have : (((value ws x % 256 ^ n).toNat % 256 ^ m : Nat) : Int) = ((value ws x % 256 ^ m).toNat : Int) := by
        push_cast
        rw [Int.toNat_of_nonneg h1, Int.toNat_of_nonneg h2, Int.emod_emod_of_dvd _ hd]
      exact_mod_cast this
    rw [← e, beBytes_mod]

example : ∀ k, value 8 exBig ≠ -(2 ^ (8 * 8 * 2 ^ (k + 1))) := by
  intro k
  apply pow_ne_of_not_pow
  have h1 : (value 8 exBig).natAbs = 2 ^ 192 + 5 := by decide +kernel
  have h2 : 2 ∣ 2 ^ (8 * 8 * 2 ^ (k + 1)) := dvd_pow_self 2 (by have := Nat.two_pow_pos (k + 1); omega)
  rw [h1]; intro h; rw [← h] at h2; revert h2; decide +kernel
example : minEncodedSize 8 exBig true = 25 := by decide +kernel
example : decode 8 (encode 8 exBig 25 true ++ [1, 2, 3]) 25 true = .ok (exBig, [1, 2, 3]) := by decide +kernel

/-! ## C22, where the code disagrees with the claim -/

/-- `-2^128` (64-bit words), encoded in its minimal 17 bytes and decoded, comes back as a negative zero: `Decode` strips the
leading `0xff`, the sixteen zero bytes fill the two words exactly, no room is left for the sign extension, and the two's
complement of zero is zero. -/
theorem decode_signed_negative_zero :
    let x : Obj := ⟨[0, 0, 1, 0], true⟩
    Ok 8 x ∧ value 8 x = -(2 ^ 128) ∧ minEncodedSize 8 x true = 17 ∧
      decode 8 (encode 8 x 17 true) 17 true = .ok (⟨[0, 0], true⟩, []) := by
  refine ⟨⟨words_of_forall (by decide +kernel), ⟨1, rfl⟩, fun _ => by decide +kernel⟩, ?_, ?_, ?_⟩ <;> decide +kernel

/-- A signed decode of zero bytes takes its sign from a byte that is not part of the encoding: the result is `-1` or `0`
depending on what follows. -/
theorem decode_empty_reads_next_byte :
    decode 8 [0xff] 0 true = .ok (⟨[1, 0], true⟩, [0xff]) ∧ decode 8 [0x00] 0 true = .ok (⟨[0, 0], false⟩, [0x00]) ∧
      decode 8 [] 0 true = .error .undefinedBehaviour := by decide +kernel

end Verif.Integer
