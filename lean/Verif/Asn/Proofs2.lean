import Verif.Asn.Proofs

namespace Verif.Asn
open Verif.Misc

/-! ### unsigned integers -/

theorem unsignedBuf_eq (n j : Nat) : unsignedBuf n j = beBytes j n := by
  induction j with
  | zero => rfl
  | succ j ih =>
    rw [unsignedBuf, ih, Integer.beBytes_succ, Nat.shiftRight_eq_div_pow, Nat.mul_comm j 8, Nat.pow_mul 2 8 j]

theorem buf_eq (w size : Nat) (h : w < 256 ^ size) : (0 : Byte) :: unsignedBuf w size = beBytes (size + 1) w := by
  rw [unsignedBuf_eq, Integer.beBytes_succ, Nat.div_eq_of_lt h]; rfl

theorem beBytes_drop (m n w : Nat) (h : n ≤ m) : (beBytes m w).drop (m - n) = beBytes n w := by
  have := beBytes_append (m - n) n w
  rw [show m - n + n = m by omega] at this
  rw [this, List.drop_left' (by simp)]

theorem beBytes_getD (m n w : Nat) (h : n + 1 ≤ m) : (beBytes m w).getD (m - (n + 1)) 0 = BitVec.ofNat 8 (w / 256 ^ n) := by
  have h1 := beBytes_drop m (n + 1) w h
  rw [Integer.beBytes_succ] at h1
  rw [List.getD_eq_getElem?_getD]
  have h2 : ((beBytes m w).drop (m - (n + 1)))[0]? = some (BitVec.ofNat 8 (w / 256 ^ n)) := by rw [h1]; rfl
  rw [List.getElem?_drop] at h2
  rw [Nat.add_zero] at h2
  rw [h2]; rfl

theorem trimCount_spec (size w : Nat) : ∀ bc, 1 ≤ bc → bc ≤ size → w < 256 ^ bc →
    trimCount size (beBytes (size + 1) w) bc = max 1 (byteLen w) := by
  intro bc
  induction bc with
  | zero => intro h; omega
  | succ n ih =>
    intro _ hs hw
    rw [trimCount, beBytes_getD _ _ _ (by omega)]
    have hq : w / 256 ^ n < 256 := Nat.div_lt_of_lt_mul (by rw [← Nat.pow_succ]; exact hw)
    by_cases hz : w / 256 ^ n = 0
    · have hlt : w < 256 ^ n := by
        have hp : 0 < 256 ^ n := Nat.pow_pos (by omega)
        rcases Nat.div_eq_zero_iff.mp hz with h | h <;> omega
      by_cases hn : n = 0
      · subst hn
        simp at hlt; subst hlt; simp
      · rw [if_pos ⟨by omega, by rw [hz]; rfl⟩]
        exact ih (by omega) (by omega) hlt
    · have hge : 256 ^ n ≤ w := by
        by_contra h; exact hz (Nat.div_eq_of_lt (by omega))
      rw [if_neg, byteLen_unique hw hge]
      · omega
      · rintro ⟨-, h⟩
        have := congrArg BitVec.toNat h
        rw [BitVec.toNat_ofNat, show ((0 : Byte)).toNat = 0 from rfl, Nat.mod_eq_of_lt (by omega)] at this
        exact hz this

theorem signByte (w L : Nat) (hL : 1 ≤ L) (hw : w < 256 ^ L) :
    (BitVec.ofNat 8 (w / 256 ^ (L - 1)) &&& 0x80 ≠ 0) ↔ 2 ^ (8 * L - 1) ≤ w := by
  have hq : w / 256 ^ (L - 1) < 256 := Nat.div_lt_of_lt_mul (by rw [← Nat.pow_succ, show (L - 1).succ = L by omega]; exact hw)
  rw [Integer.byte_and_80, BitVec.toNat_ofNat, Nat.mod_eq_of_lt hq, Nat.le_div_iff_mul_le (Nat.pow_pos (by omega))]
  have : 2 ^ (8 * L - 1) = 128 * 256 ^ (L - 1) := by
    rw [show 8 * L - 1 = 7 + 8 * (L - 1) by omega, Nat.pow_add, Nat.pow_mul]
  rw [this]

/-- The DER content of an unsigned value: `bitLen w / 8 + 1` bytes. -/
theorem derUnsigned_eq (size w : Nat) (tag : Byte) (hs : 1 ≤ size) (hw : w < 256 ^ size) (ht : tag ≠ 0x01) :
    derUnsigned size w tag = tag :: (derLength (bitLen w / 8 + 1) ++ beBytes (bitLen w / 8 + 1) w) := by
  unfold derUnsigned
  rw [if_neg ht]
  simp only [buf_eq w size hw, trimCount_spec size w size hs (le_refl _) hw]
  have hle : byteLen w ≤ size := byteLen_le hw
  generalize hL : max 1 (byteLen w) = L
  have hL1 : 1 ≤ L := by omega
  have hLs : L ≤ size := by omega
  have hwL : w < 256 ^ L := Nat.lt_of_lt_of_le (byteLen_lt w) (Nat.pow_le_pow_right (by omega) (by omega))
  have hg : (beBytes (size + 1) w).getD (size + 1 - L) 0 = BitVec.ofNat 8 (w / 256 ^ (L - 1)) := by
    have := beBytes_getD (size + 1) (L - 1) w (by omega)
    rwa [show L - 1 + 1 = L by omega] at this
  have key : (if BitVec.ofNat 8 (w / 256 ^ (L - 1)) &&& 0x80 ≠ 0 then L + 1 else L) = bitLen w / 8 + 1 := by
    have hbl : bitLen w ≤ 8 * L := bitLen_le (by rw [Nat.pow_mul]; exact hwL)
    by_cases hb : 2 ^ (8 * L - 1) ≤ w
    · rw [if_pos ((signByte w L hL1 hwL).mpr hb)]
      have := bitLen_lt w
      have h2 : ¬ (bitLen w ≤ 8 * L - 1) := by
        intro h
        have := Nat.pow_le_pow_right (n := 2) (by omega) h
        omega
      have : bitLen w = 8 * L := by omega
      rw [this]; omega
    · rw [if_neg (fun h => hb ((signByte w L hL1 hwL).mp h))]
      have h1 : bitLen w ≤ 8 * L - 1 := bitLen_le (by omega)
      have h2 : byteLen w = (bitLen w + 7) / 8 := rfl
      omega
  rw [hg, key]
  have hk : bitLen w / 8 + 1 ≤ size + 1 := by rw [← key]; split <;> omega
  rw [beBytes_drop _ _ _ hk, List.take_of_length_le (by simp)]

theorem ofTwos_beBytes (w : Nat) : Integer.ofTwos (beBytes (bitLen w / 8 + 1) w) = w := by
  have hlt : w < 2 ^ (8 * (bitLen w / 8 + 1) - 1) :=
    Nat.lt_of_lt_of_le (bitLen_lt w) (Nat.pow_le_pow_right (by omega) (by omega))
  have e : Integer.twosBytes (bitLen w / 8 + 1) (w : Int) = beBytes (bitLen w / 8 + 1) w := by
    unfold Integer.twosBytes
    have : ((w : Int) % 256 ^ (bitLen w / 8 + 1)).toNat = w % 256 ^ (bitLen w / 8 + 1) := by
      have : (256 : Int) ^ (bitLen w / 8 + 1) = ((256 ^ (bitLen w / 8 + 1) : Nat) : Int) := by push_cast; rfl
      rw [this, ← Int.natCast_emod, Int.toNat_natCast]
    rw [this, beBytes_mod]
  rw [← e]
  apply Integer.ofTwos_twosBytes (by omega)
  constructor
  · have : (0 : Int) ≤ 2 ^ (8 * (bitLen w / 8 + 1) - 1) := by positivity
    omega
  · exact_mod_cast hlt

theorem ofTwos_nonneg_lt (c : List Byte) (hc : c ≠ []) (w : Nat) (h : Integer.ofTwos c = w) : w < 2 ^ (8 * c.length - 1) := by
  cases c with
  | nil => exact absurd rfl hc
  | cons b bs =>
    rw [show Integer.ofTwos (b :: bs) = if 128 ≤ b.toNat then (beVal (b :: bs) : Int) - 256 ^ (bs.length + 1) else beVal (b :: bs) from rfl] at h
    rw [List.length_cons]
    have hp : 2 ^ (8 * (bs.length + 1) - 1) = 128 * 256 ^ bs.length := by
      rw [show 8 * (bs.length + 1) - 1 = 7 + 8 * bs.length by omega, Nat.pow_add, Nat.pow_mul]
    have hlt := beVal_lt (b :: bs)
    simp only [List.length_cons] at hlt
    have hz := beVal_lt bs
    by_cases hb : 128 ≤ b.toNat
    · rw [if_pos hb] at h
      have h2 : ((beVal (b :: bs) : Nat) : Int) < ((256 ^ (bs.length + 1) : Nat) : Int) := by exact_mod_cast hlt
      push_cast at h2
      omega
    · rw [if_neg hb] at h
      have h2 : beVal (b :: bs) = w := by exact_mod_cast h
      rw [hp, ← h2, beVal_cons]
      have : b.toNat * 256 ^ bs.length ≤ 127 * 256 ^ bs.length := Nat.mul_le_mul_right _ (by omega)
      omega

theorem bitLen_min (c : List Byte) (hc : c ≠ []) (w : Nat) (h : Integer.ofTwos c = w) : bitLen w / 8 + 1 ≤ c.length := by
  have h1 := bitLen_le (ofTwos_nonneg_lt c hc w h)
  have : 0 < c.length := List.length_pos_iff.mpr hc
  omega

theorem skipZeros_spec (size : Nat) (c : List Byte) :
    beVal (skipZeros size c) = beVal c ∧ ((skipZeros size c).length ≤ size ↔ beVal c < 256 ^ size) := by
  induction c with
  | nil => simp [skipZeros]
  | cons b bs ih =>
    rw [skipZeros]
    by_cases h : bs.length + 1 > size ∧ b = 0
    · rw [if_pos h]
      have : beVal (b :: bs) = beVal bs := by rw [beVal_cons, h.2]; simp
      rw [this]; exact ih
    · rw [if_neg h]
      refine ⟨rfl, ?_⟩
      constructor
      · intro hl
        have := beVal_lt (b :: bs)
        have := Nat.pow_le_pow_right (n := 256) (by omega) hl
        omega
      · intro hv
        by_contra hl
        simp only [List.length_cons] at hl
        have hb : b ≠ 0 := fun e => h ⟨by omega, e⟩
        have hb' : 1 ≤ b.toNat := by
          rcases Nat.eq_zero_or_pos b.toNat with e | e
          · exact absurd (byte_ext e) hb
          · exact e
        rw [beVal_cons] at hv
        have h1 : 256 ^ bs.length ≤ b.toNat * 256 ^ bs.length := Nat.le_mul_of_pos_left _ hb'
        have h2 : 256 ^ size ≤ 256 ^ bs.length := Nat.pow_le_pow_right (by omega) (by omega)
        omega

theorem foldBytes_spec (size : Nat) (bs : List Byte) : ∀ w, w < 256 ^ size →
    foldBytes size w bs = (w * 256 ^ bs.length + beVal bs) % 256 ^ size := by
  induction bs with
  | nil => intro w hw; simp [foldBytes, Nat.mod_eq_of_lt hw]
  | cons b bs ih =>
    intro w hw
    rw [foldBytes, ih _ (Nat.mod_lt _ (Nat.pow_pos (by omega))), shl8_or]
    rw [Nat.add_mod, Nat.mul_mod, Nat.mod_mod, ← Nat.mul_mod, ← Nat.add_mod, beVal_cons, List.length_cons]
    congr 1; ring

theorem berUnsigned_iff (sz size : Nat) (tag : Byte) (lo hi : Nat) (bt rest : List Byte) (w : Nat) :
    berUnsigned sz size tag lo hi bt = .ok (w, rest) ↔
      ∃ p c, IsTLV tag p c ∧ bt = p ++ rest ∧ c.length < 2 ^ 64 ∧ c.length < 256 ^ sz ∧
        (tag = 0x01 → c.length = 1) ∧ (tag = 0x02 ∨ tag = 0x0a → c ≠ []) ∧
        w = beVal c ∧ w < 256 ^ size ∧ lo ≤ w ∧ w ≤ hi := by
  constructor
  · intro h
    unfold berUnsigned at h
    rcases getTag_cases tag bt with ⟨r, e, rfl⟩ | e <;> rw [e] at h <;> simp only [bind, Except.bind] at h
    · rcases hl : berLengthSize sz r with e' | ⟨_ | bc, r'⟩ <;> rw [hl] at h <;> simp only [reduceCtorEq] at h
      by_cases g1 : bc > r'.length
      · rw [if_pos g1] at h; simp at h
      rw [if_neg g1] at h
      by_cases g2 : tag = 0x01 ∧ bc ≠ 1
      · rw [if_pos g2] at h; simp at h
      rw [if_neg g2] at h
      by_cases g3 : (tag = 0x02 ∨ tag = 0x0a) ∧ bc = 0
      · rw [if_pos g3] at h; simp at h
      rw [if_neg g3] at h
      obtain ⟨k1, k2⟩ := skipZeros_spec size (r'.take bc)
      by_cases g4 : (skipZeros size (r'.take bc)).length > size
      · rw [if_pos g4] at h; simp at h
      rw [if_neg g4] at h
      rw [foldBytes_spec _ _ _ (Nat.pow_pos (by omega)), k1, Nat.zero_mul, Nat.zero_add, Nat.mod_eq_of_lt (k2.mp (by omega))] at h
      split at h
      · simp at h
      rename_i g5
      simp only [Except.ok.injEq, Prod.mk.injEq] at h
      obtain ⟨rfl, rfl⟩ := h
      obtain ⟨h1, h2, p, hp, rfl⟩ := (berLengthSize_some _ _ _ _).mp hl
      have hc : (r'.take bc).length = bc := by simp; omega
      refine ⟨tag :: (p ++ r'.take bc), r'.take bc, ⟨p, by rw [hc]; exact hp, rfl⟩, by simp, by omega, by omega, ?_, ?_, rfl, k2.mp (by omega), by omega, by omega⟩
      · intro ht; rw [hc]; by_contra hb; exact g2 ⟨ht, hb⟩
      · intro ht hn; apply g3; refine ⟨ht, ?_⟩; rw [← hc, hn]; rfl
    · simp at h
  · rintro ⟨p, c, ⟨l, hl, rfl⟩, rfl, h1, h2, h3, h4, rfl, h5, h6, h7⟩
    have e : berLengthSize sz (l ++ (c ++ rest)) = .ok (some c.length, c ++ rest) := (berLengthSize_some _ _ _ _).mpr ⟨h1, h2, l, hl, rfl⟩
    obtain ⟨k1, k2⟩ := skipZeros_spec size c
    simp only [berUnsigned, List.cons_append, getTag_cons, List.append_assoc, bind, Except.bind, e]
    rw [if_neg (by simp), if_neg (fun h => h.2 (h3 h.1)),
      if_neg (fun h => h4 h.1 (List.length_eq_zero_iff.mp h.2)), List.take_left' rfl, List.drop_left' rfl,
      if_neg (by have := k2.mpr h5; omega), foldBytes_spec _ _ _ (Nat.pow_pos (by omega)), k1, Nat.zero_mul, Nat.zero_add, Nat.mod_eq_of_lt h5,
      if_neg (by omega)]

end Verif.Asn
