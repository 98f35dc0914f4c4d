import Verif.Cipher.TeaProofs
import Verif.Cipher.RcProofs
import Verif.Cipher.ArxProofs
import Verif.Cipher.ThreefishProofs

/-!
# C29: decryption inverts encryption

For each cipher: whenever `SetKey` accepts a key (and a number of rounds, effective length, block size or tweak), the two directions undo each
other on every block.  Beside each, a known answer shows that the model is the cipher.
-/
namespace Verif.Cipher

/-- Bytes from a number, most significant first. -/
def hex (n x : Nat) : List Byte := beBytes n x

/-- The result of encrypting a block. -/
def encrypts (c : Except Err Keyed) (pt ct : List Byte) : Bool :=
  match c with
  | .ok c => c.enc pt == ct
  | .error _ => false

/-! ## TEA, XTEA, BTEA -/

theorem tea_inverse {key : List Byte} {rounds : Int} {c : Keyed} (h : Tea.teaSetKey key rounds = .ok c) : c.Inverse := by
  unfold Tea.teaSetKey at h
  by_cases hk : key.length ≠ 16
  · rw [if_pos hk] at h; cases h
  rw [if_neg hk] at h
  cases hr : getRounds 1 rounds with
  | error e => rw [hr] at h; cases h
  | ok r =>
    rw [hr] at h
    cases h
    have := Tea.getRounds_lt hr
    exact Tea.keyed_inverse (Tea.tea_bodies _).1 (Tea.tea_bodies _).2 (by omega) (by omega)

theorem xtea_inverse {key : List Byte} {rounds : Int} {c : Keyed} (h : Tea.xteaSetKey key rounds = .ok c) : c.Inverse := by
  unfold Tea.xteaSetKey at h
  by_cases hk : key.length ≠ 16
  · rw [if_pos hk] at h; cases h
  rw [if_neg hk] at h
  cases hr : getRounds 1 rounds with
  | error e => rw [hr] at h; cases h
  | ok r =>
    rw [hr] at h
    cases h
    have := Tea.getRounds_lt hr
    exact Tea.keyed_inverse (Tea.xtea_bodies _).1 (Tea.xtea_bodies _).2 (by omega) (by omega)

/-- BTEA, for every block of at least two words. -/
theorem btea_inverse {key : List Byte} {blockSize : Nat} {c : Keyed} (hn : 8 ≤ blockSize) (h : Tea.bteaSetKey key blockSize = .ok c) : c.Inverse := by
  unfold Tea.bteaSetKey at h
  by_cases hk : key.length ≠ 16
  · rw [if_pos hk] at h; cases h
  rw [if_neg hk] at h
  cases h
  exact ofWords_inverse _ (by decide) (Tea.btea_pair _ (by omega) (by omega))

/-! ## RC5, RC6, RC2 -/

theorem rc5_inverse {key : List Byte} {rounds : Int} {c : Keyed} (h : Rc5.setKey key rounds = .ok c) : c.Inverse := by
  unfold Rc5.setKey at h
  by_cases hk : key.length > 255
  · rw [if_pos hk] at h; cases h
  rw [if_neg hk] at h
  cases hr : getRounds 1 rounds with
  | error e => rw [hr] at h; cases h
  | ok r =>
    rw [hr] at h
    by_cases hs : 2 * (r + 1) % 2 ^ 32 < 2 * (r + 1)
    · simp only [bind, Except.bind, pure, Except.pure, if_pos hs] at h; cases h
    · simp only [bind, Except.bind, pure, Except.pure, if_neg hs] at h
      cases h
      have e : 2 * (r + 1) % 2 ^ 32 = 2 * (r + 1) := by have := Nat.mod_le (2 * (r + 1)) (2 ^ 32); omega
      rw [e]
      exact ofWords_inverse _ (by decide) (rc5_cancel _ r).pair2

theorem rc6_inverse {key : List Byte} {rounds : Int} {c : Keyed} (h : Rc6.setKey key rounds = .ok c) : c.Inverse := by
  unfold Rc6.setKey at h
  by_cases hk : key.length ≠ 16 ∧ key.length ≠ 24 ∧ key.length ≠ 32
  · rw [if_pos hk] at h; cases h
  rw [if_neg hk] at h
  cases hr : getRounds 1 rounds with
  | error e => rw [hr] at h; cases h
  | ok r =>
    rw [hr] at h
    by_cases hs : 2 * (r + 2) % 2 ^ 32 < 2 * (r + 2)
    · simp only [bind, Except.bind, pure, Except.pure, if_pos hs] at h; cases h
    · simp only [bind, Except.bind, pure, Except.pure, if_neg hs] at h
      cases h
      have e : 2 * (r + 2) % 2 ^ 32 = 2 * (r + 2) := by have := Nat.mod_le (2 * (r + 2)) (2 ^ 32); omega
      rw [e]
      exact ofWords_inverse _ (by decide) (rc6_cancel _ r).pair4

theorem rc2_inverse {key : List Byte} {effectiveLen : Int} {c : Keyed} (h : Rc2.setKey key effectiveLen = .ok c) : c.Inverse := by
  unfold Rc2.setKey at h
  cases hs : Rc2.schedule key effectiveLen with
  | error e => rw [hs] at h; cases h
  | ok K =>
    rw [hs] at h; cases h
    exact ofWords_inverse _ (by decide) (rc2_cancel K).pair4

/-! ## LEA, SPECK, SIMON, SIMECK, CHAM, HIGHT -/

theorem lea_inverse {key : List Byte} {c : Keyed} (h : Lea.setKey key = .ok c) : c.Inverse := by
  unfold Lea.setKey at h
  by_cases h1 : key.length = 16
  · simp only [if_pos h1] at h; cases h; exact ofWords_inverse _ (by decide) (Lea.lea_pair _ _)
  simp only [if_neg h1] at h
  by_cases h2 : key.length = 24
  · simp only [if_pos h2] at h; cases h; exact ofWords_inverse _ (by decide) (Lea.lea_pair _ _)
  simp only [if_neg h2] at h
  by_cases h3 : key.length = 32
  · simp only [if_pos h3] at h; cases h; exact ofWords_inverse _ (by decide) (Lea.lea_pair _ _)
  · simp only [if_neg h3] at h; cases h

theorem speck_cipher_inverse (k R : Nat) (hk : 0 < k) (rk : List (BitVec (8 * k))) : (Speck.cipher k R rk).Inverse :=
  ofWords_inverse _ hk (process_cancel (speck_cancel R rk)).pair2

theorem simon_cipher_inverse (k R : Nat) (hk : 0 < k) (rk : List (BitVec (8 * k))) : (Simon.cipher k R rk).Inverse :=
  ofWords_inverse _ hk (process_cancel (simon_cancel R rk)).pair2

theorem speck64_inverse {key : List Byte} {c : Keyed} (h : Speck.setKey64 key = .ok c) : c.Inverse := by
  unfold Speck.setKey64 at h
  split at h
  · cases h
  · split at h <;> cases h <;> exact speck_cipher_inverse _ _ (by decide) _

theorem speck128_inverse {key : List Byte} {c : Keyed} (h : Speck.setKey128 key = .ok c) : c.Inverse := by
  unfold Speck.setKey128 at h
  split at h
  · cases h
  · split at h <;> cases h <;> exact speck_cipher_inverse _ _ (by decide) _

theorem simon64_inverse {key : List Byte} {c : Keyed} (h : Simon.setKey64 key = .ok c) : c.Inverse := by
  unfold Simon.setKey64 at h
  split at h
  · cases h
  · split at h <;> cases h <;> exact simon_cipher_inverse _ _ (by decide) _

theorem simon128_inverse {key : List Byte} {c : Keyed} (h : Simon.setKey128 key = .ok c) : c.Inverse := by
  unfold Simon.setKey128 at h
  split at h
  · cases h
  · split at h <;> cases h <;> exact simon_cipher_inverse _ _ (by decide) _

theorem simeck32_inverse {key : List Byte} {c : Keyed} (h : Simeck.setKey32 key = .ok c) : c.Inverse := by
  unfold Simeck.setKey32 at h
  split at h
  · cases h
  · split at h <;> cases h; exact ofWords_inverse _ (by decide) (simeck_cancel _ _).pair2

theorem simeck64_inverse {key : List Byte} {c : Keyed} (h : Simeck.setKey64 key = .ok c) : c.Inverse := by
  unfold Simeck.setKey64 at h
  split at h
  · cases h
  · split at h <;> cases h; exact ofWords_inverse _ (by decide) (simeck_cancel _ _).pair2

theorem cham64_inverse {key : List Byte} {c : Keyed} (h : Cham.setKey64 key = .ok c) : c.Inverse := by
  unfold Cham.setKey64 at h
  split at h
  · cases h
  · cases h; exact ofWords_inverse _ (by decide) (cham_pair _ _ _)

theorem cham128_inverse {key : List Byte} {c : Keyed} (h : Cham.setKey128 key = .ok c) : c.Inverse := by
  unfold Cham.setKey128 at h
  simp only at h
  split at h
  · cases h; exact ofWords_inverse _ (by decide) (cham_pair _ _ _)
  · split at h <;> cases h; exact ofWords_inverse _ (by decide) (cham_pair _ _ _)

theorem hight_inverse {key : List Byte} {c : Keyed} (h : Hight.setKey key = .ok c) : c.Inverse := by
  unfold Hight.setKey at h
  split at h
  · cases h
  · cases h; exact ofWords_inverse _ (by decide) (Hight.hight_pair _)

/-! ## Threefish and GOST -/

theorem threefish_inverse {d : Threefish.Data} (hd : Threefish.Good d) {key : List Byte} {tw : Option (List Byte)} {c : Keyed}
    (h : Threefish.setKey d key tw = .ok c) : c.Inverse := by
  unfold Threefish.setKey at h
  split at h
  · cases h
  next hk =>
    have hl : (words .little 8 key).length = d.n := (words_spec .little (by decide) d.n key (by omega)).1
    cases tw with
    | none => cases h; exact ofWords_inverse _ (by decide) (Threefish.threefish_pair _ _ hd (by simp [hl]))
    | some t =>
      simp only at h
      split at h
      · cases h
      · cases h; exact ofWords_inverse _ (by decide) (Threefish.threefish_pair _ _ hd (by simp [hl]))

theorem threefish256_inverse {key : List Byte} {tw : Option (List Byte)} {c : Keyed} (h : Threefish.setKey Threefish.d256 key tw = .ok c) :
    c.Inverse := threefish_inverse Threefish.good256 h

theorem threefish512_inverse {key : List Byte} {tw : Option (List Byte)} {c : Keyed} (h : Threefish.setKey Threefish.d512 key tw = .ok c) :
    c.Inverse := threefish_inverse Threefish.good512 h

theorem threefish1024_inverse {key : List Byte} {tw : Option (List Byte)} {c : Keyed} (h : Threefish.setKey Threefish.d1024 key tw = .ok c) :
    c.Inverse := threefish_inverse Threefish.good1024 h

theorem gost_inverse {key : List Byte} {c : Keyed} (h : Gost.setKey key = .ok c) : c.Inverse := by
  unfold Gost.setKey at h
  split at h
  · cases h
  · cases h; exact ofWords_inverse _ (by decide) (Gost.gost_cancel _).pair2

/-! ## Known answers (TestVectors, TestData and validat*.cpp of the library) -/

example : encrypts (.ok (Tea.keyedFuel 33 (Tea.teaEncBody [0, 0, 0, 0]) (Tea.teaDecBody [0, 0, 0, 0]) 32)) (hex 8 0) (hex 8 0x41ea3a0a94baa940) = true := by
  decide +kernel
example : encrypts (Rc5.setKey (hex 16 0) 12) (hex 8 0) (hex 8 0x21A5DBEE154B8F6D) = true := by decide +kernel
example : encrypts (Rc6.setKey (hex 16 0)) (hex 16 0) (hex 16 0x8FC3A53656B1F778C129DF4E9848A41E) = true := by decide +kernel
example : encrypts (Rc2.setKey (hex 8 0) 63) (hex 8 0) (hex 8 0xebb773f993278eff) = true := by decide +kernel
example : encrypts (Lea.setKey (hex 16 0x07AB6305B025D83F79ADDAA63AC8AD00)) (hex 16 0xF28AE3256AAD23B415E028063B610C60)
    (hex 16 0x64D908FCB7EBFEF90FD670106DE7C7C5) = true := by decide +kernel
example : encrypts (Speck.setKey64 (hex 12 0x0001020308090A0B10111213)) (hex 8 0x65616E7320466174) (hex 8 0x6C947541EC52799F) = true := by decide +kernel
example : encrypts (Simon.setKey64 (hex 12 0x0001020308090A0B10111213)) (hex 8 0x636C696E6720726F) (hex 8 0xC88F1A117FE2A25C) = true := by decide +kernel
example : encrypts (Simeck.setKey32 (hex 8 0x1918111009080100)) (hex 4 0x65656877) (hex 4 0x770d2c76) = true := by decide +kernel
example : encrypts (Cham.setKey64 (hex 16 0x010003020504070609080b0a0d0c0f0e)) (hex 8 0x1100332255447766) (hex 8 0x453c63bcdcfabf4e) = true := by decide +kernel
example : encrypts (Hight.setKey (hex 16 0x88E34F8F081779F1E9F394370AD40589)) (hex 8 0xD76D0D18327EC562) (hex 8 0xE4BC2E312277E4DD) = true := by decide +kernel
example : encrypts (Gost.setKey (hex 32 0xBE5EC2006CFF9DCF52354959F1FF0CBFE95061B5A648C10387069C25997C0672)) (hex 8 0x0DF82802B741A292)
    (hex 8 0x07F9027DF7F7DF89) = true := by decide +kernel
example : encrypts (Threefish.setKey Threefish.d256 (hex 32 0)) (hex 32 0)
    (unwords .little 8 [0x94EEEA8B1F2ADA84, 0xADF103313EAE6670, 0x952419A1F4B16D53, 0xD83F13E63C9F6B11]) = true := by decide +kernel

/-! ## Where the code departs from the property -/

/-- BTEA with blocks of one word (a block size of four is accepted) is not invertible: two blocks have the same encryption. -/
theorem btea_one_word_not_invertible : ∃ c, Tea.bteaSetKey (List.replicate 16 0) 4 = .ok c ∧ ¬ c.Inverse := by
  refine ⟨_, rfl, fun h => ?_⟩
  have h1 := (h (hex 4 0x14) rfl).2.1
  have h2 := (h (hex 4 0x19) rfl).2.1
  have he : ∀ dec, (ofWords .big 4 1 (Tea.bteaEnc (getUserKey .big 4 4 (List.replicate 16 0)) 1) dec).enc (hex 4 0x14) =
      (ofWords .big 4 1 (Tea.bteaEnc (getUserKey .big 4 4 (List.replicate 16 0)) 1) dec).enc (hex 4 0x19) := by
    intro dec
    show unwords .big 4 (Tea.bteaEnc (getUserKey .big 4 4 (List.replicate 16 0)) 1 (words .big 4 (hex 4 0x14))) =
      unwords .big 4 (Tea.bteaEnc (getUserKey .big 4 4 (List.replicate 16 0)) 1 (words .big 4 (hex 4 0x19)))
    decide +kernel
  rw [show 4 / 4 = 1 from rfl] at h1 h2
  rw [he] at h1
  rw [h1] at h2
  exact absurd h2 (by decide +kernel)

/-- RC2 with an effective key length of zero writes outside of its array. -/
theorem rc2_effective_length_zero_undefined (key : List Byte) (hk : 1 ≤ key.length ∧ key.length ≤ 128) : Rc2.setKey key 0 = .error .undefinedBehaviour := by
  unfold Rc2.setKey Rc2.schedule
  rw [if_neg (by omega)]
  rfl

/-- A negative effective length too. -/
theorem rc2_effective_length_negative_undefined (key : List Byte) (hk : 1 ≤ key.length ∧ key.length ≤ 128) : Rc2.setKey key (-8) = .error .undefinedBehaviour := by
  unfold Rc2.setKey Rc2.schedule
  rw [if_neg (by omega)]
  rfl

/-- RC5 accepts `INT_MAX` rounds, whose table has `2^32` entries: none. -/
theorem rc5_rounds_int_max_undefined (key : List Byte) (hk : key.length ≤ 255) : Rc5.setKey key (2 ^ 31 - 1) = .error .undefinedBehaviour := by
  unfold Rc5.setKey
  rw [if_neg (by omega)]
  rfl

/-- RC6 likewise. -/
theorem rc6_rounds_int_max_undefined (key : List Byte) (hk : key.length = 16) : Rc6.setKey key (2 ^ 31 - 1) = .error .undefinedBehaviour := by
  unfold Rc6.setKey
  rw [if_neg (by omega)]
  rfl

/-- SPECK-128 accepts keys of 17 bytes, of which the last has no effect. -/
theorem speck_ignores_key_byte (key : List Byte) (hk : key.length = 16) (x y : Byte) : Speck.setKey128 (key ++ [x]) = Speck.setKey128 (key ++ [y]) ∧
    ∃ c, Speck.setKey128 (key ++ [x]) = .ok c := by
  have e : ∀ x, ∃ a b rest, words .little 8 (key ++ [x]) = a :: b :: rest ∧ a = BitVec.ofNat 64 (leVal (key.take 8)) ∧ b = BitVec.ofNat 64 (leVal (key.drop 8)) := by
    intro x
    have h1 : key ++ [x] = key.take 8 ++ (key.drop 8 ++ [x]) := by rw [← List.append_assoc, List.take_append_drop]
    rw [h1, words_append (by decide) _ _ (by simp [hk]), words_append (by decide) _ _ (by simp [hk])]
    exact ⟨_, _, _, rfl, rfl, rfl⟩
  have f : ∀ x, Speck.setKey128 (key ++ [x]) = .ok (Speck.cipher 8 32 (Speck.expand2 31 0 (BitVec.ofNat 64 (leVal (key.drop 8))) (BitVec.ofNat 64 (leVal (key.take 8))))) := by
    intro x
    obtain ⟨a, b, rest, h, rfl, rfl⟩ := e x
    have hl : (key ++ [x]).length = 17 := by simp [hk]
    unfold Speck.setKey128
    rw [hl, h]
    rfl
  exact ⟨by rw [f x, f y], _, f x⟩

/-- BTEA ignores the block that `ProcessAndXorBlock` has to add to the result. -/
theorem btea_ignores_mask : ∃ (k : List W32) (b m : List Byte), b.length = 8 ∧ m.length = 8 ∧
    Tea.bteaProcessAndXorBlock k 2 b (some m) ≠ xorOut (some m) (Tea.bteaProcessAndXorBlock k 2 b none) :=
  ⟨[0, 0, 0, 0], hex 8 0, hex 8 1, rfl, rfl, by decide +kernel⟩

/-- A tweak shorter than sixteen bytes is read out of bounds. -/
theorem threefish_short_tweak_undefined (key t : List Byte) (hk : key.length = 32) (ht : t.length < 16) :
    Threefish.setKey Threefish.d256 key (some t) = .error .undefinedBehaviour := by
  unfold Threefish.setKey
  rw [if_neg (by rw [hk]; decide)]
  simp only [if_pos ht]
  rfl

end Verif.Cipher
