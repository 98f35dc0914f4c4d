import Verif.Aes.KeyProofs

/-!
# Rijndael is AES

Property C57: the portable implementation computes the functions FIPS 197 defines, in every build.
-/
namespace Verif.Aes
open Verif.Cipher (xorOut Keyed)

/-- The keys of FIPS 197. -/
def KeyOk (key : List Byte) : Prop := key.length = 16 ∨ key.length = 24 ∨ key.length = 32

/-- `SetKey` refuses all other keys. -/
theorem setKey_refuses (c : Cfg) (forward : Bool) {key : List Byte} (h : ¬KeyOk key) : setKey c forward key = .error .invalidArgument := by
  unfold KeyOk at h; unfold setKey; rw [if_neg h]

/-- Encryption of a block is `Cipher` of FIPS 197 (and the mask, if there is one, is added), in every build and for every key and block. -/
theorem encryption_is_fips197 (c : Cfg) {key : List Byte} (hk : KeyOk key) : ∃ rounds rk, setKey c true key = .ok (rounds, rk) ∧
    ∀ (mask : Option (List Byte)) (b : List Byte), enc c rounds rk mask b = xorOut mask (Spec.cipher key b) := by
  unfold KeyOk at hk
  unfold setKey
  rw [if_pos hk]
  simp only []
  rw [schedule_all hk]
  refine ⟨_, _, rfl, fun mask b => ?_⟩
  obtain ⟨n, hn⟩ : ∃ n, Spec.rounds key = 2 * n + 4 := ⟨(Spec.rounds key - 4) / 2, by unfold Spec.rounds; rcases hk with h | h | h <;> omega⟩
  refine enc_spec c key b mask hn _ ?_ ?_ ?_
  · intro j hj
    rw [if_pos (.inl hj), ← condReverse_kw, ← M_roundKey (Nat.zero_le _) hj, Nat.mul_zero, Nat.zero_add]
  · intro j hj
    rw [if_pos (.inr (by show Spec.rounds key * 4 ≤ _; omega)), ← condReverse_kw, ← M_roundKey (Nat.le_refl _) hj]
  · intro i j h1 h2 hj
    rw [if_neg (by show ¬(_ ∨ Spec.rounds key * 4 ≤ _); omega), M_roundKey (by omega) hj]

/-- Decryption of a block is `InvCipher` of FIPS 197. -/
theorem decryption_is_fips197 (c : Cfg) {key : List Byte} (hk : KeyOk key) : ∃ rounds rk, setKey c false key = .ok (rounds, rk) ∧
    ∀ (mask : Option (List Byte)) (b : List Byte), dec c rounds rk mask b = xorOut mask (Spec.invCipher key b) := by
  unfold KeyOk at hk
  unfold setKey
  rw [if_pos hk]
  simp only []
  rw [schedule_all hk]
  refine ⟨_, _, rfl, fun mask b => ?_⟩
  obtain ⟨n, hn⟩ : ∃ n, Spec.rounds key = 2 * n + 4 := ⟨(Spec.rounds key - 4) / 2, by unfold Spec.rounds; rcases hk with h | h | h <;> omega⟩
  have hm : Spec.rounds key = 2 * (n + 2) := by omega
  refine dec_spec c key b mask hn _ ?_ ?_ ?_
  · intro j hj
    have := revKey_eq c hm (by omega) (fun i => (M key (4 * (Spec.rounds key + 1))).getD i 0) 0 j (by omega) hj
    rw [if_pos rfl, Nat.mul_zero, Nat.zero_add] at this
    rw [← condReverse_kw, ← M_roundKey (Nat.le_refl _) hj]
    exact this
  · intro j hj
    have := revKey_eq c hm (by omega) (fun i => (M key (4 * (Spec.rounds key + 1))).getD i 0) (Spec.rounds key) j (by omega) hj
    rw [if_neg (by omega), if_pos rfl] at this
    have e := M_roundKey (key := key) (Nat.zero_le _) hj
    rw [Nat.mul_zero, Nat.zero_add] at e
    rw [← condReverse_kw, ← e]
    exact this
  · intro i j h1 h2 hj
    have := revKey_eq c hm (by omega) (fun i => (M key (4 * (Spec.rounds key + 1))).getD i 0) i j (by omega) hj
    rw [if_neg (by omega), if_neg (by omega)] at this
    rw [← inverseMixColumn_kw c, ← M_roundKey (by omega) hj]
    exact this

/-- The two functions of FIPS 197 undo each other. -/
theorem fips197_inverse (key : List Byte) {b : List Byte} (hb : b.length = 16) :
    Spec.invCipher key (Spec.cipher key b) = b ∧ Spec.cipher key (Spec.invCipher key b) = b ∧
      (Spec.cipher key b).length = 16 ∧ (Spec.invCipher key b).length = 16 :=
  ⟨inv_cipher hb, cipher_inv hb, by rw [Spec.cipher]; exact add_length _ _, by rw [Spec.invCipher]; exact add_length _ _⟩

/-- The S-box is the one of the standard: the multiplicative inverse, then the affine map. -/
theorem sbox_is_inverse (x : Byte) (h : x ≠ 0) : Spec.mul x (Spec.inv x) = 1 := inv_mul x h

/-- An encryption and a decryption object with the same key, of whatever builds. -/
def keyed (ce cd : Cfg) (key : List Byte) : Except Err Keyed := do
  let (re, ke) ← setKey ce true key
  let (rd, kd) ← setKey cd false key
  .ok ⟨16, enc ce re ke none, dec cd rd kd none⟩

/-- Decryption undoes encryption and the other way round, for every key `SetKey` accepts and every block, even across builds. -/
theorem rijndael_inverse {ce cd : Cfg} {key : List Byte} {k : Keyed} (h : keyed ce cd key = .ok k) : k.Inverse := by
  by_cases hk : KeyOk key
  · obtain ⟨re, ke, e1, e2⟩ := encryption_is_fips197 ce hk
    obtain ⟨rd, kd, d1, d2⟩ := decryption_is_fips197 cd hk
    unfold keyed at h
    rw [e1, d1] at h
    cases h
    intro b hb
    have := fips197_inverse key hb
    simp only [e2, d2, xorOut]
    exact ⟨this.2.2.1, this.1, this.2.2.2, this.2.1⟩
  · unfold keyed at h
    rw [setKey_refuses ce true hk] at h
    cases h

/-- Every key of the right length is accepted. -/
theorem keyed_ok (ce cd : Cfg) {key : List Byte} (hk : KeyOk key) : ∃ k, keyed ce cd key = .ok k := by
  obtain ⟨re, ke, e1, _⟩ := encryption_is_fips197 ce hk
  obtain ⟨rd, kd, d1, _⟩ := decryption_is_fips197 cd hk
  unfold keyed
  rw [e1, d1]
  exact ⟨_, rfl⟩

/-! ## Known answers: FIPS 197, appendix C -/

def nums (n : Nat) : List Byte := (List.range n).map (BitVec.ofNat 8)
def plain : List Byte := (List.range 16).map fun i => BitVec.ofNat 8 (17 * i)

example : Spec.cipher (nums 16) plain =
    [0x69, 0xc4, 0xe0, 0xd8, 0x6a, 0x7b, 0x04, 0x30, 0xd8, 0xcd, 0xb7, 0x80, 0x70, 0xb4, 0xc5, 0x5a] := by decide +kernel

/-- The model gives the known answer by itself. -/
example : (setKey ⟨false, false⟩ true (nums 16)).map (fun k => enc ⟨false, false⟩ k.1 k.2 none plain) =
    .ok [0x69, 0xc4, 0xe0, 0xd8, 0x6a, 0x7b, 0x04, 0x30, 0xd8, 0xcd, 0xb7, 0x80, 0x70, 0xb4, 0xc5, 0x5a] := by decide +kernel

example : KeyOk (nums 24) ∧ KeyOk (nums 32) := by unfold KeyOk; decide

end Verif.Aes
