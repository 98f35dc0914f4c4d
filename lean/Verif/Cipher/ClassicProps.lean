import Verif.Cipher.ClassicProofs
import Verif.Cipher.IdeaProofs
import Verif.Cipher.Props

/-!
# C29, continued: DES, Triple-DES, DES-XEX3, Blowfish, CAST-128, CAST-256, Skipjack, SHACAL-2, 3-Way, IDEA

As in `Props.lean`: whenever `SetKey` accepts a key, the two directions undo each other on every block.  C59: parity bits of DES keys.
-/
namespace Verif.Cipher

/-! ## DES and what is made of it -/

theorem des_inverse {key : List Byte} {c : Keyed} (h : Des.setKey key = .ok c) : c.Inverse := by
  unfold Des.setKey at h
  split at h
  · cases h
  · cases h; exact ofWords_inverse _ (by decide) (Des.process_pair _)

theorem des_ede2_inverse {key : List Byte} {c : Keyed} (h : Des.setKeyEde2 key = .ok c) : c.Inverse := by
  unfold Des.setKeyEde2 at h
  split at h
  · cases h
  · cases h; exact ofWords_inverse _ (by decide) (Des.process3_pair _ _ _ true)

theorem des_ede3_inverse {key : List Byte} {c : Keyed} (h : Des.setKeyEde3 key = .ok c) : c.Inverse := by
  unfold Des.setKeyEde3 at h
  split at h
  · cases h
  · cases h; exact ofWords_inverse _ (by decide) (Des.process3_pair _ _ _ true)

theorem des_xex3_inverse {key : List Byte} {c : Keyed} (h : Des.setKeyXex3 key = .ok c) : c.Inverse := by
  unfold Des.setKeyXex3 at h
  by_cases hk : key.length ≠ 24
  · rw [if_pos hk] at h; cases h
  rw [if_neg hk] at h
  cases h
  have inv := ofWords_inverse .big (by decide : 0 < 4) (Des.process_pair ((key.drop 8).take 8))
  have l0 : ((key.drop 0).take 8).length = 8 := by rw [List.length_take, List.length_drop]; omega
  have l2 : ((key.drop 16).take 8).length = 8 := by rw [List.length_take, List.length_drop]; omega
  generalize hx0 : (key.drop 0).take 8 = x0 at l0
  generalize hx2 : (key.drop 16).take 8 = x2 at l2
  intro b hb
  have hb : b.length = 8 := hb
  have lx : ∀ a c : List Byte, a.length = 8 → c.length = 8 → (xorBytes a c).length = 8 := by
    intro a c h1 h2; rw [xorBytes_length, h1, h2]; rfl
  have cx : ∀ a c : List Byte, a.length = 8 → c.length = 8 → xorBytes (xorBytes a c) c = a := by
    intro a c h1 h2; exact xorBytes_cancel a c (by omega)
  obtain ⟨e1, e2, -, -⟩ := inv (xorBytes b x0) (lx _ _ hb l0)
  obtain ⟨-, -, d1, d2⟩ := inv (xorBytes b x2) (lx _ _ hb l2)
  simp only [ofWords] at e1 e2 d1 d2
  simp only [Des.processXex, if_true, Bool.false_eq_true, if_false, hx0, hx2]
  refine ⟨lx _ _ e1 l2, ?_, lx _ _ d1 l0, ?_⟩
  · rw [cx _ _ e1 l2, e2, cx _ _ hb l0]
  · rw [cx _ _ d1 l0, d2, cx _ _ hb l2]

/-! ## Blowfish and CAST -/

theorem blowfish_inverse {key : List Byte} {c : Keyed} (h : Blowfish.setKey key = .ok c) : c.Inverse := by
  unfold Blowfish.setKey at h
  by_cases hk : key.length < 4 ∨ 56 < key.length
  · rw [if_pos hk] at h; cases h
  rw [if_neg hk] at h
  have hl : (Blowfish.makeP (blowfishS.map (BitVec.ofNat 32)) (Blowfish.addKey key)).length = 18 := by
    rw [Blowfish.makeP_length, Blowfish.addKey, List.length_map, List.length_range]
  simp only [Except.ok.injEq] at h
  rw [← h]
  exact ofWords_inverse _ (by decide) (Blowfish.cryptBlock_pair hl)

theorem cast128_inverse {key : List Byte} {c : Keyed} (h : Cast.setKey128 key = .ok c) : c.Inverse := by
  unfold Cast.setKey128 at h
  split at h
  · cases h
  · cases h; exact ofWords_inverse _ (by decide) (Cast.enc128_pair _ _)

theorem cast256_inverse {key : List Byte} {c : Keyed} (h : Cast.setKey256 key = .ok c) : c.Inverse := by
  unfold Cast.setKey256 at h
  split at h
  · cases h
  · cases h; exact ofWords_inverse _ (by decide) (Cast.process256_pair (Cast.schedule256_length 12 _ _))

/-! ## Skipjack, SHACAL-2, IDEA -/

theorem skipjack_inverse {key : List Byte} {c : Keyed} (h : Skipjack.setKey key = .ok c) : c.Inverse := by
  unfold Skipjack.setKey at h
  split at h
  · cases h
  · cases h; exact ofWords_inverse _ (by decide) (Skipjack.skipjack_pair _)

theorem shacal2_inverse {key : List Byte} {c : Keyed} (h : Shacal2.setKey key = .ok c) : c.Inverse := by
  unfold Shacal2.setKey at h
  split at h
  · cases h
  · cases h; exact ofWords_inverse _ (by decide) (Shacal2.enc_pair _)

/-- For any type of words with at least 16 bits. -/
theorem idea_inverse {w : Nat} (hw : 16 ≤ w) {key : List Byte} {c : Keyed} (h : Idea.setKey w key = .ok c) : c.Inverse := by
  unfold Idea.setKey at h
  split at h
  · cases h
  · cases h; exact ofWords_inverse _ (by decide) (Idea.process_pair hw (Idea.enKey_small hw key))

/-- IDEA's multiplication: modulo 65537, with 0 for 65536. -/
theorem idea_multiplication (a b : BitVec 16) :
    let n (x : BitVec 16) : Nat := if x.toNat = 0 then 65536 else x.toNat
    n (Idea.mul a b) = n a * n b % 65537 := Idea.phi_mul a b

/-- And the result does not depend on the width of the variables. -/
theorem idea_width_independent {w : Nat} (hw : 16 ≤ w) (key : List Byte) {c c' : Keyed} (h : Idea.setKey w key = .ok c) (h' : Idea.setKey 16 key = .ok c')
    (b : List Byte) : c.enc b = c'.enc b := by
  unfold Idea.setKey at h h'
  split at h
  · cases h
  next hk =>
    rw [if_neg hk] at h'
    cases h; cases h'
    simp only [ofWords]
    rw [Idea.process_lo hw (Idea.small_wd (Idea.enKey_small hw key)), Idea.process_lo (Nat.le_refl 16) (Idea.small_wd (Idea.enKey_small (Nat.le_refl 16) key))]
    rw [Idea.enKey_lo hw key]

/-! ## 3-Way -/

/-- Only with 11 rounds, which is the default. -/
theorem threeway_inverse_partial {key : List Byte} {c : Keyed} (h : ThreeWay.setKey key = .ok c) : c.Inverse := by
  unfold ThreeWay.setKey at h
  by_cases hk : key.length ≠ 12
  · rw [if_pos hk] at h; cases h
  rw [if_neg hk] at h
  cases h
  exact ThreeWay.inverse _

/-- With any other number of rounds that `SetKey` accepts, decryption starts from the constant for 11 rounds: here 10 and 12. -/
theorem threeway_other_rounds_not_invertible :
    (∃ c, ThreeWay.setKey (List.replicate 12 0) 10 = .ok c ∧ ¬ c.Inverse) ∧ (∃ c, ThreeWay.setKey (List.replicate 12 0) 12 = .ok c ∧ ¬ c.Inverse) := by
  refine ⟨⟨⟨12, ThreeWay.enc (ThreeWay.key3 (List.replicate 12 0)) 10, ThreeWay.dec (ThreeWay.key3 (List.replicate 12 0)) 10⟩, rfl, fun h => ?_⟩,
    ⟨⟨12, ThreeWay.enc (ThreeWay.key3 (List.replicate 12 0)) 12, ThreeWay.dec (ThreeWay.key3 (List.replicate 12 0)) 12⟩, rfl, fun h => ?_⟩⟩
  · have := (h (List.replicate 12 0) rfl).2.1
    exact absurd this (by decide +kernel)
  · have := (h (List.replicate 12 0) rfl).2.1
    exact absurd this (by decide +kernel)

/-! ## Key lengths -/

/-- Whether a key was accepted. -/
def accepted (c : Except Err Keyed) : Bool :=
  match c with
  | .ok _ => true
  | .error _ => false

theorem classic_key_lengths (key : List Byte) :
    (accepted (Des.setKey key) = true ↔ key.length = 8) ∧ (accepted (Des.setKeyEde2 key) = true ↔ key.length = 16) ∧
    (accepted (Des.setKeyEde3 key) = true ↔ key.length = 24) ∧ (accepted (Des.setKeyXex3 key) = true ↔ key.length = 24) ∧
    (accepted (Blowfish.setKey key) = true ↔ 4 ≤ key.length ∧ key.length ≤ 56) ∧ (accepted (Cast.setKey128 key) = true ↔ 5 ≤ key.length ∧ key.length ≤ 16) ∧
    (accepted (Cast.setKey256 key) = true ↔ key.length ∈ [16, 20, 24, 28, 32]) ∧ (accepted (Skipjack.setKey key) = true ↔ key.length = 10) ∧
    (accepted (Shacal2.setKey key) = true ↔ 16 ≤ key.length ∧ key.length ≤ 64) ∧ (accepted (Idea.setKey 64 key) = true ↔ key.length = 16) := by
  simp only [List.mem_cons, List.not_mem_nil, or_false]
  refine ⟨?_, ?_, ?_, ?_, ?_, ?_, ?_, ?_, ?_, ?_⟩
  · unfold Des.setKey; split <;> simp_all [accepted]
  · unfold Des.setKeyEde2; split <;> simp_all [accepted]
  · unfold Des.setKeyEde3; split <;> simp_all [accepted]
  · unfold Des.setKeyXex3; split <;> simp_all [accepted]
  · unfold Blowfish.setKey; split <;> simp only [accepted, Bool.false_eq_true, false_iff, true_iff] <;> omega
  · unfold Cast.setKey128; split <;> simp only [accepted, Bool.false_eq_true, false_iff, true_iff] <;> omega
  · unfold Cast.setKey256; split <;> simp only [accepted, Bool.false_eq_true, false_iff, true_iff] <;> omega
  · unfold Skipjack.setKey; split <;> simp_all [accepted]
  · unfold Shacal2.setKey; split <;> simp only [accepted, Bool.false_eq_true, false_iff, true_iff] <;> omega
  · unfold Idea.setKey; split <;> simp_all [accepted]

/-! ## Known answers (TestData and TestVectors of the library, FIPS 46, RFC 2144, RFC 2612) -/

example : encrypts (Des.setKey (hex 8 0x133457799BBCDFF1)) (hex 8 0x0123456789ABCDEF) (hex 8 0x85E813540F0AB405) = true := by decide +kernel
example : encrypts (Cast.setKey128 (hex 16 0x0123456712345678234567893456789A)) (hex 8 0x0123456789ABCDEF) (hex 8 0x238B4FE5847E44B2) = true := by decide +kernel
example : encrypts (Cast.setKey128 (hex 10 0x01234567123456782345)) (hex 8 0x0123456789ABCDEF) (hex 8 0xEB6A711A2C02271B) = true := by decide +kernel
example : encrypts (Cast.setKey128 (hex 5 0x0123456712)) (hex 8 0x0123456789ABCDEF) (hex 8 0x7AC816D16E9B302E) = true := by decide +kernel
example : encrypts (Cast.setKey256 (hex 16 0x2342bb9efa38542c0af75647f29f615d)) (hex 16 0) (hex 16 0xc842a08972b43d20836c91d1b7530f6b) = true := by decide +kernel
example : encrypts (Skipjack.setKey (hex 10 0x11223344556677889900)) (hex 8 0xaabbccdd00112233) (hex 8 0x00d3127ae2ca8725) = true := by decide +kernel
example : encrypts (ThreeWay.setKey (hex 12 0)) (hex 12 0x000000010000000100000001) (hex 12 0x4059c76e83ae9dc4ad21ecf7) = true := by decide +kernel
example : encrypts (Idea.setKey 64 (hex 16 0x00010002000300040005000600070008)) (hex 8 0x0000000100020003) (hex 8 0x11FBED2B01986DE5) = true := by decide +kernel

/-! ## C59: parity of DES keys -/

/-- The number of ones in a byte. -/
def ones (b : Byte) : Nat := ((List.range 8).filter fun i => b.getLsbD i).length

/-- `CheckKeyParityBits`: every byte has an odd number of ones. -/
theorem des_check_parity (key : List Byte) : Des.checkKey key = true ↔ ∀ b ∈ key, ones b % 2 = 1 := by
  unfold Des.checkKey
  rw [List.all_eq_true]
  have : ∀ b : Byte, Des.checkParity b = true ↔ ones b % 2 = 1 := by decide +kernel
  exact ⟨fun h b hb => (this b).mp (h b hb), fun h b hb => (this b).mpr (h b hb)⟩

/-- `CorrectKeyParityBits`: afterwards the check succeeds; only the low bits of bytes change, and none in a key with parity; the cipher is the same. -/
theorem des_correct_parity (key : List Byte) :
    Des.checkKey (Des.correctKey key) = true ∧ (Des.correctKey key).length = key.length ∧ (Des.checkKey key = true → Des.correctKey key = key) ∧
    (∀ (i : Nat) (b : Byte), key[i]? = some b → ∃ b', (Des.correctKey key)[i]? = some b' ∧ b' >>> 1 = b >>> 1) ∧
    Des.setKey (Des.correctKey key) = Des.setKey key := by
  have h1 : ∀ b : Byte, Des.checkParity (if Des.checkParity b = true then b else b ^^^ 1) = true := by decide +kernel
  have h2 : ∀ b : Byte, (if Des.checkParity b = true then b else b ^^^ 1) >>> 1 = b >>> 1 := by decide +kernel
  have h3 : ∀ b : Byte, ∀ i, i < 7 → (if Des.checkParity b = true then b else b ^^^ 1).getLsbD (7 - i) = b.getLsbD (7 - i) := by decide +kernel
  refine ⟨?_, by simp [Des.correctKey], ?_, ?_, ?_⟩
  · unfold Des.checkKey Des.correctKey
    rw [List.all_eq_true]
    intro x hx
    obtain ⟨b, _, rfl⟩ := List.mem_map.mp hx
    exact h1 b
  · intro h
    unfold Des.checkKey at h
    rw [List.all_eq_true] at h
    unfold Des.correctKey
    rw [List.map_congr_left (g := id) (fun b hb => by rw [if_pos (h b hb)]; rfl), List.map_id]
  · intro i b hb
    refine ⟨_, ?_, h2 b⟩
    unfold Des.correctKey
    rw [List.getElem?_map, hb]; rfl
  · have hp : Des.pc1m (Des.correctKey key) = Des.pc1m key := by
      unfold Des.pc1m
      apply List.map_congr_left
      intro v hv
      have hv7 := (by decide : ∀ v ∈ Des.pc1, (v - 1) % 8 < 7) v hv
      generalize (v - 1) / 8 = q
      unfold Des.correctKey
      rw [List.getD_eq_getElem?_getD, List.getD_eq_getElem?_getD, List.getElem?_map]
      cases key[q]? with
      | none => rfl
      | some b => exact h3 b _ hv7
    unfold Des.setKey Des.rawSetKey
    rw [hp]
    simp [Des.correctKey]

example : Des.correctKey (hex 8 0x123456789abcdef0) = hex 8 0x133457799bbcdff1 := by decide +kernel

end Verif.Cipher
