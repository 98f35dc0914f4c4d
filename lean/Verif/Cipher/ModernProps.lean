import Verif.Cipher.ModernProofs
import Verif.Cipher.Props

/-!
# C29, continued: SM4, SEED, Twofish, MARS, Camellia

As in `Props.lean`: whenever `SetKey` accepts a key, the two directions undo each other on every block.
-/
namespace Verif.Cipher

theorem sm4_inverse {key : List Byte} {c : Keyed} (h : Sm4.setKey key = .ok c) : c.Inverse := by
  unfold Sm4.setKey at h
  split at h
  · cases h
  · cases h; exact ofWords_inverse _ (by decide) (Sm4.cancel _).pair4

example : encrypts (Sm4.setKey (hex 16 0x0123456789abcdeffedcba9876543210)) (hex 16 0x0123456789abcdeffedcba9876543210) (hex 16 0x681edf34d206965e86b3e94f536e4246) = true := by decide +kernel

theorem seed_inverse {key : List Byte} {c : Keyed} (h : Seed.setKey key = .ok c) : c.Inverse := by
  unfold Seed.setKey at h
  split at h
  · cases h
  · cases h; exact ofWords_inverse _ (by decide) (Seed.cancel key).pair4

example : encrypts (Seed.setKey (hex 16 0)) (hex 16 0x000102030405060708090a0b0c0d0e0f) (hex 16 0x5EBAC6E0054E166819AFF1CC6D346CDB) = true := by decide +kernel

theorem twofish_inverse {key : List Byte} {c : Keyed} (h : Twofish.setKey key = .ok c) : c.Inverse := by
  unfold Twofish.setKey at h
  split at h
  · cases h
  · cases h; exact ofWords_inverse _ (by decide) (Twofish.cancel _ _).pair4

example : encrypts (Twofish.setKey (hex 16 0)) (hex 16 0) (hex 16 0x9F589F5CF6122C32B6BFEC2F2AE8C35A) = true := by decide +kernel

theorem mars_inverse {key : List Byte} {c : Keyed} (h : Mars.setKey key = .ok c) : c.Inverse := by
  unfold Mars.setKey at h
  split at h
  · cases h
  · cases h; exact ofWords_inverse _ (by decide) (Mars.cancel _).pair4

example : encrypts (Mars.setKey (hex 16 0)) (hex 16 0) (hex 16 0xDCC07B8DFB0738D6E30A22DFCF27E886) = true := by decide +kernel

theorem camellia_inverse {key : List Byte} {c : Keyed} (h : Camellia.setKey key = .ok c) : c.Inverse := by
  unfold Camellia.setKey at h
  by_cases hk : key.length ≠ 16 ∧ key.length ≠ 24 ∧ key.length ≠ 32
  · rw [if_pos hk] at h; cases h
  · rw [if_neg hk] at h
    cases h
    obtain ⟨h1, h2⟩ := Camellia.schedule_reverse key (by omega)
    have hr : 8 * Camellia.rounds key + 2 = 8 * (Camellia.rounds key - 1) + 10 := by
      have : 1 ≤ Camellia.rounds key := by unfold Camellia.rounds; split <;> decide
      omega
    rw [h1]
    exact ofWords_inverse _ (by decide) (Camellia.cancel _ _ (h2.trans hr)).pair4

/-- The round with a small table and the one with large tables are the same function. -/
theorem camellia_slow_round (lh ll kh kl : W32) : Camellia.slow lh ll kh kl = Camellia.fast lh ll kh kl := by rw [Camellia.slow_eq]

example : encrypts (Camellia.setKey (hex 16 0x0123456789ABCDEFFEDCBA9876543210)) (hex 16 0x0123456789ABCDEFFEDCBA9876543210) (hex 16 0x67673138549669730857065648EABE43) = true := by decide +kernel
example : encrypts (Camellia.setKey (hex 32 0x0123456789abcdeffedcba987654321000112233445566778899aabbccddeeff)) (hex 16 0x0123456789ABCDEFFEDCBA9876543210) (hex 16 0x9acc237dff16d76c20ef7c919e3a7509) = true := by
  decide +kernel

end Verif.Cipher
