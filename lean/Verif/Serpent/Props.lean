import Verif.Serpent.Schedule
import Verif.Cipher.ClassicProps

/-!
# C29 and C67: Serpent

C29: whenever `SetKey` accepts a key, the two directions undo each other on every block.

C67: the object computes the cipher of the Serpent submission (`Spec.lean`), whose S-boxes are tables and whose state is not permuted between rounds.
The variable `e` of the code, which is never initialised, does not matter.
-/
namespace Verif.Serpent

open Verif.Cipher

theorem serpent_inverse {e : W32} {key : List Byte} {c : Keyed} (h : setKey e key = .ok c) : c.Inverse := by
  unfold setKey at h
  split at h
  · cases h
  · cases h; exact ofWords_inverse _ (by decide) (words_pair _ _)

/-- Keys of 16, 24 and 32 bytes are accepted and no others; the object encrypts as the standard says, and decrypts what the standard encrypts. -/
theorem serpent_is_serpent (e : W32) (key : List Byte) :
    (key.length = 16 ∨ key.length = 24 ∨ key.length = 32 → ∃ c, setKey e key = .ok c ∧ c.blockSize = 16 ∧
      ∀ b : List Byte, b.length = 16 → c.enc b = Spec.encrypt key b ∧ c.dec (Spec.encrypt key b) = b) ∧
    (¬(key.length = 16 ∨ key.length = 24 ∨ key.length = 32) → setKey e key = .error .invalidArgument) := by
  refine ⟨fun h => ?_, fun h => ?_⟩
  · have hs : setKey e key = .ok (ofWords .little 4 4 (encWords (schedule key) e) (decWords (schedule key))) := by
      unfold setKey
      rw [if_neg (by omega)]
    refine ⟨_, hs, rfl, fun b hb => ?_⟩
    have h1 : (ofWords .little 4 4 (encWords (schedule key) e) (decWords (schedule key))).enc b = Spec.encrypt key b := enc_spec e key h b hb
    refine ⟨h1, ?_⟩
    rw [← h1]
    exact ((serpent_inverse hs) b hb).2.1
  · unfold setKey
    rw [if_pos (by omega)]

/-- What the uninitialised variable holds makes no difference to a block. -/
theorem serpent_uninitialised (e e' : W32) {key : List Byte} {c c' : Keyed} (h : setKey e key = .ok c) (h' : setKey e' key = .ok c') :
    ∀ b : List Byte, b.length = 16 → c.enc b = c'.enc b ∧ c.dec b = c'.dec b := by
  unfold setKey at h h'
  by_cases hk : key.length ≠ 16 ∧ key.length ≠ 24 ∧ key.length ≠ 32
  · rw [if_pos hk] at h; cases h
  · rw [if_neg hk] at h h'
    cases h
    cases h'
    intro b hb
    have hk' : key.length = 16 ∨ key.length = 24 ∨ key.length = 32 := by omega
    exact ⟨(enc_spec e key hk' b hb).trans (enc_spec e' key hk' b hb).symm, rfl⟩

/-- TestData/serpentv.dat: lines 1 and 3. -/
example : ((setKey 0 (hex 16 0)).toOption.map fun c => c.enc (hex 16 0xd29d576fcea3a3a7ed9099f29273d78e)) = some (hex 16 0xb2288b968ae8b08648d1ce9606fd992d) := by decide +kernel
example : Spec.encrypt (hex 16 0) (hex 16 0xd29d576fcea3a3a7ed9099f29273d78e) = hex 16 0xb2288b968ae8b08648d1ce9606fd992d := by decide +kernel
example : ((setKey 7 (hex 16 0xffeeddccbbaa99887766554433221100)).toOption.map fun c => c.dec (hex 16 0xd5baa00a4bb9d8a7c981c8dc90d89d92)) = some (hex 16 0x1032547698badcfeefcdab8967452301) := by decide +kernel
example : setKey 0 (hex 15 0) = .error .invalidArgument := rfl

end Verif.Serpent
