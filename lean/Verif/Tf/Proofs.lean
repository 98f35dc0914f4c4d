import Verif.Tf.Model
import Verif.Rsa.Props
import Verif.Dl.Proofs
import Verif.PkPad.Props

/-! # Proofs about schemes from trapdoor functions -/
namespace Verif.Tf
open Verif.Dl Verif.Rsa Verif.PkPad Verif.Hash Verif.Misc

theorem bound_pow (b : Int) (hb : 0 < b) : (2 : Int) ^ (bitCount b - 1) ≤ b := by
  obtain ⟨k, rfl⟩ := Int.eq_ofNat_of_zero_le (le_of_lt hb)
  have hk : k ≠ 0 := by have : (0 : Int) < k := hb; omega
  have := bitLen_pos_le hk
  unfold bitCount
  rw [Int.toNat_natCast]
  exact_mod_cast this

theorem byteCount_le_of (x : Int) (n : Nat) (h0 : 0 ≤ x) (h : x < 256 ^ n) : byteCount x ≤ n := by
  obtain ⟨k, rfl⟩ := Int.eq_ofNat_of_zero_le h0
  unfold byteCount
  rw [Int.toNat_natCast]
  exact byteLen_le (by exact_mod_cast h)

theorem bitCount_le_of (x : Int) (n : Nat) (h0 : 0 ≤ x) : bitCount x ≤ n ↔ x < 2 ^ n := by
  obtain ⟨k, rfl⟩ := Int.eq_ofNat_of_zero_le h0
  unfold bitCount
  rw [Int.toNat_natCast]
  constructor
  · intro h
    have h1 := bitLen_lt k
    have h2 : 2 ^ bitLen k ≤ 2 ^ n := Nat.pow_le_pow_right (by decide) h
    have : k < 2 ^ n := by omega
    exact_mod_cast this
  · intro h
    exact bitLen_le (by exact_mod_cast h)

theorem decode_lt (l : List Byte) : decodeInt l < 256 ^ l.length := by
  unfold decodeInt
  exact_mod_cast beVal_lt l

theorem encode_decode (l : List Byte) (n : Nat) (h : l.length = n) : encodeInt (decodeInt l) n = l := by
  unfold encodeInt decodeInt
  rw [Int.toNat_natCast, ← h, beBytes_beVal]

/-- A block whose first byte has no bits beyond the bit length stands for a number below `2 ^ bits`, and conversely. -/
theorem top_iff (l : List Byte) (bits : Nat) (h : l.length = (bits + 7) / 8) : Spec.clearTop bits l = l ↔ decodeInt l < 2 ^ bits := by
  cases l with
  | nil =>
    simp only [List.length_nil] at h
    have : bits = 0 := by omega
    subst this
    exact ⟨fun _ => by decide, fun _ => rfl⟩
  | cons b r =>
    simp only [List.length_cons] at h
    have hr := beVal_lt r
    unfold decodeInt
    rw [beVal_cons]
    simp only [Spec.clearTop]
    by_cases h8 : bits % 8 = 0
    · rw [if_pos h8]
      constructor
      · intro _
        have e : (2 : Int) ^ bits = 256 * 256 ^ r.length := by
          rw [show bits = 8 + 8 * r.length by omega, pow_add, pow_mul]; norm_num
        rw [e]
        have hb := b.isLt
        have : b.toNat * 256 ^ r.length + beVal r < 256 * 256 ^ r.length := by nlinarith
        exact_mod_cast this
      · intro _; simp
    · rw [if_neg h8]
      have e : (2 : Nat) ^ bits = 2 ^ (bits % 8) * 256 ^ r.length := by
        rw [show (256 : Nat) = 2 ^ 8 from rfl, ← pow_mul, ← pow_add]; congr 1; omega
      have key : b.toNat < 2 ^ (bits % 8) ↔ b.toNat * 256 ^ r.length + beVal r < 2 ^ bits := by
        rw [e]
        constructor
        · intro hb; nlinarith
        · intro hb
          by_contra hc
          have : 2 ^ (bits % 8) * 256 ^ r.length ≤ b.toNat * 256 ^ r.length := Nat.mul_le_mul_right _ (by omega)
          omega
      have cast : ((b.toNat * 256 ^ r.length + beVal r : Nat) : Int) < 2 ^ bits ↔ b.toNat * 256 ^ r.length + beVal r < 2 ^ bits := by
        constructor <;> intro hh <;> exact_mod_cast hh
      rw [cast, ← key]
      constructor
      · intro hh
        injection hh with hh _
        rw [← hh, BitVec.toNat_ofNat]
        exact Nat.lt_of_le_of_lt (Nat.mod_le _ _) (Nat.mod_lt _ (Nat.two_pow_pos _))
      · intro hh
        rw [Nat.mod_eq_of_lt hh]; simp

/-- A block with the leading zero. -/
theorem lead_top (bits : Nat) (r : List Byte) (h : (Spec.lead bits ++ r).length = (bits + 7) / 8) : decodeInt (Spec.lead bits ++ r) < 2 ^ bits := by
  rw [← top_iff _ _ h]
  unfold Spec.lead
  by_cases h8 : bits % 8 = 0
  · cases r with
    | nil => rw [if_pos h8]; rfl
    | cons b r => rw [if_pos h8]; simp only [List.nil_append, Spec.clearTop, h8, if_true]; simp
  · rw [if_neg h8]
    simp [Spec.clearTop]

theorem bytes_pow (bits : Nat) : (2 : Int) ^ bits ≤ 256 ^ bitsToBytes bits := by
  have : (2 : Int) ^ bits ≤ 2 ^ (8 * bitsToBytes bits) := pow_le_pow_right₀ (by decide) (by unfold bitsToBytes; omega)
  rwa [pow_mul] at this

/-- What the schemes need of a trapdoor function. `A` are the representatives that can be signed. -/
structure Fn.Inverts (F : Fn) : Prop where
  pre : 0 < F.preimageBound
  img : 0 < F.imageBound
  inv : ∀ x, 0 ≤ x → x < F.preimageBound → ∃ y, F.apply x = .ok y ∧ 0 ≤ y ∧ y < F.imageBound ∧ F.inverse y = .ok x

structure Fn.Signs (F : Fn) (A : Int → Prop) : Prop where
  pre : 0 < F.preimageBound
  img : 0 < F.imageBound
  inv : ∀ c, A c → 0 ≤ c → c < F.imageBound → ∃ y, F.inverse c = .ok y ∧ 0 ≤ y ∧ y < F.preimageBound ∧ F.apply y = .ok c

theorem encrypt_decrypt {F : Fn} (I : F.Inverts) (maxLen : Nat → Nat) (pad : List Byte → Nat → Except Err (List Byte)) (unpad : List Byte → Nat → Except Err (Option (List Byte)))
    (m block : List Byte) (hm : m.length ≤ maxLen (paddedBits F)) (hpad : pad m (paddedBits F) = .ok block) (hlen : block.length = bitsToBytes (paddedBits F))
    (htop : decodeInt block < 2 ^ paddedBits F) (hun : unpad block (paddedBits F) = .ok (some m)) :
    ∃ ct, encrypt F maxLen pad m = .ok ct ∧ ct.length = cipherLen F ∧ decrypt F unpad ct = .ok (some m) := by
  have h0 := decodeInt_nonneg block
  obtain ⟨y, hy, y0, yi, hinv⟩ := I.inv (decodeInt block) h0 (lt_of_lt_of_le htop (bound_pow _ I.pre))
  refine ⟨encodeInt y (cipherLen F), ?_, encodeInt_length _ _, ?_⟩
  · unfold encrypt
    rw [if_neg (by omega), hpad]
    simp only [bind, Except.bind, hy]
  · unfold decrypt
    rw [if_neg (by rw [encodeInt_length]; simp), decode_encodeInt y (cipherLen F) y0 (lt_byteCount y (F.imageBound - 1) y0 (by omega))]
    simp only [bind, Except.bind, hinv]
    rw [if_neg, encode_decode _ _ hlen, hun]
    have := byteCount_le_of (decodeInt block) (bitsToBytes (paddedBits F)) h0 (by rw [← hlen]; exact decode_lt block)
    omega

theorem sign_verify {F : Fn} {A : Int → Prop} (I : F.Signs A) {α : Type} (minBits : Nat) (compute : Nat → Except Err (List Byte)) (check : List Byte → Nat → Except Err α)
    (rep : List Byte) (hmin : minBits ≤ repBits F) (hc : compute (repBits F) = .ok rep) (hlen : rep.length = bitsToBytes (repBits F)) (htop : decodeInt rep < 2 ^ repBits F) (hA : A (decodeInt rep)) :
    ∃ sig, sign F minBits compute = .ok sig ∧ sig.length = sigLen F ∧ verify F minBits check sig = check rep (repBits F) := by
  have h0 := decodeInt_nonneg rep
  obtain ⟨y, hy, y0, yi, hap⟩ := I.inv (decodeInt rep) hA h0 (lt_of_lt_of_le htop (bound_pow _ I.img))
  refine ⟨encodeInt y (sigLen F), ?_, encodeInt_length _ _, ?_⟩
  · unfold sign
    rw [if_neg (by omega), hc]
    simp only [bind, Except.bind, hy]
  · unfold verify inputSignature
    rw [if_neg (by omega), decode_encodeInt y (sigLen F) y0 (lt_byteCount y (F.preimageBound - 1) y0 (by omega))]
    simp only [bind, Except.bind, hap]
    rw [if_neg (by have := (bitCount_le_of _ (repBits F) h0).mpr htop; omega), encode_decode _ _ hlen]

/-- What the verifier checks: the number the public operation gives, in as many bytes as the representative has, or zeros if it has too many bits. -/
theorem verify_eq {F : Fn} {α : Type} (minBits : Nat) (check : List Byte → Nat → Except Err α) (sig : List Byte) (x : Int) (hmin : minBits ≤ repBits F) (hx : F.apply (decodeInt sig) = .ok x) (h0 : 0 ≤ x) :
    ∃ rep : List Byte, rep.length = bitsToBytes (repBits F) ∧ Spec.clearTop (repBits F) rep = rep ∧ verify F minBits check sig = check rep (repBits F) ∧
      ((x < 2 ^ repBits F ∧ decodeInt rep = x) ∨ (2 ^ repBits F ≤ x ∧ decodeInt rep = 0)) := by
  unfold verify inputSignature
  rw [if_neg (by omega), hx]
  simp only [bind, Except.bind]
  by_cases hc : x < 2 ^ repBits F
  · have hb := (bitCount_le_of x (repBits F) h0).mpr hc
    rw [if_neg (by omega)]
    have hd : decodeInt (encodeInt x (bitsToBytes (repBits F))) = x := decode_encodeInt _ _ h0 (lt_of_lt_of_le hc (bytes_pow _))
    refine ⟨_, encodeInt_length _ _, ?_, rfl, .inl ⟨hc, hd⟩⟩
    rw [top_iff _ (repBits F) (encodeInt_length x (bitsToBytes (repBits F))), hd]; exact hc
  · have hb : ¬ bitCount x ≤ repBits F := fun h => hc ((bitCount_le_of x _ h0).mp h)
    rw [if_pos (by omega)]
    have hd : decodeInt (encodeInt 0 (bitsToBytes (repBits F))) = 0 := decode_encodeInt _ _ (le_refl _) (by positivity)
    refine ⟨_, encodeInt_length _ _, ?_, rfl, .inr ⟨by omega, hd⟩⟩
    rw [top_iff _ (repBits F) (encodeInt_length 0 (bitsToBytes (repBits F))), hd]; positivity

/-- A block with a byte that is not zero does not stand for zero. -/
theorem decode_pos (l : List Byte) (b : Byte) (hb : b ∈ l) (h : b ≠ 0) : 0 < decodeInt l := by
  have : 0 < beVal l := by
    induction l with
    | nil => simp at hb
    | cons a r ih =>
      rw [beVal_cons]
      rcases List.mem_cons.mp hb with rfl | hb
      · have h1 : 0 < b.toNat := by
          rcases Nat.eq_zero_or_pos b.toNat with h0 | h0
          · exact absurd (BitVec.eq_of_toNat_eq h0) h
          · exact h0
        have : 0 < b.toNat * 256 ^ r.length := Nat.mul_pos h1 (Nat.pow_pos (by decide))
        omega
      · have := ih hb
        omega
  unfold decodeInt
  exact_mod_cast this

theorem decode_inj (a b : List Byte) (hl : a.length = b.length) (h : decodeInt a = decodeInt b) : a = b := by
  rw [← encode_decode a b.length hl, h, encode_decode b _ rfl]

section
variable (k : Key) (p q : Nat) (hv : validate k 1 = true) (hp : k.p = p) (hq : k.q = q) (hpp : p.Prime) (hqp : q.Prime) (rs : List Int) (hr : ∃ r ∈ rs, Int.gcd r k.n = 1)
include hv

theorem key_pos : 1 < k.n ∧ validatePublic k = true := by
  have h1 : validatePublic k = true := by
    unfold validate at hv
    simp only [Bool.and_eq_true] at hv
    exact hv.1.1.1.1.1.1.1
  refine ⟨?_, h1⟩
  unfold validatePublic at h1
  simp only [Bool.and_eq_true, decide_eq_true_eq] at h1
  omega

include hp hq hpp hqp hr

theorem rsa_inverts : (rsa k rs).Inverts := by
  have hn := (key_pos k hv).1
  refine ⟨by show 0 < k.n; omega, by show 0 < k.n; omega, ?_⟩
  intro x h0 hx
  obtain ⟨y, h1, h2⟩ := decrypt_inverts_encrypt k p q hv hp hq hpp hqp rs hr x h0 hx
  have hy : y = powMod x k.e k.n := by
    unfold applyFunction at h1
    rw [(key_pos k hv).2] at h1
    injection h1 with h1
    exact h1.symm
  refine ⟨y, h1, ?_, ?_, h2⟩
  · rw [hy]; exact Int.emod_nonneg _ (by omega)
  · rw [hy]; exact Int.emod_lt_of_pos _ (by omega)

theorem rsa_signs : (rsa k rs).Signs (fun _ => True) := by
  have hn := (key_pos k hv).1
  refine ⟨by show 0 < k.n; omega, by show 0 < k.n; omega, ?_⟩
  intro c _ h0 hc
  obtain ⟨y, h1, h2, h3, h4⟩ := verify_inverts_sign k p q hv hp hq hpp hqp rs hr c h0 hc
  exact ⟨y, h1, h3, h4, h2⟩

theorem rsaIso_signs : (rsaIso k rs).Signs (fun c => c % 16 = 12) := by
  have hn := (key_pos k hv).1
  refine ⟨by show 0 < k.n / 2 + 1; omega, by show 0 < k.n; omega, ?_⟩
  intro c h12 h0 hc
  obtain ⟨y, h1, h2, h3, h4⟩ := iso_verify_inverts_sign k p q hv hp hq hpp hqp rs hr c (by omega) hc h12
  exact ⟨y, h1, h3, by show y < k.n / 2 + 1; omega, h2⟩
end

end Verif.Tf
