import Verif.Sha.Proofs
import Verif.IterHash.Props
import Verif.Hmac.Props

/-!
# SHA-1, SHA-224, SHA-256, SHA-384, SHA-512 and MD5 objects compute the standard hash functions

For every history of `Update`, in-place `Update`, `Restart` and `TruncatedFinal` calls, on machines of either byte order and
with data at any alignment, every digest produced is the one FIPS 180-4 or RFC 1321 defines.
-/
namespace Verif.Sha
open Verif.IterHash

theorem map_ofNat_toNat {w : Nat} (l : List (BitVec w)) : (l.map BitVec.toNat).map (BitVec.ofNat w) = l := by
  rw [List.map_map]
  conv => rhs; rw [← List.map_id l]
  apply List.map_congr_left
  intro x _
  simp

theorem flatMap_bytes {w : Nat} (o : ByteOrder) (k : Nat) (l : List (BitVec w)) : (l.map BitVec.toNat).flatMap (o.bytes k) = Spec.bytes o k l := by
  simp [Spec.bytes, List.flatMap_map]

/-- The padded message is a whole number of blocks. -/
theorem pad_length (P : Params) (ok : P.Ok) (m : List Byte) : (m ++ mdPadding P m.length).length % P.B = 0 := by
  have h1 := ok.room
  simp only [mdPadding, List.length_append, List.length_cons, List.length_replicate, ByteOrder.bytes_length]
  have e : m.length + ((P.B - (m.length + 1 + 2 * P.k) % P.B) % P.B + 1 + 2 * P.k) =
      (m.length + 1 + 2 * P.k) + (P.B - (m.length + 1 + 2 * P.k) % P.B) % P.B := by omega
  rw [e, Nat.add_mod, Nat.mod_mod]
  have hlt : (m.length + 1 + 2 * P.k) % P.B < P.B := Nat.mod_lt _ (by omega)
  generalize (m.length + 1 + 2 * P.k) % P.B = r at hlt ⊢
  by_cases hr : r = 0
  · subst hr; simp
  · rw [Nat.mod_eq_of_lt (a := P.B - r) (by omega), show r + (P.B - r) = P.B by omega, Nat.mod_self]

/-- The Merkle-Damgard digest of a compression function that agrees with one on named variables. -/
theorem digest_eq {w : Nat} {V : Type} (P : Params) (ok : P.Ok) (hB : P.B / P.k = 16) (f : List (BitVec w) → List (BitVec w) → List (BitVec w)) (hP : P.compress = onNat f)
    (list : V → List (BitVec w)) (g : V → List (BitVec w) → V) (hg : ∀ x M, M.length = 16 → f (list x) M = list (g x M)) (x : V)
    (hx : P.init = (list x).map BitVec.toNat) (m : List Byte) :
    digest P m = (Spec.bytes P.order P.k (list ((Spec.blocks P.order w P.k P.B (Spec.pad P.order P.B (2 * P.k) m)).foldl g x))).take P.digestSize := by
  have hpad : m ++ mdPadding P m.length = Spec.pad P.order P.B (2 * P.k) m := by simp [mdPadding, Spec.pad]
  have hlen := pad_length P ok m
  have hk := ok.kpos
  have hb : 0 < P.B := by have := ok.room; omega
  unfold digest
  rw [← flatMap_bytes]
  congr 2
  unfold fold
  rw [hx, hpad]
  rw [hpad] at hlen
  unfold Spec.blocks
  have key : ∀ (bs : List (List Byte)) (x : V), (∀ b ∈ bs, b.length = P.B) →
      bs.foldl (compressBlock P) ((list x).map BitVec.toNat) = (list ((bs.map fun b => (chunks P.k b).map fun y => BitVec.ofNat w (P.order.val y)).foldl g x)).map BitVec.toNat := by
    intro bs
    induction bs with
    | nil => intro x _; rfl
    | cons b bs ih =>
      intro x h
      rw [List.foldl_cons, List.map_cons, List.foldl_cons, ← ih _ fun b hb => h b (by simp [hb])]
      congr 1
      unfold compressBlock
      rw [hP]
      unfold onNat
      rw [map_ofNat_toNat, List.map_map]
      have hl := h b (by simp)
      rw [← hg x _ (by
        rw [List.length_map, chunks_length _ (by omega) _ (by rw [hl]; exact Nat.mod_eq_zero_of_dvd ok.div), hl, hB])]
      rfl
  exact key _ x (chunks_block_length _ hb _ hlen)

theorem ok256 (native : ByteOrder) : (sha256 native).Ok := ⟨(by decide : 1 ≤ 4), ⟨6, rfl, (by decide : 6 ≤ 8 * 4)⟩, ⟨16, rfl⟩, by show 2 * 4 < 64; decide, ⟨8, rfl⟩⟩
theorem ok224 (native : ByteOrder) : (sha224 native).Ok := ⟨(by decide : 1 ≤ 4), ⟨6, rfl, (by decide : 6 ≤ 8 * 4)⟩, ⟨16, rfl⟩, by show 2 * 4 < 64; decide, ⟨7, rfl⟩⟩
theorem ok512 (native : ByteOrder) : (sha512 native).Ok := ⟨(by decide : 1 ≤ 8), ⟨7, rfl, (by decide : 7 ≤ 8 * 8)⟩, ⟨16, rfl⟩, by show 2 * 8 < 128; decide, ⟨8, rfl⟩⟩
theorem ok384 (native : ByteOrder) : (sha384 native).Ok := ⟨(by decide : 1 ≤ 8), ⟨7, rfl, (by decide : 7 ≤ 8 * 8)⟩, ⟨16, rfl⟩, by show 2 * 8 < 128; decide, ⟨6, rfl⟩⟩
theorem ok1 (native : ByteOrder) : (sha1 native).Ok := ⟨(by decide : 1 ≤ 4), ⟨6, rfl, (by decide : 6 ≤ 8 * 4)⟩, ⟨16, rfl⟩, by show 2 * 4 < 64; decide, ⟨5, rfl⟩⟩
theorem ok5 (native : ByteOrder) : (md5 native).Ok := ⟨(by decide : 1 ≤ 4), ⟨6, rfl, (by decide : 6 ≤ 8 * 4)⟩, ⟨16, rfl⟩, by show 2 * 4 < 64; decide, ⟨4, rfl⟩⟩

theorem bytes_length (o : ByteOrder) (k : Nat) {w : Nat} (l : List (BitVec w)) : (Spec.bytes o k l).length = k * l.length := by
  induction l with
  | nil => rfl
  | cons x l ih =>
    simp only [Spec.bytes, List.flatMap_cons, List.length_append, ByteOrder.bytes_length, List.length_cons] at ih ⊢
    rw [ih, Nat.mul_succ, Nat.add_comm]

theorem digest256 (native : ByteOrder) (m : List Byte) : digest (sha256 native) m = Spec.SHA256 m := by
  rw [digest_eq (sha256 native) (ok256 native) (by show 64 / 4 = 16; decide) _ rfl Spec.Vars.list (Spec.compress Spec.v256) (fun x M hM => hashBlock_eq _ _ match256 M hM x) (.of 32 (Spec.squareRoots 32))
    (by show init256 = _; decide +kernel) m]
  exact List.take_of_length_le (by rw [bytes_length]; exact Nat.le_refl 32)

theorem digest224 (native : ByteOrder) (m : List Byte) : digest (sha224 native) m = Spec.SHA224 m :=
  digest_eq (sha224 native) (ok224 native) (by show 64 / 4 = 16; decide) _ rfl Spec.Vars.list (Spec.compress Spec.v256) (fun x M hM => hashBlock_eq _ _ match256 M hM x)
    (.of 32 ((Spec.squareRoots' 64).map (· % 2 ^ 32))) (by show init224 = _; decide +kernel) m

theorem digest512 (native : ByteOrder) (m : List Byte) : digest (sha512 native) m = Spec.SHA512 m := by
  rw [digest_eq (sha512 native) (ok512 native) (by show 128 / 8 = 16; decide) _ rfl Spec.Vars.list (Spec.compress Spec.v512) (fun x M hM => hashBlock_eq _ _ match512 M hM x) (.of 64 (Spec.squareRoots 64))
    (by show init512 = _; decide +kernel) m]
  exact List.take_of_length_le (by rw [bytes_length]; exact Nat.le_refl 64)

theorem digest384 (native : ByteOrder) (m : List Byte) : digest (sha384 native) m = Spec.SHA384 m :=
  digest_eq (sha384 native) (ok384 native) (by show 128 / 8 = 16; decide) _ rfl Spec.Vars.list (Spec.compress Spec.v512) (fun x M hM => hashBlock_eq _ _ match512 M hM x)
    (.of 64 (Spec.squareRoots' 64)) (by show init384 = _; decide +kernel) m

theorem digest1 (native : ByteOrder) (m : List Byte) : digest (sha1 native) m = Spec.SHA1 m := by
  rw [digest_eq (sha1 native) (ok1 native) (by show 64 / 4 = 16; decide) _ rfl Spec.Vars1.list Spec.compress1 (fun x M hM => hashBlock1_eq M hM x)
    ⟨0x67452301, 0xefcdab89, 0x98badcfe, 0x10325476, 0xc3d2e1f0⟩ (by show init1 = _; decide +kernel) m]
  exact List.take_of_length_le (by rw [bytes_length]; exact Nat.le_refl 20)

theorem digest5 (native : ByteOrder) (m : List Byte) : digest (md5 native) m = Spec.MD5 m := by
  rw [digest_eq (md5 native) (ok5 native) (by show 64 / 4 = 16; decide) _ rfl Spec.Vars5.list Spec.compress5 (fun x M _ => hashBlock5_eq M x)
    ⟨0x67452301, 0xefcdab89, 0x98badcfe, 0x10325476⟩ (by show init5 = _; decide +kernel) m]
  exact List.take_of_length_le (by rw [bytes_length]; exact Nat.le_refl 16)

/-! ## Histories -/

/-- What a history of calls should produce, for a hash function `H` with digests of `d` bytes: `m` is the message so far. -/
def expected (d : Nat) (H : List Byte → List Byte) (m : List Byte) : List Op → List (Except Err (List Byte))
  | [] => []
  | .update x _ :: ops => expected d H (m ++ x) ops
  | .updateInPlace x _ :: ops => expected d H (m ++ x) ops
  | .restart :: ops => expected d H [] ops
  | .final n _ :: ops => if n ≤ d then .ok ((H m).take n) :: expected d H [] ops else .error .invalidArgument :: expected d H m ops

theorem specRun_expected (P : Params) (H : List Byte → List Byte) (hH : ∀ m, digest P m = H m) (m : List Byte) (ops : List Op) :
    specRun P m ops = expected P.digestSize H m ops := by
  induction ops generalizing m with
  | nil => rfl
  | cons op ops ih =>
    cases op with
    | update x a => exact ih _
    | updateInPlace x a => exact ih _
    | restart => exact ih _
    | final n a =>
      simp only [specRun, expected, ih, hH]
      by_cases h : n ≤ P.digestSize
      · rw [if_neg (by omega), if_pos h]
      · rw [if_pos (by omega), if_neg h]

/-- A hash object of the library computes `H`, whatever the history of calls. -/
def Hashes (P : Params) (d : Nat) (H : List Byte → List Byte) : Prop :=
  ∀ (junk : List Byte), junk.length = P.B → ∀ (ops : List Op), Within P [] ops → run P (new P junk) ops = .ok (expected d H [] ops)

theorem hashes (P : Params) (ok : P.Ok) (H : List Byte → List Byte) (hH : ∀ m, digest P m = H m) : Hashes P P.digestSize H := by
  intro junk hj ops hw
  rw [history_digests ok junk hj ops hw, specRun_expected P H hH]

theorem sha256_is_fips180 (native : ByteOrder) : Hashes (sha256 native) 32 Spec.SHA256 := hashes _ (ok256 native) _ (digest256 native)
theorem sha224_is_fips180 (native : ByteOrder) : Hashes (sha224 native) 28 Spec.SHA224 := hashes _ (ok224 native) _ (digest224 native)
theorem sha512_is_fips180 (native : ByteOrder) : Hashes (sha512 native) 64 Spec.SHA512 := hashes _ (ok512 native) _ (digest512 native)
theorem sha384_is_fips180 (native : ByteOrder) : Hashes (sha384 native) 48 Spec.SHA384 := hashes _ (ok384 native) _ (digest384 native)
theorem sha1_is_fips180 (native : ByteOrder) : Hashes (sha1 native) 20 Spec.SHA1 := hashes _ (ok1 native) _ (digest1 native)
theorem md5_is_rfc1321 (native : ByteOrder) : Hashes (md5 native) 16 Spec.MD5 := hashes _ (ok5 native) _ (digest5 native)

/-! ## As components: HMAC, key derivation, generators -/

theorem stateLen {w : Nat} (P : Params) (f : List (BitVec w) → List (BitVec w) → List (BitVec w)) (hP : P.compress = onNat f) (n : Nat) (hf : ∀ st ws, (f st ws).length = n)
    (hn : P.digestSize ≤ n * P.k) : Hash.StateLen P := by
  intro st ws
  rw [hP]
  unfold onNat
  rw [List.length_map, hf]
  exact hn

/-- A hash of the library as the object the theorems on HMAC, key derivation functions and generators speak of. -/
theorem computes (P : Params) (ok : P.Ok) (hs : Hash.StateLen P) (H : List Byte → List Byte) (hH : ∀ m, digest P m = H m) (al : List Byte → Bool) (ad : Nat → Bool) :
    (Hash.iterated P al ad).Computes H (P.W * P.W) (IterHash.Inv P) := by
  have : digest P = H := funext hH
  rw [← this]
  exact Hash.iterated_computes ok hs al ad

theorem W8 (P : Params) (hk : P.k = 8) : P.W * P.W = 2 ^ 128 := by unfold Params.W; rw [hk]

theorem sha256_object (native : ByteOrder) (al : List Byte → Bool) (ad : Nat → Bool) :
    (Hash.iterated (sha256 native) al ad).Computes Spec.SHA256 (2 ^ 64) (IterHash.Inv (sha256 native)) := by
  have := computes _ (ok256 native) (stateLen _ _ rfl 8 (fun _ _ => by simp [hashBlock]) (Nat.le_refl 32)) _ (digest256 native) al ad
  rw [W4 _ rfl] at this; exact this
theorem sha224_object (native : ByteOrder) (al : List Byte → Bool) (ad : Nat → Bool) :
    (Hash.iterated (sha224 native) al ad).Computes Spec.SHA224 (2 ^ 64) (IterHash.Inv (sha224 native)) := by
  have := computes _ (ok224 native) (stateLen _ _ rfl 8 (fun _ _ => by simp [hashBlock]) (by show 28 ≤ 8 * 4; decide)) _ (digest224 native) al ad
  rw [W4 _ rfl] at this; exact this
theorem sha512_object (native : ByteOrder) (al : List Byte → Bool) (ad : Nat → Bool) :
    (Hash.iterated (sha512 native) al ad).Computes Spec.SHA512 (2 ^ 128) (IterHash.Inv (sha512 native)) := by
  have := computes _ (ok512 native) (stateLen _ _ rfl 8 (fun _ _ => by simp [hashBlock]) (Nat.le_refl 64)) _ (digest512 native) al ad
  rw [W8 _ rfl] at this; exact this
theorem sha384_object (native : ByteOrder) (al : List Byte → Bool) (ad : Nat → Bool) :
    (Hash.iterated (sha384 native) al ad).Computes Spec.SHA384 (2 ^ 128) (IterHash.Inv (sha384 native)) := by
  have := computes _ (ok384 native) (stateLen _ _ rfl 8 (fun _ _ => by simp [hashBlock]) (by show 48 ≤ 8 * 8; decide)) _ (digest384 native) al ad
  rw [W8 _ rfl] at this; exact this
theorem sha1_object (native : ByteOrder) (al : List Byte → Bool) (ad : Nat → Bool) :
    (Hash.iterated (sha1 native) al ad).Computes Spec.SHA1 (2 ^ 64) (IterHash.Inv (sha1 native)) := by
  have := computes _ (ok1 native) (stateLen _ _ rfl 5 (fun _ _ => by simp [hashBlock1]) (Nat.le_refl 20)) _ (digest1 native) al ad
  rw [W4 _ rfl] at this; exact this
theorem md5_object (native : ByteOrder) (al : List Byte → Bool) (ad : Nat → Bool) :
    (Hash.iterated (md5 native) al ad).Computes Spec.MD5 (2 ^ 64) (IterHash.Inv (md5 native)) := by
  have := computes _ (ok5 native) (stateLen _ _ rfl 4 (fun _ _ => by simp [hashBlock5]) (Nat.le_refl 16)) _ (digest5 native) al ad
  rw [W4 _ rfl] at this; exact this

/-- C12 and C60: `HMAC<SHA256>` is HMAC-SHA-256 of RFC 2104 over FIPS 180-4, whatever the history. -/
theorem hmac_sha256 (native : ByteOrder) (al : List Byte → Bool) (ad : Nat → Bool) (junk : List Byte) (hj : junk.length = 64) (key fresh : List Byte) (ops : List Hmac.Op)
    (hw : Hmac.Within (Hash.iterated (sha256 native) al ad) (2 ^ 64) [] (.setKey key fresh :: ops)) :
    Hmac.run (Hash.iterated (sha256 native) al ad) ⟨new (sha256 native) junk, [], false⟩ (.setKey key fresh :: ops) =
      .ok (Hmac.specRun (Hash.iterated (sha256 native) al ad) Spec.SHA256 key [] ops) := by
  refine Hmac.history_macs (sha256_object native al ad) (by show 32 ≤ 64; decide) (by show 64 ≠ 0; decide) (by show 64 + 32 < 2 ^ 64; decide) _ ?_ key fresh ops hw
  exact ⟨by rw [W4 _ rfl]; decide, by simp [new], by simp [new], hj, by simp, by simp [new, foldFrom]⟩

/-! ## The roots -/

theorem rootBits_spec (r x : Nat) (b acc : Nat) (h0 : acc ^ r ≤ x) (h1 : x < (acc + 2 ^ b) ^ r) :
    (Spec.rootBits r x b acc) ^ r ≤ x ∧ x < (Spec.rootBits r x b acc + 1) ^ r := by
  induction b generalizing acc with
  | zero => exact ⟨h0, h1⟩
  | succ b ih =>
    unfold Spec.rootBits
    by_cases h : (acc + 2 ^ b) ^ r ≤ x
    · rw [if_pos h]
      refine ih _ h ?_
      rw [Nat.add_assoc, ← Nat.two_mul, ← Nat.pow_succ']; exact h1
    · rw [if_neg h]
      exact ih _ h0 (by omega)

/-- `rootFrac` is what its name says: with `y = ⌊2^w p^(1/r)⌋`, its last `w` bits. -/
theorem rootFrac_spec (r w p : Nat) (hr : 1 ≤ r) (hp : p < 2 ^ (8 * r)) : ∃ y, y ^ r ≤ p * 2 ^ (r * w) ∧ p * 2 ^ (r * w) < (y + 1) ^ r ∧ Spec.rootFrac r w p = y % 2 ^ w := by
  refine ⟨_, ?_, ?_, rfl⟩
  all_goals
    have h : p * 2 ^ (r * w) < (0 + 2 ^ (w + 8)) ^ r := by
      rw [Nat.zero_add, ← Nat.pow_mul, show (w + 8) * r = 8 * r + r * w by rw [Nat.add_mul, Nat.mul_comm w r]; omega, Nat.pow_add]
      exact Nat.mul_lt_mul_of_pos_right hp (Nat.two_pow_pos _)
    have := rootBits_spec r (p * 2 ^ (r * w)) (w + 8) 0 (by rw [Nat.zero_pow hr]; exact Nat.zero_le _) h
    first | exact this.1 | exact this.2

/-! ## Examples -/

def abc : List Byte := [0x61, 0x62, 0x63]
def hex (l : List Byte) : Nat := beVal l

/-- The standard's examples, computed by the model of the code in the kernel, in two pieces and after a truncated digest. -/
example : (run (sha256 .little) (new (sha256 .little) (List.replicate 64 7)) [.update [1, 2] true, .final 8 false, .update [0x61] false, .update [0x62, 0x63] true, .final 32 true]).toOption.map
    (fun r => (r.getD 1 (.ok [])).toOption.map hex) = some (some 0xba7816bf8f01cfea414140de5dae2223b00361a396177a9cb410ff61f20015ad) := by decide +kernel
example : Within (sha256 .little) [] [.update [1, 2] true, .final 8 false, .update [0x61] false, .update [0x62, 0x63] true, .final 32 true] := by
  have h : (sha256 .little).W = 4294967296 := W4 _ rfl
  have hd : (sha256 .little).digestSize = 32 := rfl
  simp [Within, h, hd]
example : hex (digest (sha224 .little) abc) = 0x23097d223405d8228642a477bda255b32aadbce4bda0b3f7e36c9da7 := by decide +kernel
example : hex (digest (sha512 .little) abc) = 0xddaf35a193617abacc417349ae20413112e6fa4e89a97ea20a9eeee64b55d39a2192992a274fc1a836ba3c23a3feebbd454d4423643ce80e2a9ac94fa54ca49f := by decide +kernel
example : hex (digest (sha384 .big) abc) = 0xcb00753f45a35e8bb5a03d699ac65007272c32ab0eded1631a8b605a43ff5bed8086072ba1e7cc2358baeca134c825a7 := by decide +kernel
example : hex (digest (sha1 .big) abc) = 0xa9993e364706816aba3e25717850c26c9cd0d89d := by decide +kernel
example : hex (digest (md5 .big) abc) = 0x900150983cd24fb0d6963f7d28e17f72 := by decide +kernel

end Verif.Sha
