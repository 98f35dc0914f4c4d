import Verif.Scrypt.Proofs
import Verif.Kdf.Props
import Verif.Sha.Props

/-! # C71: Scrypt derives the key of RFC 7914 -/
namespace Verif.Scrypt

open Hash

/-- The parameters `Scrypt::DeriveKey` accepts, all of them 64-bit words. -/
def Accepts (derivedLen cost blockSize parallel : Nat) : Prop :=
  (∃ k, cost = 2 ^ k) ∧ 0 < blockSize ∧ 0 < parallel ∧ parallel < 2 ^ 31 ∧ 128 * (blockSize * parallel) < 2 ^ 32 ∧ 128 * (cost * blockSize) < 2 ^ 64 ∧ derivedLen < 2 ^ 32

theorem validate_ok_iff (derivedLen cost blockSize parallel : Nat) :
    validate derivedLen cost blockSize parallel = .ok () ↔
      (∃ k, cost = 2 ^ k) ∧ 0 < blockSize ∧ 0 < parallel ∧ parallel < 2 ^ 31 ∧ blockSize * parallel < 2 ^ 30 ∧ 128 * (cost * blockSize) < 2 ^ 64 ∧ derivedLen ≤ (2 ^ 32 - 1) * 32 := by
  have hpow : isPowerOf2 cost = false ↔ ¬ ∃ k, cost = 2 ^ k := by
    rw [← isPowerOf2_iff]; simp
  have h0 : cost = 0 → ¬ ∃ k, cost = 2 ^ k := by
    rintro h ⟨k, hk⟩
    have := Nat.two_pow_pos k
    omega
  have a1 : cost * blockSize * 128 = 128 * (cost * blockSize) := Nat.mul_comm _ _
  have a2 : parallel * blockSize * 128 = 128 * (blockSize * parallel) := by rw [Nat.mul_comm parallel, Nat.mul_comm]
  have a3 : 0 < parallel → blockSize ≤ blockSize * parallel := fun h => Nat.le_mul_of_pos_right _ h
  unfold validate
  rw [a1, a2]
  generalize (∃ k, cost = 2 ^ k) = Q at *
  generalize blockSize * parallel = u at *
  generalize cost * blockSize = v at *
  by_cases hQ : Q
  · have c0 : ¬ cost = 0 := fun h => h0 h hQ
    rw [if_neg c0]
    split
    · constructor
      · intro h; cases h
      · intro h; omega
    split
    · constructor
      · intro h; cases h
      · intro h; omega
    split
    · constructor
      · intro h; cases h
      · intro h; omega
    split
    · constructor
      · intro h; cases h
      · intro h; omega
    rw [if_neg (fun h => hpow.mp h hQ)]
    split
    · constructor
      · intro h; cases h
      · intro h; omega
    extract_lets bLimit xyLimit vLimit
    subst bLimit xyLimit vLimit
    split
    · rename_i h
      simp only [Bool.or_eq_true, Bool.not_eq_true', decide_eq_false_iff_not] at h
      constructor
      · intro h; cases h
      · intro h'; omega
    · rename_i h
      simp only [Bool.or_eq_true, Bool.not_eq_true', decide_eq_false_iff_not] at h
      refine ⟨fun _ => ⟨hQ, ?_⟩, fun _ => rfl⟩
      omega
  · refine ⟨fun h => ?_, fun h => absurd h.1 hQ⟩
    rw [if_pos (hpow.mpr hQ)] at h
    repeat' first
      | (cases h; done)
      | split at h

/-- No offset or size computed for accepted parameters wraps around: `128 r p`, `256 r`, `128 r N` and the parts of `B` and `V`. -/
theorem accepted_no_wrap (derivedLen cost blockSize parallel : Nat) (h : Accepts derivedLen cost blockSize parallel) (i j : Nat) (hi : i < parallel) (hj : j < cost) :
    blockSize * parallel * 128 < 2 ^ 64 ∧ blockSize * 256 < 2 ^ 64 ∧ blockSize * cost * 128 < 2 ^ 64 ∧
    blockSize * i * 128 + 128 * blockSize ≤ blockSize * parallel * 128 ∧ j * (128 * blockSize) + 128 * blockSize ≤ blockSize * cost * 128 := by
  obtain ⟨_, h1, h2, h3, h4, h5, h6⟩ := h
  have a := Nat.le_mul_of_pos_right blockSize h2
  have b := Nat.mul_le_mul_left blockSize (show i + 1 ≤ parallel from hi)
  have c := Nat.mul_le_mul_right (128 * blockSize) (show j + 1 ≤ cost from hj)
  rw [Nat.mul_add, Nat.mul_one] at b
  rw [Nat.add_mul, Nat.one_mul] at c
  have d : cost * (128 * blockSize) = 128 * (cost * blockSize) := by rw [← Nat.mul_assoc, Nat.mul_comm cost, Nat.mul_assoc]
  have e : blockSize * cost = cost * blockSize := Nat.mul_comm _ _
  rw [e]
  refine ⟨by omega, by omega, by omega, by omega, by omega⟩

theorem pbkdf2_length (F : List Byte → List Byte) (S : List Byte) (len : Nat) (hF : ∀ x, (F x).length = 32) : (Kdf.PBKDF2 F 32 S (max 1 1) len).length = len := by
  have key : ∀ (f : Nat → List Byte) (n : Nat), (∀ i, (f i).length = 32) → ((List.range n).flatMap f).length = 32 * n := by
    intro f n hf
    induction n with
    | zero => rfl
    | succ n ih => rw [List.range_succ, List.flatMap_append, List.length_append, ih]; simp [hf]; omega
  unfold Kdf.PBKDF2 Kdf.blocks
  rw [List.length_take, key (fun i => (fun i => Kdf.xorChain F (S ++ beBytes 4 i) (max 1 1 - 1)) (1 + i)) _ (fun i => hF _)]
  omega

/-- C71: for parameters it accepts, `Scrypt::DeriveKey` writes the key of RFC 7914, whatever SHA-256 code runs below, whatever order the parallel loop takes and whatever new memory holds. -/
theorem deriveKey_scrypt (native : ByteOrder) (al : List Byte → Bool) (ad : Nat → Bool) (s : IterHash.State) (hs : IterHash.Inv (Sha.sha256 native) s [])
    (fresh1 fresh2 : List Byte) (hf1 : 160 ≤ fresh1.length) (hf2 : 160 ≤ fresh2.length) (B0 : Mem) (sched : List (Nat × Mem × Mem))
    (derivedLen : Nat) (P S : List Byte) (hP : P.length < 2 ^ 64) (hS : S.length + 68 < 2 ^ 64) (N r p : Nat) (hN : N < 2 ^ 64)
    (ha : Accepts derivedLen N r p) (hsched : (sched.map (·.1)).Perm (List.range p)) :
    deriveKey (iterated (Sha.sha256 native) al ad) s fresh1 fresh2 B0 sched derivedLen P S N r p = .ok (Spec.scrypt P S N r p derivedLen) := by
  obtain ⟨⟨k, rfl⟩, h1, h2, h3, h4, h5, h6⟩ := ha
  have hk : k ≤ 64 := by
    refine Classical.byContradiction fun hk => ?_
    have := Nat.pow_lt_pow_right (a := 2) (by decide) (show 64 < k by omega)
    omega
  have C := Sha.sha256_object native al ad
  have hv : validate derivedLen (2 ^ k) r p = .ok () := (validate_ok_iff _ _ _ _).mpr ⟨⟨k, rfl⟩, h1, h2, h3, by omega, h5, by omega⟩
  have hd : (iterated (Sha.sha256 native) al ad).digestSize = 32 := rfl
  have hB : (iterated (Sha.sha256 native) al ad).blockSize = 64 := rfl
  unfold deriveKey
  rw [hv]
  dsimp only
  rw [Kdf.pbkdf2_exact C (by rw [hd, hB]; decide) (by rw [hd]; decide) (by rw [hd, hB]; decide) s hs fresh1 (by rw [hd, hB]; omega) 1 _ P S 1 hP (by rw [hB]; omega) (by omega) (by omega)]
  dsimp only
  rw [hd, hB]
  have hl : (Kdf.PBKDF2 (Hmac.hmac Sha.Spec.SHA256 64 P) 32 S (max 1 1) (r * p * 128)).length = r * p * 128 := by
    refine pbkdf2_length _ _ _ fun x => ?_
    exact C.length _
  rw [run_all r k p h1 hk sched hsched B0 _ hl, Kdf.pbkdf2_exact C (by rw [hd, hB]; decide) (by rw [hd]; decide) (by rw [hd, hB]; decide) s hs fresh2 (by rw [hd, hB]; omega) 1 _ P _ 1 hP (by
    rw [hB, ← run_all r k p h1 hk sched hsched B0 _ hl, load_length]; omega) h6 (by omega)]
  dsimp only
  rw [hd, hB, show r * p * 128 = p * 128 * r by rw [Nat.mul_comm r p, Nat.mul_assoc, Nat.mul_assoc, Nat.mul_comm r]]
  rfl

/-- C71: it refuses every other parameters, whatever the hash. -/
theorem deriveKey_refuses {σ : Type} (O : Hash.Obj σ) (s : σ) (fresh1 fresh2 : List Byte) (B0 : Mem) (sched : List (Nat × Mem × Mem)) (derivedLen : Nat) (P S : List Byte) (N r p : Nat)
    (ha : ¬ Accepts derivedLen N r p) : ∃ e, deriveKey O s fresh1 fresh2 B0 sched derivedLen P S N r p = .error e := by
  unfold deriveKey
  cases hv : validate derivedLen N r p with
  | error e => exact ⟨e, rfl⟩
  | ok u =>
    obtain ⟨h1, h2, h3, h4, h5, h6, h7⟩ := (validate_ok_iff _ _ _ _).mp hv
    dsimp only
    by_cases hb : 2 ^ 32 ≤ r * p * 128
    · exact ⟨_, by rw [Kdf.pbkdf2_too_long _ _ _ _ _ _ _ _ _ hb]⟩
    · have hd : 2 ^ 32 ≤ derivedLen := by
        refine Classical.byContradiction fun hd => ha ⟨h1, h2, h3, h4, by omega, h6, by omega⟩
      split
      · exact ⟨_, rfl⟩
      · exact ⟨_, by rw [Kdf.pbkdf2_too_long _ _ _ _ _ _ _ _ _ hd]⟩

/-- The parameters scrypt.h and RFC 7914 allow: a cost larger than 1, a power of 2 and less than `2^(128 r / 8)`, a parallelization of at most `(2^32 - 1) * 32 / (128 r)`,
and a key of at most `(2^32 - 1) * 32` bytes. -/
def Documented (derivedLen N r p : Nat) : Prop :=
  1 < N ∧ (∃ k, N = 2 ^ k) ∧ N < 2 ^ (128 * r / 8) ∧ 0 < r ∧ 0 < p ∧ p ≤ (2 ^ 32 - 1) * 32 / (128 * r) ∧ 0 < derivedLen ∧ derivedLen ≤ (2 ^ 32 - 1) * 32

/-- Fault: a block size of `2^25` is documented, passes the checks of the parameters and is refused all the same: the blocks do not fit the inner PBKDF2, whose limit is `2^32 - 1` bytes. -/
theorem large_block_refused : Documented 32 2 (2 ^ 25) 1 ∧ validate 32 2 (2 ^ 25) 1 = .ok () ∧
    ∀ {σ : Type} (O : Hash.Obj σ) (s : σ) (fresh1 fresh2 : List Byte) (B0 : Mem) (sched : List (Nat × Mem × Mem)) (P S : List Byte),
      deriveKey O s fresh1 fresh2 B0 sched 32 P S 2 (2 ^ 25) 1 = .error .invalidArgument := by
  have hv : validate 32 2 (2 ^ 25) 1 = .ok () := by decide +kernel
  refine ⟨⟨by decide, ⟨1, rfl⟩, ?_, by decide, by decide, by decide, by decide, by decide⟩, hv, ?_⟩
  · have key : ∀ e, 2 ≤ e → 2 < 2 ^ e := fun e he => Nat.lt_of_lt_of_le (show 2 < 2 ^ 2 by decide) (Nat.pow_le_pow_right (by decide) he)
    exact key _ (by decide)
  · intro σ O s fresh1 fresh2 B0 sched P S
    unfold deriveKey
    rw [hv]
    dsimp only
    rw [Kdf.pbkdf2_too_long _ _ _ _ _ _ _ _ _ (by decide)]

/-- Fault: a key of `2^32` bytes is documented, passes the checks and is refused after all the work is done. -/
theorem long_key_refused : Documented (2 ^ 32) 2 1 1 ∧ validate (2 ^ 32) 2 1 1 = .ok () ∧
    ∀ {σ : Type} (O : Hash.Obj σ) (s : σ) (fresh1 fresh2 : List Byte) (B0 : Mem) (sched : List (Nat × Mem × Mem)) (P S : List Byte),
      ∃ e, deriveKey O s fresh1 fresh2 B0 sched (2 ^ 32) P S 2 1 1 = .error e :=
  ⟨⟨by decide, ⟨1, rfl⟩, by decide, by decide, by decide, by decide, by decide, by decide⟩, by decide +kernel,
    fun O s fresh1 fresh2 B0 sched P S => deriveKey_refuses O s fresh1 fresh2 B0 sched _ P S _ _ _ fun h => absurd h.2.2.2.2.2.2 (by decide)⟩

/-- Fault: a cost of 1, and a cost of `2^16` with blocks of size 1, are accepted although both are excluded by the documentation. -/
theorem bad_cost_accepted : ¬ Documented 32 1 1 1 ∧ Accepts 32 1 1 1 ∧ ¬ Documented 32 (2 ^ 16) 1 1 ∧ Accepts 32 (2 ^ 16) 1 1 :=
  ⟨fun h => absurd h.1 (by decide), ⟨⟨0, rfl⟩, by decide, by decide, by decide, by decide, by decide, by decide⟩,
    fun h => absurd h.2.2.1 (by decide), ⟨⟨16, rfl⟩, by decide, by decide, by decide, by decide, by decide, by decide⟩⟩

/-- RFC 7914, section 8: the test vector of Salsa20/8. -/
example : Spec.salsa 4 (beBytes 64 0x7e879a214f3ec9867ca940e641718f26baee555b8c61c1b50df846116dcd3b1dee24f319df9b3d8514121e4b5ac5aa3276021d2909c74829edebc68db8b8c25e) =
    beBytes 64 0xa41f859c6608cc993b81cacb020cef05044b2181a2fd337dfd7b1c6396682f29b4393168e3c9e6bcfe6bc5b7a06d96bae424cc102c91745c24ad673dc7618f81 := by decide +kernel

set_option maxRecDepth 100000 in
/-- A value of scryptROMix with blocks of size 2 and cost 4, computed with another implementation. -/
example : Spec.romix 2 4 ((List.range 256).map fun i => BitVec.ofNat 8 (7 * i + 1)) = beBytes 256 0x01b6c8739b3f1b902537243aa1f4301ca9d29f63846d8976defbc3d83228ad93752f7d8be84ce88eee32c70c23c2ec980a46a6129ad47d82219c77cf7963dc5d3d75bfdd85b432fb1e47b78c6189f126f7a99a98ea1fd58280f0128571fd6758a7bfa5c1d6e7bda12e115ddd0fdd3f2cd5109599752bfdb7de3b5102de2a821bdc9b1875a670705b1cc6ee8aaf1768209333a724441735591fa6b33a82ee4ef7cb48ebd64eefbdd838acd5002593aa796d515869b06f2287f6ec45ce543000912158128a886cac317610954dd907a4bceb9d62836346d917338dc9bc7758f373c80b1a0e0aa92d43147899d510633dfe01b3f2d0438552610aba72be00d8979e := by decide +kernel

/-- The hypotheses of `deriveKey_scrypt` are met: the loop may run backwards over dirty memory. -/
example (V XY : Mem) (hs : IterHash.Inv (Sha.sha256 .little) s []) :
    deriveKey (iterated (Sha.sha256 .little) (fun _ => true) (fun _ => true)) s (List.replicate 160 7) (List.replicate 160 9) XY [(1, V, XY), (0, XY, V)] 20
      [0x70, 0x77] [0x73, 0x61, 0x6c, 0x74] 1024 8 2 = .ok (Spec.scrypt [0x70, 0x77] [0x73, 0x61, 0x6c, 0x74] 1024 8 2 20) :=
  deriveKey_scrypt _ _ _ s hs _ _ (by simp) (by simp) _ _ _ _ _ (by decide) (by decide) _ _ _ (by decide)
    ⟨⟨10, rfl⟩, by decide, by decide, by decide, by decide, by decide, by decide⟩ (by simp only [List.map]; decide)

example : ¬ Accepts 32 3 1 1 := by
  rintro ⟨⟨k, hk⟩, _⟩
  rcases k with _ | _ | k
  · omega
  · omega
  · rw [Nat.pow_succ] at hk; omega

end Verif.Scrypt
