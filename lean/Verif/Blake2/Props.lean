import Verif.Blake2.Proofs

/-!
# C69: BLAKE2b and BLAKE2s objects compute the hash of RFC 7693

With a key or without one, with a salt, a personalization, every digest size and the flag for the last node, for every message and every division of it between calls.
-/
namespace Verif.Blake2
open Verif.Cipher (nth words unwords unwords_length pow256)

/-- The object `s` was set up with these parameters and has been given the message `m`. -/
def Given (A : Alg) (nn : Nat) (key salt pers : List Byte) (s : State A) (m : List Byte) : Prop :=
  Inv (start A nn key.length salt pers) s (Spec.input A.variant key m)

/-- The members the parameters set. -/
def config (A : Alg) (nn : Nat) (key salt pers : List Byte) (node : Bool) : Config :=
  ⟨Spec.parameters A.variant nn key.length salt pers, if key = [] then [] else Spec.pad A.block key, nn, key.length, node⟩

theorem input_append (V : Spec.Variant) (key m x : List Byte) : Spec.input V key (m ++ x) = Spec.input V key m ++ x := by
  simp [Spec.input]

theorem process_length (V : Spec.Variant) (node : Bool) (ll : Nat) : ∀ (ds : List (List Byte)) (h : List (BitVec V.w)) (t : Nat), (Spec.process V node ll h t ds).length = 8
  | [], h, t => F_length V _ _ _ _ _
  | [d], h, t => F_length V _ _ _ _ _
  | d :: e :: ds, h, t => process_length V node ll (e :: ds) _ _

theorem hash_eq (A : Alg) (nn : Nat) (key salt pers : List Byte) (node : Bool) (m : List Byte) : Spec.hash A.variant nn key salt pers node m =
    ((Spec.process A.variant node (Spec.input A.variant key m).length (start A nn key.length salt pers) 0 (chunks A.variant.bb (Spec.input A.variant key m))).flatMap
      fun x => leBytes A.k x.toNat).take nn := by
  unfold Spec.hash
  rw [show A.variant.w / 8 = A.k by show 8 * A.k / 8 = A.k; omega]
  rfl

theorem hash_length (A : Alg) (nn : Nat) (key salt pers : List Byte) (node : Bool) (m : List Byte) (hn : nn ≤ A.digest) : (Spec.hash A.variant nn key salt pers node m).length = nn := by
  rw [hash_eq, List.length_take]
  have := unwords_length .little A.k (Spec.process A.variant node (Spec.input A.variant key m).length (start A nn key.length salt pers) 0 (chunks A.variant.bb (Spec.input A.variant key m)))
  rw [process_length] at this
  unfold unwords at this
  unfold Alg.digest at hn
  rw [show (fun x : A.Word => leBytes A.k x.toNat) = fun x : BitVec (8 * A.k) => ByteOrder.little.bytes A.k x.toNat from rfl, this]
  omega

/-- An object set up with sizes in their ranges computes the hash. -/
theorem computes (A : Alg) (ok : A.Ok) (nn : Nat) (key salt pers : List Byte) (node : Bool) (hn : nn ≤ A.digest) (hkey : key.length ≤ A.block) (lim : Nat) :
    (obj A (config A nn key salt pers node)).Computes (Spec.hash A.variant nn key salt pers node) lim (Given A nn key salt pers) where
  update s m x h _ := ⟨update A s x, rfl, by unfold Given; rw [input_append]; exact update_inv ok s _ x h⟩
  restart _ _ _ := restart_inv ok key nn node salt pers hkey
  final s m n h hle := by
    refine ⟨restart A (config A nn key salt pers node), ?_, restart_inv ok key nn node salt pers hkey⟩
    show final A _ s n = _
    rw [final_spec ok (config A nn key salt pers node) s _ n h hn hle, hash_eq, List.take_take, Nat.min_eq_left (show n ≤ nn from hle)]
    rfl
  reject s n h := by
    show final A _ s n = _
    unfold final
    exact if_pos h
  length m := hash_length A nn key salt pers node m hn

/-! ## The claim -/

/-- **BLAKE2b.** `SetKey` with a key of at most 64 bytes, a salt and a personalization of at most 16, and a digest size of at most 64 succeeds. From then on, whatever the
calls of `Update`, `Restart` and `TruncatedFinal`, each digest is the one RFC 7693 defines of the bytes given since the last restart, cut to the size asked for; after
it the object is as it was after `SetKey`. -/
theorem blake2b_computes (nn : Nat) (key salt pers : List Byte) (node : Bool) (hn : nn ≤ 64) (hkey : key.length ≤ 64) (hs : salt.length ≤ 16) (hp : pers.length ≤ 16) :
    ∃ c, setKey blake2b key nn node salt pers = .ok c ∧ construct blake2b key nn node salt pers = .ok c ∧ Given blake2b nn key salt pers (restart blake2b c) [] ∧
      (obj blake2b c).Computes (Spec.hash Spec.b nn key salt pers node) (2 ^ 128 - 128) (Given blake2b nn key salt pers) := by
  have hb : key.length ≤ blake2b.block := Nat.le_trans hkey (by decide)
  have e := uncheckedSetKey_ok okB key nn node salt pers hb hs hp
  refine ⟨config blake2b nn key salt pers node, ?_, e, restart_inv okB key nn node salt pers hb, computes blake2b okB nn key salt pers node hn hb _⟩
  unfold setKey
  rw [if_neg (show ¬ key.length > blake2b.digest from Nat.not_lt.mpr hkey), e]
  rfl

/-- **BLAKE2s.** The same with 32 bytes for 64, 8 for 16. -/
theorem blake2s_computes (nn : Nat) (key salt pers : List Byte) (node : Bool) (hn : nn ≤ 32) (hkey : key.length ≤ 32) (hs : salt.length ≤ 8) (hp : pers.length ≤ 8) :
    ∃ c, setKey blake2s key nn node salt pers = .ok c ∧ construct blake2s key nn node salt pers = .ok c ∧ Given blake2s nn key salt pers (restart blake2s c) [] ∧
      (obj blake2s c).Computes (Spec.hash Spec.s nn key salt pers node) (2 ^ 64 - 64) (Given blake2s nn key salt pers) := by
  have hb : key.length ≤ blake2s.block := Nat.le_trans hkey (by decide)
  have e := uncheckedSetKey_ok okS key nn node salt pers hb hs hp
  refine ⟨config blake2s nn key salt pers node, ?_, e, restart_inv okS key nn node salt pers hb, computes blake2s okS nn key salt pers node hn hb _⟩
  unfold setKey
  rw [if_neg (show ¬ key.length > blake2s.digest from Nat.not_lt.mpr hkey), e]
  rfl

/-- The digest of a message given in pieces, by an object set up by `SetKey`. -/
def digestOf (A : Alg) (key : List Byte) (nn : Nat) (node : Bool) (salt pers : List Byte) (pieces : List (List Byte)) : Except Err (List Byte) := do
  let c ← setKey A key nn node salt pers
  let r ← final A c (pieces.foldl (update A) (restart A c)) nn
  return r.2

theorem given_foldl (A : Alg) (ok : A.Ok) (nn : Nat) (key salt pers : List Byte) : ∀ (pieces : List (List Byte)) (s : State A) (m : List Byte), Given A nn key salt pers s m →
    Given A nn key salt pers (pieces.foldl (update A) s) (m ++ pieces.flatten)
  | [], s, m, h => by simpa using h
  | p :: ps, s, m, h => by
    rw [List.foldl_cons, List.flatten_cons, ← List.append_assoc]
    refine given_foldl A ok nn key salt pers ps _ _ ?_
    unfold Given
    rw [input_append]
    exact update_inv ok s _ p h

/-- Told without the invariant: any pieces. -/
theorem blake2b_digest (nn : Nat) (key salt pers : List Byte) (node : Bool) (pieces : List (List Byte)) (hn : nn ≤ 64) (hkey : key.length ≤ 64) (hs : salt.length ≤ 16)
    (hp : pers.length ≤ 16) : digestOf blake2b key nn node salt pers pieces = .ok (Spec.hash Spec.b nn key salt pers node pieces.flatten) := by
  obtain ⟨c, e, _, g, h⟩ := blake2b_computes nn key salt pers node hn hkey hs hp
  have hc : c = config blake2b nn key salt pers node := by
    have e' := uncheckedSetKey_ok okB key nn node salt pers (Nat.le_trans hkey (by decide)) hs hp
    unfold setKey at e
    rw [if_neg (show ¬ key.length > blake2b.digest from Nat.not_lt.mpr hkey), e'] at e
    exact (Except.ok.inj e).symm
  obtain ⟨s', ef, _⟩ := h.final _ _ nn (given_foldl blake2b okB nn key salt pers pieces _ [] g) (by rw [hc]; exact Nat.le_refl _)
  unfold digestOf
  rw [e]
  show (do let r ← (obj blake2b c).final (pieces.foldl (update blake2b) (restart blake2b c)) nn; return r.2 : Except Err _) = _
  rw [ef, List.take_of_length_le]
  · rfl
  · exact Nat.le_of_eq (hash_length blake2b nn key salt pers node _ hn)

theorem blake2s_digest (nn : Nat) (key salt pers : List Byte) (node : Bool) (pieces : List (List Byte)) (hn : nn ≤ 32) (hkey : key.length ≤ 32) (hs : salt.length ≤ 8)
    (hp : pers.length ≤ 8) : digestOf blake2s key nn node salt pers pieces = .ok (Spec.hash Spec.s nn key salt pers node pieces.flatten) := by
  obtain ⟨c, e, _, g, h⟩ := blake2s_computes nn key salt pers node hn hkey hs hp
  have hc : c = config blake2s nn key salt pers node := by
    have e' := uncheckedSetKey_ok okS key nn node salt pers (Nat.le_trans hkey (by decide)) hs hp
    unfold setKey at e
    rw [if_neg (show ¬ key.length > blake2s.digest from Nat.not_lt.mpr hkey), e'] at e
    exact (Except.ok.inj e).symm
  obtain ⟨s', ef, _⟩ := h.final _ _ nn (given_foldl blake2s okS nn key salt pers pieces _ [] g) (by rw [hc]; exact Nat.le_refl _)
  unfold digestOf
  rw [e]
  show (do let r ← (obj blake2s c).final (pieces.foldl (update blake2s) (restart blake2s c)) nn; return r.2 : Except Err _) = _
  rw [ef, List.take_of_length_le]
  · rfl
  · exact Nat.le_of_eq (hash_length blake2s nn key salt pers node _ hn)

def abc : List Byte := [0x61, 0x62, 0x63]

/-- RFC 7693 Appendix A. -/
example : digestOf blake2b [] 64 false [] [] [abc] = .ok (beBytes 64 0xBA80A53F981C4D0D6A2797B69F12F6E94C212F14685AC4B74B12BB6FDBFFA2D17D87C5392AAB792DC252D5DE4533CC9518D38AA8DBF1925AB92386EDD4009923) := by decide +kernel

/-- RFC 7693 Appendix B, in two pieces. -/
example : digestOf blake2s [] 32 false [] [] [[0x61], [0x62, 0x63]] = .ok (beBytes 32 0x508C5E8C327C14E2E1A72BA34EEB452F37458B209ED63A294D999B4C86675982) := by
  decide +kernel

/-- So the specification gives what the RFC prints. -/
example : Spec.hash Spec.s 32 [] [] [] false abc = beBytes 32 0x508C5E8C327C14E2E1A72BA34EEB452F37458B209ED63A294D999B4C86675982 := by decide +kernel

/-- A key, a message and a cut: the key block is compressed when the first byte comes, and the second block after it. -/
example : digestOf blake2s (List.replicate 32 7) 20 false [1, 2] [3] [List.replicate 63 1, [], List.replicate 2 2] =
    .ok (Spec.hash Spec.s 20 (List.replicate 32 7) [1, 2] [3] false (List.replicate 63 1 ++ List.replicate 2 2)) :=
  blake2s_digest 20 _ _ _ false _ (by decide) (by decide) (by decide) (by decide)

/-! ## Sizes that are not in their ranges -/

/-- `SetKey` refuses a key that is too long. -/
theorem setKey_rejects_key (A : Alg) (key : List Byte) (nn : Nat) (node : Bool) (salt pers : List Byte) (h : A.digest < key.length) :
    setKey A key nn node salt pers = .error .invalidArgument := if_pos h

example : setKey blake2s (List.replicate 33 0) 32 false [] [] = .error .invalidArgument := setKey_rejects_key _ _ _ _ _ _ (by decide)

/-- A salt or a personalization that is too long is refused. -/
theorem setKey_rejects_salt (A : Alg) (key : List Byte) (nn : Nat) (node : Bool) (salt pers : List Byte) (hkey : key.length ≤ A.digest) (h : A.salt < salt.length) :
    setKey A key nn node salt pers = .error .invalidArgument := by
  have h2 : ¬ key.length > A.block := by unfold Alg.digest at hkey; unfold Alg.block; omega
  have h0 : salt.length ≠ 0 := by omega
  simp only [setKey, uncheckedSetKey, copyTo, if_neg (show ¬ key.length > A.digest by omega), if_neg h2, if_pos h0, if_pos (show salt.length > A.salt from h), bind, Except.bind]

theorem setKey_rejects_personalization (A : Alg) (ok : A.Ok) (key : List Byte) (nn : Nat) (node : Bool) (salt pers : List Byte) (hkey : key.length ≤ A.digest)
    (h : A.salt < pers.length) : setKey A key nn node salt pers = .error .invalidArgument := by
  by_cases hs : A.salt < salt.length
  · exact setKey_rejects_salt A key nn node salt pers hkey hs
  have h2 : ¬ key.length > A.block := by unfold Alg.digest at hkey; unfold Alg.block; omega
  have hp : pers.length ≠ 0 := by omega
  by_cases h0 : salt.length ≠ 0
  · simp only [setKey, uncheckedSetKey, copyTo, if_neg (show ¬ key.length > A.digest by omega), if_neg h2, if_pos h0, if_neg (show ¬ salt.length > A.salt from hs), bind, Except.bind,
      if_pos hp, if_pos (show pers.length > A.salt from h)]
  · simp only [setKey, uncheckedSetKey, copyTo, if_neg (show ¬ key.length > A.digest by omega), if_neg h2, if_neg h0, bind, Except.bind,
      if_pos hp, if_pos (show pers.length > A.salt from h)]

example : setKey blake2b [1] 64 false [1, 2] (List.replicate 17 0) = .error .invalidArgument := setKey_rejects_personalization _ okB _ _ _ _ _ (by decide) (by decide)

/-- The claim that every size that is not in its range is refused by the constructors. -/
def ConstructorsRefuse : Prop :=
  ∀ (A : Alg) (key : List Byte) (nn : Nat), A = blake2b ∨ A = blake2s → A.digest < key.length ∨ A.digest < nn → construct A key nn false [] [] = .error .invalidArgument

/-- **Fault.** A constructor writes beyond the block it allocates when the key is longer than a block: only an assertion guards it. -/
theorem construct_long_key (A : Alg) (key : List Byte) (nn : Nat) (node : Bool) (salt pers : List Byte) (h : A.block < key.length) :
    construct A key nn node salt pers = .error .undefinedBehaviour := by
  unfold construct uncheckedSetKey
  rw [if_pos (show key.length > A.block from h)]
  rfl

theorem leBytes_max : ∀ k, leBytes k (256 ^ k - 1) = List.replicate k 0xff
  | 0 => rfl
  | k + 1 => by
    have hp : 0 < 256 ^ k := Nat.pow_pos (by decide)
    have e1 : (256 ^ (k + 1) - 1) % 256 = 255 := by rw [Nat.pow_succ]; omega
    have e2 : (256 ^ (k + 1) - 1) / 256 = 256 ^ k - 1 := by rw [Nat.pow_succ]; omega
    rw [leBytes, e2, leBytes_max k, List.replicate_succ]
    congr 1
    apply BitVec.eq_of_toNat_eq
    rw [BitVec.toNat_ofNat]
    exact e1

theorem leBytes_ones (k : Nat) : leBytes k (~~~(0 : BitVec (8 * k))).toNat = List.replicate k 0xff := by
  rw [← leBytes_max, show ~~~(0 : BitVec (8 * k)) = BitVec.allOnes (8 * k) by simp, BitVec.toNat_allOnes, pow256]

theorem leBytes_zero' : ∀ k, leBytes k 0 = List.replicate k 0
  | 0 => rfl
  | k + 1 => by rw [leBytes, Nat.zero_div, leBytes_zero' k]; rfl

/-- **Fault.** `BLAKE2s(digestSize)` and the parameter `DigestSize` take a size of more than 32 bytes. The bytes of the digest after the 32nd are then the length of the
message and the flags: they do not depend on anything else. -/
theorem long_digest (A : Alg) (ok : A.Ok) (nn : Nat) (key salt pers : List Byte) (node : Bool) (hkey : key.length ≤ A.digest) (hs : salt.length ≤ A.salt) (hp : pers.length ≤ A.salt)
    (h1 : A.digest < nn) (h2 : nn ≤ 12 * A.k) : ∃ c, setKey A key nn node salt pers = .ok c ∧ ∀ (s : State A) (m : List Byte), Given A nn key salt pers s m →
      ∃ d, d.length = A.digest ∧ final A c s nn = .ok (restart A c, (d ++
        (leBytes A.k (Spec.input A.variant key m).length ++ leBytes A.k ((Spec.input A.variant key m).length / 2 ^ (8 * A.k)) ++ List.replicate A.k 0xff ++
          List.replicate A.k (if node then 0xff else 0))).take nn) := by
  have hk := ok.k
  have hb : key.length ≤ A.block := by unfold Alg.digest at hkey; unfold Alg.block; omega
  refine ⟨config A nn key salt pers node, ?_, ?_⟩
  · unfold setKey
    rw [if_neg (by omega), uncheckedSetKey_ok ok key nn node salt pers hb hs hp]
    rfl
  intro s m hg
  have hsf : (if node = true then { s with f0 := ~~~0, f1 := ~~~0 } else { s with f0 := ~~~0 }) = { s with f0 := ~~~0, f1 := if node then ~~~0 else (0 : A.Word) } := by
    obtain ⟨x, _, hc, _⟩ := hg
    cases node
    · simp [hc.f1]
    · rfl
  have hw := final_words ok s _ node hg _ rfl
  have hcount : Counts (increment A { s with f0 := ~~~0, f1 := if node then ~~~0 else (0 : A.Word) } s.buf.length) (Spec.input A.variant key m).length := by
    obtain ⟨x, e, hc, hbuf, _⟩ := hg
    rw [e, List.length_append]
    exact increment_counts { s with f0 := ~~~0, f1 := if node then ~~~0 else 0 } _ _ hc.t (Nat.lt_of_le_of_lt hbuf (block_lt ok))
  refine ⟨unwords .little A.k (Spec.process A.variant node (Spec.input A.variant key m).length (start A nn key.length salt pers) 0 (chunks A.variant.bb (Spec.input A.variant key m))), ?_, ?_⟩
  · rw [unwords_length, process_length]; rfl
  unfold final
  rw [if_neg (show ¬ (config A nn key salt pers node).digestSize < nn from Nat.lt_irrefl _)]
  show (if 12 * A.k < nn then _ else _) = _
  rw [if_neg (by omega)]
  show Except.ok (restart A (config A nn key salt pers node), _) = _
  rw [show (config A nn key salt pers node).treeMode = node from rfl]
  dsimp only
  rw [hsf]
  congr 3
  unfold unwords
  rw [List.flatMap_append]
  congr 1
  · exact congrArg (List.flatMap _) hw
  · show leBytes A.k (increment A { s with f0 := ~~~0, f1 := if node then ~~~0 else (0 : A.Word) } s.buf.length).t0.toNat ++
      (leBytes A.k (increment A { s with f0 := ~~~0, f1 := if node then ~~~0 else (0 : A.Word) } s.buf.length).t1.toNat ++
      (leBytes A.k (~~~(0 : A.Word)).toNat ++ (leBytes A.k (if node then ~~~0 else (0 : A.Word)).toNat ++ []))) = _
    rw [hcount.1, hcount.2, BitVec.toNat_ofNat, BitVec.toNat_ofNat, pow256, leBytes_mod, leBytes_mod, leBytes_ones, Nat.shiftRight_eq_div_pow, pow256]
    have : leBytes A.k (if node then ~~~0 else (0 : A.Word)).toNat = List.replicate A.k (if node then 0xff else 0) := by
      cases node
      · exact leBytes_zero' A.k
      · exact leBytes_ones A.k
    rw [this]
    simp only [List.append_nil, List.append_assoc]

/-- Two objects with 40 bytes of digest, messages of three bytes: the last eight bytes are the number 3. -/
example : (digestOf blake2s [] 40 false [] [] [abc]).map (List.drop 32) = .ok [3, 0, 0, 0, 0, 0, 0, 0] ∧
    (digestOf blake2s [] 40 false [] [] [[9, 9, 9]]).map (List.drop 32) = .ok [3, 0, 0, 0, 0, 0, 0, 0] := by decide +kernel

/-- With more than 48 bytes the digest is read from beyond the state. -/
theorem longer_digest (A : Alg) (c : Config) (s : State A) (n : Nat) (h1 : n ≤ c.digestSize) (h2 : 12 * A.k < n) : final A c s n = .error .undefinedBehaviour := by
  unfold final
  rw [if_neg (by omega)]
  dsimp only
  rw [if_pos h2]

example : digestOf blake2s [] 49 false [] [] [abc] = .error .undefinedBehaviour := by decide +kernel

/-- **The constructors do not refuse.** -/
theorem constructors_do_not_refuse : ¬ ConstructorsRefuse := by
  intro h
  have := h blake2s (List.replicate 65 0) 32 (.inr rfl) (.inl (by decide))
  rw [construct_long_key blake2s _ _ _ _ _ (by decide)] at this
  cases this

end Verif.Blake2
