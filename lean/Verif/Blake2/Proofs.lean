import Verif.Blake2.Model
import Verif.Blake2.Spec

/-! # BLAKE2: proofs -/
namespace Verif.Blake2
open Verif.Cipher (rotr nth words unwords pow256 unwords_length)

/-- The variant of the RFC with the constants of `A`. -/
abbrev Alg.variant (A : Alg) : Spec.Variant := ⟨8 * A.k, A.sigma.length, A.r1, A.r2, A.r3, A.r4, A.iv⟩

/-- What the proofs need of the constants. -/
structure Alg.Ok (A : Alg) : Prop where
  k : 1 ≤ A.k
  r1 : 0 < A.r1 ∧ A.r1 < 8 * A.k
  r2 : 0 < A.r2 ∧ A.r2 < 8 * A.k
  r3 : 0 < A.r3 ∧ A.r3 < 8 * A.k
  r4 : 0 < A.r4 ∧ A.r4 < 8 * A.k
  sigma : A.sigma = (List.range A.sigma.length).map fun i => Spec.SIGMA.getD (i % 10) []

theorem okB : blake2b.Ok := ⟨by decide, by decide, by decide, by decide, by decide, by decide⟩
theorem okS : blake2s.Ok := ⟨by decide, by decide, by decide, by decide, by decide, by decide⟩
theorem variantB : blake2b.variant = Spec.b := rfl
theorem variantS : blake2s.variant = Spec.s := rfl

theorem rotr_eq {w : Nat} (x : BitVec w) (n : Nat) (h : 0 < n ∧ n < w) : rotr x n = x.rotateRight n := by
  unfold rotr BitVec.rotateRight BitVec.rotateRightAux
  rw [Nat.mod_eq_of_lt h.2, Nat.mod_eq_of_lt (a := w - n) (by omega)]

variable {A : Alg}

theorem bb_eq : A.variant.bb = A.block := by show 8 * A.k * 2 = 16 * A.k; omega

theorem G_eq (ok : A.Ok) (row : List Nat) (m : List A.Word) (n a b c d : Nat) (v : List A.Word) :
    G A row m n a b c d v = Spec.G A.variant v a b c d (nth m (row.getD (2 * n) 0)) (nth m (row.getD (2 * n + 1) 0)) := by
  unfold G Spec.G
  simp -zeta only [rotr_eq _ _ ok.r1, rotr_eq _ _ ok.r2, rotr_eq _ _ ok.r3, rotr_eq _ _ ok.r4, nth, Nat.add_zero]
  rfl

theorem round_eq (ok : A.Ok) (m v : List A.Word) (i : Nat) : round A m v (Spec.SIGMA.getD (i % 10) []) = Spec.round A.variant m v i := by
  unfold round Spec.round Spec.positions
  simp only [G_eq ok, List.zipIdx_cons, List.zipIdx_nil, List.foldl_cons, List.foldl_nil, nth, Nat.reduceAdd, Nat.reduceMul]

theorem words_eq (x : List Byte) : words .little A.k x = Spec.words A.variant x := by
  unfold words Spec.words
  rw [show A.variant.w / 8 = A.k by show 8 * A.k / 8 = A.k; omega]
  rfl

theorem compress_h (ok : A.Ok) (s : State A) (x : List Byte) (t : Nat) (last node : Bool) (h0 : s.t0 = BitVec.ofNat _ t) (h1 : s.t1 = BitVec.ofNat _ (t >>> (8 * A.k)))
    (hf0 : s.f0 = Spec.flag A.variant last) (hf1 : s.f1 = Spec.flag A.variant node) : (compress A s x).h = Spec.F A.variant s.h x t last node := by
  unfold compress Spec.F
  dsimp only
  have hfold : ∀ v : List A.Word, A.sigma.foldl (round A (words .little A.k x)) v =
      (List.range A.variant.rounds).foldl (Spec.round A.variant (Spec.words A.variant x)) v := by
    intro v
    rw [ok.sigma, List.foldl_map, ← words_eq]
    simp only [round_eq ok]
  rw [hfold]
  have hv : [nth A.iv 0, nth A.iv 1, nth A.iv 2, nth A.iv 3, s.t0 ^^^ nth A.iv 4, s.t1 ^^^ nth A.iv 5, s.f0 ^^^ nth A.iv 6, s.f1 ^^^ nth A.iv 7] =
      [A.variant.IV.getD 0 0, A.variant.IV.getD 1 0, A.variant.IV.getD 2 0, A.variant.IV.getD 3 0, A.variant.IV.getD 4 0 ^^^ BitVec.ofNat _ t,
        A.variant.IV.getD 5 0 ^^^ BitVec.ofNat _ (t >>> A.variant.w), A.variant.IV.getD 6 0 ^^^ Spec.flag A.variant last, A.variant.IV.getD 7 0 ^^^ Spec.flag A.variant node] := by
    rw [h0, h1, hf0, hf1]
    simp only [List.cons.injEq, and_true]
    exact ⟨rfl, rfl, rfl, rfl, BitVec.xor_comm _ _, BitVec.xor_comm _ _, BitVec.xor_comm _ _, BitVec.xor_comm _ _⟩
  rw [hv]
  apply List.map_congr_left
  intro i _
  exact (BitVec.xor_assoc _ _ _).symm

/-- The two words of the counter, and the flags not set. -/
def Counts (s : State A) (t : Nat) : Prop := s.t0 = BitVec.ofNat _ t ∧ s.t1 = BitVec.ofNat _ (t >>> (8 * A.k))

theorem increment_counts (s : State A) (t c : Nat) (h : Counts s t) (hc : c < 2 ^ (8 * A.k)) : Counts (increment A s c) (t + c) := by
  obtain ⟨h0, h1⟩ := h
  have e0 : s.t0 + BitVec.ofNat (8 * A.k) c = BitVec.ofNat (8 * A.k) (t + c) := by rw [h0, BitVec.ofNat_add]
  refine ⟨e0, ?_⟩
  show s.t1 + (if (s.t0 + BitVec.ofNat (8 * A.k) c).toNat < c then 1 else 0) = _
  rw [e0, h1, BitVec.toNat_ofNat, Nat.shiftRight_eq_div_pow, Nat.shiftRight_eq_div_pow]
  generalize 2 ^ (8 * A.k) = W at hc
  have hW : 0 < W := by omega
  have key : (t + c) / W = t / W + (if (t + c) % W < c then 1 else 0) := by
    have hr := Nat.mod_lt t hW
    have hd := Nat.div_add_mod t W
    generalize t / W = q at *
    generalize t % W = r at *
    subst hd
    by_cases hlt : r + c < W
    · rw [Nat.add_assoc, Nat.mul_add_div hW, Nat.mul_add_mod, Nat.div_eq_of_lt hlt, Nat.mod_eq_of_lt hlt, if_neg (by omega)]
    · have e : r + c = W * 1 + (r + c - W) := by omega
      rw [Nat.add_assoc, Nat.mul_add_div hW, Nat.mul_add_mod, e, Nat.mul_add_div hW, Nat.mul_add_mod, Nat.div_eq_of_lt (by omega), Nat.mod_eq_of_lt (by omega),
        if_pos (by omega)]
  rw [key]
  split <;> simp [BitVec.ofNat_add]

theorem block_lt (ok : A.Ok) : A.block < 2 ^ (8 * A.k) := by
  have := ok.k
  unfold Alg.block
  have h : ∀ n, 16 * (n + 1) < 2 ^ (8 * (n + 1)) := by
    intro n
    induction n with
    | zero => decide
    | succ n ih =>
      rw [show 8 * (n + 1 + 1) = 8 * (n + 1) + 8 by omega, Nat.pow_add]
      omega
  have := h (A.k - 1)
  rwa [show A.k - 1 + 1 = A.k by omega] at this

theorem block_pos (ok : A.Ok) : 0 < A.block := by have := ok.k; unfold Alg.block; omega

/-! ## The message so far -/

/-- The blocks before the last one. -/
def absorb (V : Spec.Variant) : List (BitVec V.w) → Nat → List (List Byte) → List (BitVec V.w)
  | h, _, [] => h
  | h, t, d :: ds => absorb V (Spec.F V h d (t + V.bb) false false) (t + V.bb) ds

theorem absorb_snoc (V : Spec.Variant) (b : List Byte) : ∀ (ds : List (List Byte)) (h : List (BitVec V.w)) (t : Nat),
    absorb V h t (ds ++ [b]) = Spec.F V (absorb V h t ds) b (t + ds.length * V.bb + V.bb) false false
  | [], h, t => by simp [absorb]
  | d :: ds, h, t => by
    rw [List.cons_append, absorb, absorb_snoc V b ds, absorb, List.length_cons, Nat.add_mul ds.length 1, Nat.one_mul]
    congr 2
    omega

theorem process_snoc (V : Spec.Variant) (node : Bool) (ll : Nat) (b : List Byte) : ∀ (ds : List (List Byte)) (h : List (BitVec V.w)) (t : Nat),
    Spec.process V node ll h t (ds ++ [b]) = Spec.F V (absorb V h t ds) (Spec.pad V.bb b) ll true node
  | [], h, t => rfl
  | [d], h, t => rfl
  | d :: e :: ds, h, t => by
    have := process_snoc V node ll b (e :: ds) (Spec.F V h d (t + V.bb) false false) (t + V.bb)
    exact this

/-- Everything but the buffer: the blocks in `x` are in the state. -/
structure Core (h0 : List A.Word) (s : State A) (x : List Byte) : Prop where
  mul : x.length % A.block = 0
  h : s.h = absorb A.variant h0 0 (chunks A.block x)
  t : Counts s x.length
  f0 : s.f0 = 0
  f1 : s.f1 = 0

/-- `D` is what has been given so far, with the key. -/
def Inv (h0 : List A.Word) (s : State A) (D : List Byte) : Prop :=
  ∃ x, D = x ++ s.buf ∧ Core h0 s x ∧ s.buf.length ≤ A.block ∧ (x ≠ [] → s.buf ≠ [])

theorem Core.step (ok : A.Ok) {h0 : List A.Word} {s : State A} {x b buf : List Byte} (hs : Core h0 s x) (hb : b.length = A.block) :
    Core h0 { compress A (increment A s A.block) b with buf := buf } (x ++ b) := by
  have hc := increment_counts s _ _ hs.t (block_lt ok)
  refine ⟨by rw [List.length_append, hb, Nat.add_mod, hs.mul]; simp, ?_, ?_, hs.f0, hs.f1⟩
  · show (compress A (increment A s A.block) b).h = _
    rw [compress_h ok _ b (x.length + A.block) false false hc.1 hc.2 hs.f0 hs.f1]
    have e1 : chunks A.block b = [b] := by
      have := chunks_append_block _ (block_pos ok) b [] hb
      rwa [List.append_nil, chunks_nil] at this
    rw [chunks_append _ (block_pos ok) _ _ hs.mul, e1, absorb_snoc]
    show Spec.F A.variant s.h _ _ _ _ = _
    rw [hs.h, chunks_length _ (block_pos ok) _ hs.mul, bb_eq, Nat.div_mul_cancel (Nat.dvd_of_mod_eq_zero hs.mul), Nat.zero_add]
  · rw [List.length_append, hb]; exact hc

theorem blocks_spec (ok : A.Ok) {h0 : List A.Word} : ∀ (n : Nat) (s : State A) (x y : List Byte), Core h0 s x → y.length ≤ n →
    ∃ z, y = z ++ (blocks A n s y).2 ∧ Core h0 (blocks A n s y).1 (x ++ z) ∧ (blocks A n s y).2.length ≤ A.block ∧ (y ≠ [] → (blocks A n s y).2 ≠ []) ∧
      (blocks A n s y).1.buf = s.buf
  | 0, s, x, y, hs, hn => by
    have : y = [] := List.eq_nil_of_length_eq_zero (by omega)
    subst this
    exact ⟨[], rfl, by simpa [blocks] using hs, by simp [blocks], fun h => h, rfl⟩
  | n + 1, s, x, y, hs, hn => by
    have hp := block_pos ok
    unfold blocks
    by_cases h : y.length > A.block
    · rw [if_pos h]
      have ht : (y.take A.block).length = A.block := by rw [List.length_take]; omega
      have hs' := hs.step ok (buf := (compress A (increment A s A.block) (y.take A.block)).buf) ht
      obtain ⟨z, e, c, l, ne, b⟩ := blocks_spec ok n _ _ (y.drop A.block) hs' (by rw [List.length_drop]; omega)
      refine ⟨y.take A.block ++ z, ?_, by rw [← List.append_assoc]; exact c, l, fun _ => ne ?_, b⟩
      · rw [List.append_assoc, ← e, List.take_append_drop]
      · intro hnil
        have := congrArg List.length hnil
        rw [List.length_drop] at this
        simp at this; omega
    · rw [if_neg h]
      exact ⟨[], rfl, by simpa using hs, by simpa using h, fun h => h, rfl⟩

theorem Core.buf {h0 : List A.Word} {s : State A} {x : List Byte} (hs : Core h0 s x) (b : List Byte) : Core h0 { s with buf := b } x := ⟨hs.mul, hs.h, hs.t, hs.f0, hs.f1⟩

theorem update_inv (ok : A.Ok) {h0 : List A.Word} (s : State A) (D y : List Byte) (hs : Inv h0 s D) : Inv h0 (update A s y) (D ++ y) := by
  have hp := block_pos ok
  obtain ⟨x, rfl, hc, hb, hne⟩ := hs
  unfold update
  by_cases hlen : y.length > A.block - s.buf.length
  · have hy : y ≠ [] := by rintro rfl; simp at hlen
    simp only [if_pos hlen]
    by_cases hz : s.buf.length = 0
    · have hbuf : s.buf = [] := List.eq_nil_of_length_eq_zero hz
      simp only [hz, ne_eq, not_true_eq_false, if_false]
      obtain ⟨z, e, c, l, ne, b⟩ := blocks_spec ok y.length s x y hc (Nat.le_refl _)
      generalize blocks A y.length s y = r at e c l ne b
      have hr := ne hy
      rw [if_pos (by intro h0; exact hr (List.eq_nil_of_length_eq_zero h0)), hbuf]
      refine ⟨x ++ z, ?_, c.buf _, ?_, ?_⟩
      · simp only [b, hbuf, List.append_nil, List.nil_append]; rw [List.append_assoc, ← e]
      · simp only [b, hbuf, List.nil_append]; exact l
      · intro _; simp only [b, hbuf, List.nil_append]; exact hr
    · simp only [ne_eq, hz, not_false_eq_true, if_true]
      have hfill : (s.buf ++ y.take (A.block - s.buf.length)).length = A.block := by rw [List.length_append, List.length_take]; omega
      have hs' := hc.step ok (buf := []) hfill
      obtain ⟨z, e, c, l, ne, b⟩ := blocks_spec ok (y.drop (A.block - s.buf.length)).length _ _ (y.drop (A.block - s.buf.length)) hs' (Nat.le_refl _)
      generalize blocks A _ _ _ = r at e c l ne b
      have hr : r.2 ≠ [] := by
        apply ne
        intro hnil
        have := congrArg List.length hnil
        rw [List.length_drop] at this
        simp at this; omega
      rw [if_pos (by intro h0; exact hr (List.eq_nil_of_length_eq_zero h0))]
      have hbr : r.1.buf = [] := b
      refine ⟨_, ?_, c.buf _, ?_, ?_⟩
      · simp only [hbr, List.nil_append]
        rw [List.append_assoc (x ++ _) z, ← e, List.append_assoc, List.append_assoc, List.append_assoc, List.take_append_drop]
      · simp only [hbr, List.nil_append]; exact l
      · intro _; simp only [hbr, List.nil_append]; exact hr
  · simp only [if_neg hlen]
    by_cases hz : y.length = 0
    · have : y = [] := List.eq_nil_of_length_eq_zero hz
      subst this
      simp only [List.length_nil, ne_eq, not_true_eq_false, if_false, List.append_nil]
      exact ⟨x, rfl, hc, hb, hne⟩
    · rw [if_pos hz]
      refine ⟨x, by rw [List.append_assoc], hc.buf _, ?_, ?_⟩
      · show (s.buf ++ y).length ≤ _
        rw [List.length_append]; omega
      · intro _ h
        have := congrArg List.length h
        have h2 : (s.buf ++ y).length = 0 := this
        rw [List.length_append] at h2; omega

/-! ## The end -/

theorem F_length (V : Spec.Variant) (h : List (BitVec V.w)) (x : List Byte) (t : Nat) (l n : Bool) : (Spec.F V h x t l n).length = 8 := by
  simp [Spec.F]

/-- The words the last compression gives. -/
theorem final_words (ok : A.Ok) {h0 : List A.Word} (s : State A) (D : List Byte) (node : Bool) (hs : Inv h0 s D) (s1 : State A)
    (h1 : s1 = increment A { s with f0 := ~~~0, f1 := if node then ~~~0 else 0 } s.buf.length) :
    (compress A s1 (s.buf ++ List.replicate (A.block - s.buf.length) 0)).h = Spec.process A.variant node D.length h0 0 (chunks A.variant.bb D) := by
  have hp := block_pos ok
  obtain ⟨x, rfl, hc, hb, hne⟩ := hs
  have hcount : Counts s1 (x ++ s.buf).length := by
    rw [h1, List.length_append]
    exact increment_counts { s with f0 := ~~~0, f1 := if node then ~~~0 else 0 } _ _ hc.t (Nat.lt_of_le_of_lt hb (block_lt ok))
  have hf0 : s1.f0 = Spec.flag A.variant true := by
    rw [h1]
    show ~~~(0#(8 * A.k)) = _
    rw [show Spec.flag A.variant true = BitVec.allOnes (8 * A.k) from rfl]; simp
  have hf1 : s1.f1 = Spec.flag A.variant node := by
    rw [h1]
    show (if node then ~~~(0#(8 * A.k)) else 0) = _
    cases node
    · rfl
    · rw [show Spec.flag A.variant true = BitVec.allOnes (8 * A.k) from rfl]; simp
  rw [compress_h ok s1 _ _ true node hcount.1 hcount.2 hf0 hf1]
  rw [show s1.h = s.h by rw [h1]; rfl, hc.h, bb_eq]
  by_cases hbuf : s.buf = []
  · have hx : x = [] := Classical.byContradiction fun h => hne h hbuf
    subst hx
    rw [hbuf]
    simp only [List.append_nil, chunks_nil, absorb, Spec.process, bb_eq]
    rfl
  · have e : chunks A.block s.buf = [s.buf] := by
      rw [chunks_of_ne_nil _ hp _ hbuf, List.take_of_length_le hb, List.drop_of_length_le hb, chunks_nil]
    rw [chunks_append _ hp _ _ hc.mul, e, process_snoc, bb_eq]
    rfl

theorem final_spec (ok : A.Ok) {h0 : List A.Word} (c : Config) (s : State A) (D : List Byte) (n : Nat) (hs : Inv h0 s D) (hd : c.digestSize ≤ A.digest) (hn : n ≤ c.digestSize) :
    final A c s n = .ok (restart A c, ((Spec.process A.variant c.treeMode D.length h0 0 (chunks A.variant.bb D)).flatMap fun x => leBytes A.k x.toNat).take n) := by
  have hk := ok.k
  unfold final
  rw [if_neg (by omega)]
  dsimp only
  have hsf : (if c.treeMode = true then { s with f0 := ~~~0, f1 := ~~~0 } else { s with f0 := ~~~0 }) = { s with f0 := ~~~0, f1 := if c.treeMode then ~~~0 else (0 : A.Word) } := by
    obtain ⟨x, _, hc, _⟩ := hs
    cases c.treeMode
    · simp [hc.f1]
    · rfl
  rw [hsf]
  unfold Alg.digest at hd
  rw [if_neg (by omega)]
  have hw := final_words ok s D c.treeMode hs _ rfl
  have hbuf : (increment A { s with f0 := ~~~0, f1 := if c.treeMode then ~~~0 else (0 : A.Word) } s.buf.length).buf = s.buf := rfl
  rw [hbuf, hw]
  congr 2
  unfold unwords
  rw [List.flatMap_append, List.take_append_of_le_length]
  · rfl
  · have := unwords_length .little A.k (Spec.process A.variant c.treeMode D.length h0 0 (chunks A.variant.bb D))
    unfold unwords at this
    rw [this, ← hw]
    simp [compress]; omega

/-! ## The parameter block -/

theorem parameters_eq (A : Alg) (hk : 1 ≤ A.k) (nn kk : Nat) (salt pers : List Byte) : Spec.parameters A.variant nn kk salt pers =
    [BitVec.ofNat 8 nn, BitVec.ofNat 8 kk, 1, 1] ++ List.replicate (4 * A.k - 4) 0 ++ (salt ++ List.replicate (2 * A.k - salt.length) 0) ++
      (pers ++ List.replicate (2 * A.k - pers.length) 0) := by
  unfold Spec.parameters Spec.pad
  rw [show A.variant.w / 2 = 4 * A.k by show 8 * A.k / 2 = 4 * A.k; omega, show A.variant.w / 4 = 2 * A.k by show 8 * A.k / 4 = 2 * A.k; omega]
  rfl

theorem resetBlock_eq (hk : 1 ≤ A.k) (nn kk : Nat) : resetBlock A nn kk = [BitVec.ofNat 8 nn, BitVec.ofNat 8 kk, 1, 1] ++ List.replicate (8 * A.k - 4) 0 := by
  unfold resetBlock
  rw [show 8 * A.k = (8 * A.k - 4) + 1 + 1 + 1 + 1 by omega]
  simp only [List.replicate_succ]
  rfl

theorem copyTo_ok (a b src : List Byte) (off room : Nat) (ha : a.length = off) (h : src.length ≤ room) :
    copyTo (a ++ b) off room src = .ok (a ++ src ++ b.drop src.length) := by
  unfold copyTo
  rw [if_neg (by omega), List.take_append_of_le_length (by omega), List.take_of_length_le (by omega), List.drop_append]
  rw [List.drop_of_length_le (by omega), List.nil_append, show off + src.length - a.length = src.length by omega]

/-- Setting up an object with sizes in their ranges. -/
theorem uncheckedSetKey_ok (ok : A.Ok) (key : List Byte) (nn : Nat) (node : Bool) (salt pers : List Byte) (hkey : key.length ≤ A.block) (hs : salt.length ≤ A.salt)
    (hp : pers.length ≤ A.salt) : uncheckedSetKey A key nn node salt pers =
      .ok ⟨Spec.parameters A.variant nn key.length salt pers, if key = [] then [] else Spec.pad A.block key, nn, key.length, node⟩ := by
  have hk := ok.k
  unfold Alg.salt at hs hp
  unfold uncheckedSetKey
  rw [if_neg (by omega)]
  have e1 : (if salt.length ≠ 0 then copyTo (resetBlock A nn key.length) (4 * A.k) A.salt salt else .ok (resetBlock A nn key.length)) =
      .ok ([BitVec.ofNat 8 nn, BitVec.ofNat 8 key.length, 1, 1] ++ List.replicate (4 * A.k - 4) 0 ++ (salt ++ List.replicate (2 * A.k - salt.length) 0) ++ List.replicate (2 * A.k) 0) := by
    rw [resetBlock_eq hk, show 8 * A.k - 4 = (4 * A.k - 4) + 4 * A.k by omega, ← List.replicate_append_replicate, ← List.append_assoc]
    have e : copyTo ([BitVec.ofNat 8 nn, BitVec.ofNat 8 key.length, 1, 1] ++ List.replicate (4 * A.k - 4) 0 ++ List.replicate (4 * A.k) 0) (4 * A.k) A.salt salt =
        .ok ([BitVec.ofNat 8 nn, BitVec.ofNat 8 key.length, 1, 1] ++ List.replicate (4 * A.k - 4) 0 ++ (salt ++ List.replicate (2 * A.k - salt.length) 0) ++ List.replicate (2 * A.k) 0) := by
      rw [copyTo_ok _ _ _ _ _ (by simp; omega) (by unfold Alg.salt; omega), List.drop_replicate, show 4 * A.k - salt.length = (2 * A.k - salt.length) + 2 * A.k by omega,
        ← List.replicate_append_replicate]
      simp only [List.append_assoc]
    by_cases h : salt.length = 0
    · rw [if_neg (by omega)]
      have : salt = [] := List.eq_nil_of_length_eq_zero h
      subst this
      rw [← e, copyTo_ok _ _ _ _ _ (by simp; omega) (by simp)]
      simp
    · rw [if_pos h, e]
  have e2 : (if pers.length ≠ 0 then copyTo ([BitVec.ofNat 8 nn, BitVec.ofNat 8 key.length, 1, 1] ++ List.replicate (4 * A.k - 4) 0 ++
        (salt ++ List.replicate (2 * A.k - salt.length) 0) ++ List.replicate (2 * A.k) 0) (6 * A.k) A.salt pers
      else .ok ([BitVec.ofNat 8 nn, BitVec.ofNat 8 key.length, 1, 1] ++ List.replicate (4 * A.k - 4) 0 ++ (salt ++ List.replicate (2 * A.k - salt.length) 0) ++ List.replicate (2 * A.k) 0)) =
      .ok (Spec.parameters A.variant nn key.length salt pers) := by
    rw [parameters_eq A hk]
    by_cases h : pers.length = 0
    · rw [if_neg (by omega)]
      have : pers = [] := List.eq_nil_of_length_eq_zero h
      subst this
      simp
    · rw [if_pos h, copyTo_ok _ _ _ _ _ (by simp; omega) (by unfold Alg.salt; omega), List.drop_replicate]
      simp only [List.append_assoc]
  show (do
    let block ← (if salt.length ≠ 0 then copyTo (resetBlock A nn key.length) (4 * A.k) A.salt salt else .ok (resetBlock A nn key.length) : Except Err _)
    let block ← (if pers.length ≠ 0 then copyTo block (6 * A.k) A.salt pers else .ok block : Except Err _)
    return (⟨block, if key.length ≠ 0 then key ++ List.replicate (A.block - key.length) 0 else [], nn, key.length, node⟩ : Config) : Except Err Config) = _
  rw [e1]
  show (do
    let block ← (if pers.length ≠ 0 then copyTo ([BitVec.ofNat 8 nn, BitVec.ofNat 8 key.length, 1, 1] ++ List.replicate (4 * A.k - 4) 0 ++
        (salt ++ List.replicate (2 * A.k - salt.length) 0) ++ List.replicate (2 * A.k) 0) (6 * A.k) A.salt pers
      else .ok ([BitVec.ofNat 8 nn, BitVec.ofNat 8 key.length, 1, 1] ++ List.replicate (4 * A.k - 4) 0 ++ (salt ++ List.replicate (2 * A.k - salt.length) 0) ++ List.replicate (2 * A.k) 0) : Except Err _)
    return (⟨block, if key.length ≠ 0 then key ++ List.replicate (A.block - key.length) 0 else [], nn, key.length, node⟩ : Config) : Except Err Config) = _
  rw [e2]
  show Except.ok _ = _
  congr 2
  by_cases h : key = []
  · rw [if_pos h, if_neg (by simp [h])]
  · rw [if_neg h, if_pos (by simp [h])]; rfl

/-- The chaining value at the beginning. -/
def start (A : Alg) (nn kk : Nat) (salt pers : List Byte) : List A.Word :=
  (List.range 8).map fun i => A.iv.getD i 0 ^^^ (Spec.words A.variant (Spec.parameters A.variant nn kk salt pers)).getD i 0

theorem restart_inv (ok : A.Ok) (key : List Byte) (nn : Nat) (node : Bool) (salt pers : List Byte) (hkey : key.length ≤ A.block) :
    Inv (start A nn key.length salt pers) (restart A ⟨Spec.parameters A.variant nn key.length salt pers, if key = [] then [] else Spec.pad A.block key, nn, key.length, node⟩)
      (Spec.input A.variant key []) := by
  have hk := ok.k
  unfold restart
  dsimp only
  have hset : ((Spec.parameters A.variant nn key.length salt pers).set 0 (BitVec.ofNat 8 nn)).set 1 (BitVec.ofNat 8 key.length) = Spec.parameters A.variant nn key.length salt pers := by
    rw [parameters_eq A hk]; rfl
  rw [hset, words_eq]
  have h0 : Inv (start A nn key.length salt pers)
      (⟨(List.range 8).map fun i => nth A.iv i ^^^ nth (Spec.words A.variant (Spec.parameters A.variant nn key.length salt pers)) i, 0, 0, 0, 0, []⟩ : State A) [] := by
    refine ⟨[], rfl, ⟨by simp, rfl, ⟨rfl, ?_⟩, rfl, rfl⟩, Nat.zero_le _, fun h => h⟩
    show (0 : A.Word) = BitVec.ofNat _ (0 >>> _)
    rw [Nat.zero_shiftRight]; rfl
  unfold Spec.input
  by_cases h : key = []
  · subst h
    simp only [List.length_nil, ne_eq, not_true_eq_false, if_false, if_true]
    exact h0
  · rw [if_pos (by simpa using h), if_neg h, if_neg h]
    have := update_inv ok _ _ (Spec.pad A.block key) h0
    rw [bb_eq, List.append_nil]
    exact this

end Verif.Blake2
