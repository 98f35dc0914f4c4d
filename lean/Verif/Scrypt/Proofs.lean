import Verif.Scrypt.Model
import Verif.Scrypt.Spec
import Verif.Chacha.Proofs

namespace Verif.Scrypt

theorem doubleRound_eq (s : List W) (hs : s.length = 16) : doubleRound s = Spec.rowround (Spec.columnround s) := by
  revert s
  refine Chacha.sixteen ?_
  intro x0 x1 x2 x3 x4 x5 x6 x7 x8 x9 x10 x11 x12 x13 x14 x15
  simp only [doubleRound, stmt, Cipher.rotl_eq, Spec.rowround, Spec.columnround, Spec.quarterround, List.set, List.getD_cons_zero, List.getD_cons_succ]

theorem stmt_length (d n a b : Nat) (x : List W) : (stmt d n a b x).length = x.length := by simp [stmt]

theorem doubleRound_length (x : List W) : (doubleRound x).length = x.length := by simp only [doubleRound, stmt_length]

theorem repeat_eq (n : Nat) (x : List W) (h : x.length = 16) :
    (Nat.repeat doubleRound n x).length = 16 ∧ Nat.repeat doubleRound n x = Nat.repeat (fun x => Spec.rowround (Spec.columnround x)) n x := by
  induction n with
  | zero => refine ⟨h, ?_⟩; simp only [Nat.repeat]
  | succ n ih =>
    refine ⟨?_, ?_⟩
    · show (doubleRound (Nat.repeat doubleRound n x)).length = 16
      rw [doubleRound_length]; exact ih.1
    · show doubleRound (Nat.repeat doubleRound n x) = Spec.rowround (Spec.columnround (Nat.repeat _ n x))
      rw [doubleRound_eq _ ih.1, ih.2]

theorem salsa8_eq (b : List Byte) : salsa8 b = Spec.salsa 4 b := by
  unfold salsa8 Spec.salsa core
  rw [(repeat_eq _ _ (by simp)).2]
  simp only [Nat.mul_comm 4]

theorem flatMap_congr {α β : Type} {f g : α → List β} {l : List α} (h : ∀ a ∈ l, f a = g a) : l.flatMap f = l.flatMap g := by
  rw [List.flatMap_def, List.flatMap_def, List.map_congr_left h]

theorem flatMap4 (l : List W) : (l.flatMap fun w => leBytes 4 w.toNat).length = 4 * l.length := by
  induction l with
  | nil => rfl
  | cons a t ih => simp [ih]; omega

theorem salsa_length (b : List Byte) : (Spec.salsa 4 b).length = 64 := by
  rw [← salsa8_eq]
  unfold salsa8 core
  rw [flatMap4]
  simp [(repeat_eq 4 ((List.range 16).map fun i => BitVec.ofNat 32 (leVal ((b.drop (i * 4)).take 4))) (by simp)).1]

theorem block_load (m : Mem) (b n i : Nat) (h : 64 * i + 64 ≤ n) : Spec.block (load m b n) i = load m (b + i * 64) 64 := by
  unfold Spec.block
  rw [load_drop _ _ _ _ (by omega), load_take _ _ _ _ (by omega), Nat.mul_comm]

theorem load_blocks (m : Mem) (b k : Nat) : load m b (64 * k) = (List.range k).flatMap fun i => load m (b + i * 64) 64 := by
  induction k with
  | zero => rfl
  | succ k ih =>
    rw [show 64 * (k + 1) = 64 * k + 64 by omega, load_add, ih, List.range_succ, List.flatMap_append]
    simp [Nat.mul_comm 64]

theorem chain_length (r : Nat) (x : List Byte) (h : x.length = 128 * r) (hr : 0 < r) (i : Nat) : (Spec.chain r x i).length = 64 := by
  cases i with
  | zero => simp [Spec.chain, Spec.block]; omega
  | succ i => exact salsa_length _

theorem mixN_spec (b y r : Nat) (hr : 0 < r) (hy : b + 128 * r ≤ y) (m : Mem) (n : Nat) (hn : n ≤ 2 * r) :
    (mixN b y n (m, load m (b + (2 * r - 1) * 64) 64)).2 = Spec.chain r (load m b (128 * r)) n ∧
    (∀ i < n, load (mixN b y n (m, load m (b + (2 * r - 1) * 64) 64)).1 (y + i * 64) 64 = Spec.chain r (load m b (128 * r)) (i + 1)) ∧
    (∀ a k, a + k ≤ y → load (mixN b y n (m, load m (b + (2 * r - 1) * 64) 64)).1 a k = load m a k) := by
  induction n with
  | zero =>
    refine ⟨?_, fun i h => by omega, fun _ _ _ => rfl⟩
    show load m _ 64 = Spec.block _ _
    rw [block_load _ _ _ _ (by omega)]
  | succ n ih =>
    obtain ⟨h1, h2, h3⟩ := ih (by omega)
    have hX : salsa8 (xorBytes (mixN b y n (m, load m (b + (2 * r - 1) * 64) 64)).2
        (load (mixN b y n (m, load m (b + (2 * r - 1) * 64) 64)).1 (b + n * 64) 64)) = Spec.chain r (load m b (128 * r)) (n + 1) := by
      rw [salsa8_eq, h1, h3 _ _ (by omega)]
      show _ = Spec.salsa 4 (xorBytes _ (Spec.block _ _))
      rw [block_load _ _ _ _ (by omega)]
    have hl : (Spec.chain r (load m b (128 * r)) (n + 1)).length = 64 := chain_length _ _ (by simp) hr _
    refine ⟨by simp only [mixN]; exact hX, ?_, ?_⟩
    · intro i hi
      simp only [mixN]
      rw [hX]
      by_cases e : i = n
      · subst e; exact load_store' _ _ _ _ hl
      · rw [load_store_disj _ _ _ _ _ (by rw [hl]; omega)]; exact h2 i (by omega)
    · intro a k ha
      simp only [mixN]
      rw [hX, load_store_disj _ _ _ _ _ (by rw [hl]; omega)]
      exact h3 a k ha

theorem copies_spec (b c : Nat) (s : Nat → Nat) (n : Nat) (m : Mem) (hs : ∀ i < n, b + (c + n) * 64 ≤ s i) :
    (∀ i < n, load (copies (fun i => b + (i + c) * 64) s n m) (b + (i + c) * 64) 64 = load m (s i) 64) ∧
    (∀ a k, (a + k ≤ b + c * 64 ∨ b + (c + n) * 64 ≤ a) → load (copies (fun i => b + (i + c) * 64) s n m) a k = load m a k) := by
  induction n with
  | zero => exact ⟨fun i h => by omega, fun _ _ _ => rfl⟩
  | succ n ih =>
    obtain ⟨h1, h2⟩ := ih (fun i hi => by have := hs i (by omega); omega)
    have hn := hs n (by omega)
    refine ⟨?_, ?_⟩
    · intro i hi
      simp only [copies]
      by_cases e : i = n
      · subst e; rw [load_store' _ _ _ _ (by simp)]; exact h2 _ _ (by omega)
      · rw [load_store_disj _ _ _ _ _ (by rw [load_length]; omega)]; exact h1 i (by omega)
    · intro a k ha
      simp only [copies]
      rw [load_store_disj _ _ _ _ _ (by rw [load_length]; omega)]
      exact h2 a k (by omega)

theorem blockMix_spec (b y r : Nat) (hr : 0 < r) (hy : b + 128 * r ≤ y) (m : Mem) :
    load (blockMix b y r m) b (128 * r) = Spec.blockMix r (load m b (128 * r)) := by
  obtain ⟨_, h2, _⟩ := mixN_spec b y r hr hy m (2 * r) (Nat.le_refl _)
  unfold blockMix
  dsimp only
  generalize (mixN b y (2 * r) (m, load m (b + (2 * r - 1) * 64) 64)).1 = m1 at h2 ⊢
  obtain ⟨c1, c2⟩ := copies_spec b 0 (fun i => y + (i * 2) * 64) r m1 (fun i hi => by omega)
  simp only [Nat.add_zero] at c1 c2
  generalize copies (fun i => b + i * 64) (fun i => y + (i * 2) * 64) r m1 = m2 at c1 c2 ⊢
  obtain ⟨d1, d2⟩ := copies_spec b r (fun i => y + (i * 2 + 1) * 64) r m2 (fun i hi => by omega)
  generalize copies (fun i => b + (i + r) * 64) (fun i => y + (i * 2 + 1) * 64) r m2 = m3 at d1 d2 ⊢
  rw [show 128 * r = 64 * r + 64 * r by omega, load_add, load_blocks, load_blocks, show 64 * r + 64 * r = 128 * r by omega]
  unfold Spec.blockMix
  congr 1
  · refine flatMap_congr fun i hi => ?_
    rw [List.mem_range] at hi
    rw [d2 _ _ (by omega), c1 i hi, h2 (i * 2) (by omega), Nat.mul_comm i 2]
  · refine flatMap_congr fun i hi => ?_
    rw [List.mem_range] at hi
    rw [show b + 64 * r + i * 64 = b + (i + r) * 64 by omega, d1 i hi, c2 _ _ (by omega), h2 (i * 2 + 1) (by omega), Nat.mul_comm 2]

theorem blockMix_length (r : Nat) (hr : 0 < r) (x : List Byte) (h : x.length = 128 * r) : (Spec.blockMix r x).length = 128 * r := by
  have key : ∀ (f : Nat → List Byte) (n : Nat), (∀ i, (f i).length = 64) → ((List.range n).flatMap f).length = 64 * n := by
    intro f n hf
    induction n with
    | zero => rfl
    | succ n ih => rw [List.range_succ, List.flatMap_append, List.length_append, ih]; simp [hf]; omega
  unfold Spec.blockMix
  rw [List.length_append, key _ _ (fun i => chain_length r x h hr _), key _ _ (fun i => chain_length r x h hr _)]
  omega

theorem repeat_length (r : Nat) (hr : 0 < r) (x : List Byte) (h : x.length = 128 * r) (n : Nat) : (Nat.repeat (Spec.blockMix r) n x).length = 128 * r := by
  induction n with
  | zero => exact h
  | succ n ih => exact blockMix_length r hr _ ih

theorem fill_spec (r : Nat) (hr : 0 < r) (V XY : Mem) (n : Nat) :
    load (fill r n (V, XY)).2 0 (128 * r) = Nat.repeat (Spec.blockMix r) n (load XY 0 (128 * r)) ∧
    ∀ i < n, load (fill r n (V, XY)).1 (i * (128 * r)) (128 * r) = Nat.repeat (Spec.blockMix r) i (load XY 0 (128 * r)) := by
  induction n with
  | zero => exact ⟨rfl, fun i h => by omega⟩
  | succ n ih =>
    obtain ⟨h1, h2⟩ := ih
    refine ⟨?_, ?_⟩
    · simp only [fill]
      rw [blockMix_spec _ _ _ hr (by omega), h1]; rfl
    · intro i hi
      simp only [fill]
      by_cases e : i = n
      · subst e; rw [load_store' _ _ _ _ (by simp), h1]
      · rw [load_store_disj _ _ _ _ _ (by
          right
          rw [show i * (128 * r) + 128 * r = (i + 1) * (128 * r) by rw [Nat.add_mul, Nat.one_mul]]
          exact Nat.mul_le_mul_right _ (by omega))]
        exact h2 i (by omega)

theorem and_mask (x k : Nat) : x &&& (2 ^ k - 1) = x % 2 ^ k := Nat.and_two_pow_sub_one_eq_mod x k

theorem integerify_spec (r k : Nat) (hr : 0 < r) (hk : k ≤ 64) (m : Mem) : integerify 0 r m &&& (2 ^ k - 1) = Spec.integerify r (load m 0 (128 * r)) % 2 ^ k := by
  rw [and_mask]
  unfold integerify Spec.integerify
  rw [block_load _ _ _ _ (by omega), show (64 : Nat) = 8 + 56 from rfl, load_add, leVal_append, load_length]
  obtain ⟨c, hc⟩ : (2 : Nat) ^ k ∣ 256 ^ 8 := by rw [show (256 : Nat) ^ 8 = 2 ^ 64 by decide]; exact Nat.pow_dvd_pow 2 hk
  rw [hc, Nat.mul_assoc, Nat.add_mul_mod_self_left]

theorem mix_spec (r k : Nat) (hr : 0 < r) (hk : k ≤ 64) (V : Mem) (x : List Byte)
    (hV : ∀ i < 2 ^ k, load V (i * (128 * r)) (128 * r) = Nat.repeat (Spec.blockMix r) i x) (n : Nat) (XY : Mem) :
    load (mix r (2 ^ k) V n XY) 0 (128 * r) =
      Nat.repeat (fun X => Spec.blockMix r (xorBytes X (Nat.repeat (Spec.blockMix r) (Spec.integerify r X % 2 ^ k) x))) n (load XY 0 (128 * r)) := by
  induction n with
  | zero => rfl
  | succ n ih =>
    show load (blockMix 0 (128 * r) r (store _ 0 (xorBytes _ _))) 0 (128 * r) = _
    rw [blockMix_spec _ _ _ hr (by omega), integerify_spec r k hr hk, hV _ (Nat.mod_lt _ (Nat.two_pow_pos k)), load_store' _ _ _ _ (by
      have : (Nat.repeat (Spec.blockMix r) (Spec.integerify r (load (mix r (2 ^ k) V n XY) 0 (128 * r)) % 2 ^ k) x).length = 128 * r := by
        rw [← hV _ (Nat.mod_lt _ (Nat.two_pow_pos k))]; simp
      simp [xorBytes, this]), ih]
    rfl

/-- `Smix` leaves scryptROMix of its block and touches nothing else of `B`, whatever its scratch memory held. -/
theorem smix_spec (b r k : Nat) (hr : 0 < r) (hk : k ≤ 64) (B V XY : Mem) :
    load (smix b r (2 ^ k) B V XY) b (128 * r) = Spec.romix r (2 ^ k) (load B b (128 * r)) ∧
    ∀ a n, (a + n ≤ b ∨ b + 128 * r ≤ a) → load (smix b r (2 ^ k) B V XY) a n = load B a n := by
  unfold smix
  dsimp only
  refine ⟨?_, fun a n h => load_store_disj _ _ _ _ _ (by rw [load_length]; omega)⟩
  obtain ⟨f1, f2⟩ := fill_spec r hr V (store XY 0 (load B b (128 * r))) (2 ^ k)
  rw [load_store' _ _ _ _ (by simp)] at f1 f2
  rw [load_store' _ _ _ _ (by simp), mix_spec r k hr hk _ _ f2, f1]
  rfl

theorem run_spec (r k : Nat) (hr : 0 < r) (hk : k ≤ 64) (sched : List (Nat × Mem × Mem)) (hn : (sched.map (·.1)).Nodup) (B : Mem) (i : Nat) :
    load (run r (2 ^ k) sched B) (r * i * 128) (128 * r) =
      if i ∈ sched.map (·.1) then Spec.romix r (2 ^ k) (load B (r * i * 128) (128 * r)) else load B (r * i * 128) (128 * r) := by
  induction sched generalizing B with
  | nil => rfl
  | cons a t ih =>
    obtain ⟨j, V, XY⟩ := a
    simp only [List.map_cons, List.nodup_cons] at hn
    have hne : j ≠ i → r * i * 128 + 128 * r ≤ r * j * 128 ∨ r * j * 128 + 128 * r ≤ r * i * 128 := by
      intro h
      rcases Nat.lt_or_gt_of_ne h with h | h
      · right
        have := Nat.mul_le_mul_left r (show j + 1 ≤ i from h)
        rw [Nat.mul_add, Nat.mul_one] at this; omega
      · left
        have := Nat.mul_le_mul_left r (show i + 1 ≤ j from h)
        rw [Nat.mul_add, Nat.mul_one] at this; omega
    obtain ⟨s1, s2⟩ := smix_spec (r * j * 128) r k hr hk B V XY
    show load (run r (2 ^ k) t _) _ _ = _
    rw [ih hn.2]
    by_cases e : j = i
    · subst e
      rw [if_neg hn.1, s1, if_pos (by simp)]
    · rw [s2 _ _ (hne e)]
      simp only [List.map_cons, List.mem_cons, show i ≠ j from fun h => e h.symm, false_or]

theorem load_parts (m : Mem) (r p : Nat) : load m 0 (r * p * 128) = (List.range p).flatMap fun i => load m (r * i * 128) (128 * r) := by
  induction p with
  | zero => rfl
  | succ p ih =>
    rw [show r * (p + 1) * 128 = r * p * 128 + 128 * r by rw [Nat.mul_add, Nat.mul_one]; omega, load_add, ih, List.range_succ, List.flatMap_append]
    simp

theorem run_all (r k p : Nat) (hr : 0 < r) (hk : k ≤ 64) (sched : List (Nat × Mem × Mem)) (hs : (sched.map (·.1)).Perm (List.range p)) (B : Mem) (bytes : List Byte) (hb : bytes.length = r * p * 128) :
    load (run r (2 ^ k) sched (store B 0 bytes)) 0 (r * p * 128) =
      (List.range p).flatMap fun i => Spec.romix r (2 ^ k) ((bytes.drop (128 * r * i)).take (128 * r)) := by
  rw [load_parts]
  refine flatMap_congr fun i hi => ?_
  rw [run_spec r k hr hk sched (hs.nodup_iff.mpr List.nodup_range), if_pos (hs.mem_iff.mpr hi)]
  congr 1
  rw [List.mem_range] at hi
  have := Nat.mul_le_mul_left r (show i + 1 ≤ p from hi)
  rw [Nat.mul_add, Nat.mul_one] at this
  have e : load (store B 0 bytes) 0 (r * p * 128) = bytes := load_store' _ _ _ _ hb
  conv => rhs; rw [← e]
  rw [show 128 * r * i = r * i * 128 by rw [Nat.mul_assoc, Nat.mul_comm], load_drop _ _ _ _ (by omega), load_take _ _ _ _ (by omega), Nat.zero_add]

theorem isPowerOf2_iff (v : Nat) : isPowerOf2 v = true ↔ ∃ k, v = 2 ^ k := by
  unfold isPowerOf2
  constructor
  · intro h
    simp only [Bool.and_eq_true, decide_eq_true_eq, beq_iff_eq] at h
    refine ⟨v.log2, ?_⟩
    have hl := Nat.log2_self_le (Nat.ne_of_gt h.1)
    refine Classical.byContradiction fun hne => ?_
    have hu : v < 2 ^ (v.log2 + 1) := Nat.lt_log2_self
    have t1 : v.testBit v.log2 = true := by
      rw [Nat.testBit_eq_decide_div_mod_eq]
      have : v / 2 ^ v.log2 = 1 := by
        apply Nat.div_eq_of_lt_le <;> simp [Nat.pow_succ] at * <;> omega
      simp [this]
    have t2 : (v - 1).testBit v.log2 = true := by
      rw [Nat.testBit_eq_decide_div_mod_eq]
      have : (v - 1) / 2 ^ v.log2 = 1 := by
        apply Nat.div_eq_of_lt_le <;> simp [Nat.pow_succ] at * <;> omega
      simp [this]
    have := Nat.testBit_and v (v - 1) v.log2
    rw [h.2, t1, t2] at this
    simp at this
  · rintro ⟨k, rfl⟩
    simp only [Bool.and_eq_true, decide_eq_true_eq, beq_iff_eq]
    exact ⟨Nat.two_pow_pos k, by rw [and_mask, Nat.mod_self]⟩

end Verif.Scrypt
