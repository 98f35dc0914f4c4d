import Verif.Xts.Model
import Verif.Xts.Spec
import Verif.XorWords

/-! # Proofs about XTS -/
namespace Verif.Xts

/-! ## The doubling -/

theorem gfLoop_val (w : Nat) (hw : 0 < w) : ∀ (n carry : Nat) (inp : List Byte), carry ≤ 1 → inp.length = n * w →
    (gfLoop w n carry inp).1.length = n * w ∧ leVal (gfLoop w n carry inp).1 + 256 ^ (n * w) * (gfLoop w n carry inp).2 = 2 * leVal inp + carry ∧ (gfLoop w n carry inp).2 ≤ 1 := by
  intro n
  induction n with
  | zero =>
    intro carry inp hc hl
    have : inp = [] := List.eq_nil_of_length_eq_zero (by simpa using hl)
    subst this
    simp [gfLoop, leVal, hc]
  | succ n ih =>
    intro carry inp hc hl
    rw [Nat.succ_mul] at hl
    have hx : leVal (inp.take w) < 2 ^ (8 * w) := by
      have := leVal_lt (inp.take w)
      rw [List.length_take, Nat.min_eq_left (by omega)] at this
      rwa [Nat.pow_mul]
    have hp : 2 ^ (8 * w) = 2 * 2 ^ (8 * w - 1) := by rw [← Nat.pow_succ']; congr 1; omega
    have h256 : 256 ^ w = 2 ^ (8 * w) := by rw [Nat.pow_mul]
    have hy : leVal (inp.take w) / 2 ^ (8 * w - 1) ≤ 1 := by
      have := Nat.div_lt_of_lt_mul (m := leVal (inp.take w)) (n := 2 ^ (8 * w - 1)) (k := 2) (by omega)
      omega
    obtain ⟨h1, h2, h3⟩ := ih (leVal (inp.take w) / 2 ^ (8 * w - 1)) (inp.drop w) hy (by rw [List.length_drop]; omega)
    simp only [gfLoop]
    generalize gfLoop w n (leVal (inp.take w) / 2 ^ (8 * w - 1)) (inp.drop w) = q at h1 h2 h3 ⊢
    obtain ⟨r, c⟩ := q
    simp only at h1 h2 h3 ⊢
    refine ⟨by rw [List.length_append, leBytes_length, h1, Nat.succ_mul]; omega, ?_, h3⟩
    have hin : leVal inp = leVal (inp.take w) + 256 ^ w * leVal (inp.drop w) := by
      have := congrArg leVal (List.take_append_drop w inp)
      rw [leVal_append, List.length_take, Nat.min_eq_left (by omega)] at this
      exact this.symm
    rw [leVal_append, leBytes_length, leVal_leBytes, h256, hin, h256, show (n + 1) * w = w + n * w by rw [Nat.succ_mul, Nat.add_comm], Nat.pow_add, h256]
    generalize leVal (inp.take w) = x at *
    generalize 2 ^ (8 * w - 1) = H at *
    rw [hp] at hx ⊢
    have hdm := Nat.div_add_mod x H
    have hHpos : 0 < H := by
      rcases Nat.eq_zero_or_pos H with h | h
      · subst h; simp at hx
      · exact h
    have hm := Nat.mod_lt x hHpos
    have e : x * 2 % (2 * H) = 2 * (x % H) := by rw [Nat.mul_comm x 2, Nat.mul_mod_mul_left]
    have hsmall : 2 * (x % H) + carry < 2 * H := by omega
    rw [e, Nat.mod_eq_of_lt (Nat.lt_of_lt_of_le hsmall (Nat.le_refl _)), Nat.mod_eq_of_lt hsmall]
    have e2 : 2 * H * leVal r + 2 * H * 256 ^ (n * w) * c = 2 * H * (2 * leVal (inp.drop w) + x / H) := by
      rw [← h2, Nat.mul_add, ← Nat.mul_assoc]
    have e3 : 2 * H * (2 * leVal (inp.drop w) + x / H) = 2 * (2 * H * leVal (inp.drop w)) + 2 * (H * (x / H)) := by
      rw [Nat.mul_add, Nat.mul_assoc 2 H (x / H)]
      congr 1
      rw [Nat.mul_left_comm]
    omega

theorem xorByteAt_zero (b : Byte) (r : List Byte) (v : Byte) : xorByteAt (b :: r) 0 v = (b ^^^ v) :: r := rfl

theorem xorByteAt_succ (b : Byte) (r : List Byte) (i : Nat) (v : Byte) : xorByteAt (b :: r) (i + 1) v = b :: xorByteAt r i v := rfl

theorem leVal_xorByteAt (k : List Byte) (i : Nat) (v : Byte) (h : i < k.length) : leVal (xorByteAt k i v) = leVal k ^^^ (256 ^ i * v.toNat) ∧ (xorByteAt k i v).length = k.length := by
  refine ⟨?_, by simp [xorByteAt]⟩
  induction k generalizing i with
  | nil => simp at h
  | cons b r ih =>
    cases i with
    | zero =>
      rw [xorByteAt_zero]
      have := xor_digit b.toNat v.toNat (leVal r) 0 b.isLt v.isLt
      simp only [leVal, Nat.pow_zero, Nat.one_mul, BitVec.toNat_xor]
      rw [show v.toNat = v.toNat + 256 * 0 by omega, this]
      simp
    | succ i =>
      rw [xorByteAt_succ]
      simp only [leVal]
      rw [ih i (by simpa using h)]
      have := xor_digit b.toNat 0 (leVal r) (256 ^ i * v.toNat) b.isLt (by decide)
      rw [show 256 ^ (i + 1) * v.toNat = 0 + 256 * (256 ^ i * v.toNat) by rw [Nat.pow_succ, Nat.mul_comm (256 ^ i) 256, Nat.mul_assoc]; omega, this]
      simp

/-- The builds and block sizes there are. -/
def Sizes (w s : Nat) : Prop := (w = 16 ∨ w = 8 ∨ w = 4) ∧ (s = 16 ∨ s = 32 ∨ s = 64 ∨ s = 128)

/-- `GF_Double` multiplies by the primitive element. -/
theorem gfDouble_val {w s : Nat} (hs : Sizes w s) (inp : List Byte) (hl : inp.length = s) : gfDouble w s inp = leBytes s (Spec.alpha s (leVal inp)) ∧ (gfDouble w s inp).length = s := by
  have hw : 0 < w ∧ s / w * w = s := by obtain ⟨h1 | h1 | h1, h2 | h2 | h2 | h2⟩ := hs <;> subst h1 h2 <;> decide
  obtain ⟨h1, h2, h3⟩ := gfLoop_val w hw.1 (s / w) 0 inp (by decide) (by rw [hw.2]; exact hl)
  rw [hw.2] at h1 h2
  unfold gfDouble
  generalize gfLoop w (s / w) 0 inp = q at h1 h2 h3 ⊢
  obtain ⟨k, c⟩ := q
  simp only at h1 h2 h3 ⊢
  have hk := leVal_lt k
  rw [h1] at hk
  suffices h : ∀ out : List Byte, out.length = s → leVal out = Spec.alpha s (leVal inp) → out = leBytes s (Spec.alpha s (leVal inp)) ∧ out.length = s by
    by_cases hc : c = 0
    · subst hc
      rw [if_neg (by simp)]
      refine h k h1 ?_
      unfold Spec.alpha
      rw [if_pos (by omega)]; omega
    · have hc1 : c = 1 := by omega
      subst hc1
      rw [if_pos (by decide)]
      have ha : Spec.alpha s (leVal inp) = leVal k ^^^ Spec.poly s := by
        unfold Spec.alpha
        rw [if_neg (by omega)]
        congr 1; omega
      rw [ha] at h ⊢
      rcases hs.2 with rfl | rfl | rfl | rfl
      · rw [if_pos rfl]
        obtain ⟨a, b⟩ := leVal_xorByteAt k 0 0x87 (by omega)
        exact h _ (b.trans h1) a
      · rw [if_neg (by decide), if_pos rfl]
        obtain ⟨a, b⟩ := leVal_xorByteAt k 1 4 (by omega)
        obtain ⟨a', b'⟩ := leVal_xorByteAt (xorByteAt k 1 4) 0 0x25 (by omega)
        exact h _ (b'.trans (b.trans h1)) (by rw [show 32 - 1 - 31 = 0 from rfl, show 32 - 1 - 30 = 1 from rfl, a', a, Nat.xor_assoc]; rfl)
      · rw [if_neg (by decide), if_neg (by decide), if_pos rfl]
        obtain ⟨a, b⟩ := leVal_xorByteAt k 1 1 (by omega)
        obtain ⟨a', b'⟩ := leVal_xorByteAt (xorByteAt k 1 1) 0 0x25 (by omega)
        exact h _ (b'.trans (b.trans h1)) (by rw [show 64 - 1 - 63 = 0 from rfl, show 64 - 1 - 62 = 1 from rfl, a', a, Nat.xor_assoc]; rfl)
      · rw [if_neg (by decide), if_neg (by decide), if_neg (by decide), if_pos rfl]
        obtain ⟨a, b⟩ := leVal_xorByteAt k 2 8 (by omega)
        obtain ⟨a', b'⟩ := leVal_xorByteAt (xorByteAt k 2 8) 1 0 (by omega)
        obtain ⟨a'', b''⟩ := leVal_xorByteAt (xorByteAt (xorByteAt k 2 8) 1 0) 0 0x43 (by omega)
        exact h _ (b''.trans (b'.trans (b.trans h1))) (by
          rw [show 128 - 1 - 127 = 0 from rfl, show 128 - 1 - 126 = 1 from rfl, show 128 - 1 - 125 = 2 from rfl, a'', a', a, Nat.xor_assoc, Nat.xor_assoc]; rfl)
  intro out hol hov
  have := leBytes_leVal out
  rw [hol, hov] at this
  exact ⟨this.symm, hol⟩

/-! ## Runs of blocks -/
section
variable {E : List Byte → List Byte} {w s : Nat} (hE : ∀ b, b.length = s → (E b).length = s) (hsz : Sizes w s)

theorem Sizes.pos {w s : Nat} (h : Sizes w s) : 0 < s := by obtain ⟨_, h2 | h2 | h2 | h2⟩ := h <;> omega

theorem tweak_length (t : List Byte) (ht : t.length = s) (j : Nat) : (Spec.tweak s t j).length = s := by
  cases j with
  | zero => exact ht
  | succ j => simp [Spec.tweak]

include hsz in
theorem gfDouble_tweak (t : List Byte) (ht : t.length = s) (j : Nat) : gfDouble w s (Spec.tweak s t j) = Spec.tweak s t (j + 1) :=
  (gfDouble_val hsz _ (tweak_length t ht j)).1

include hE in
theorem block_length (T p : List Byte) (hT : T.length = s) (hp : p.length = s) : (Spec.block E T p).length = s := by
  unfold Spec.block
  rw [xorBytes_length, hE _ (by rw [xorBytes_length]; omega)]; omega

include hE in
theorem blocks_length (t : List Byte) (ht : t.length = s) (j : Nat) (ps : List (List Byte)) (hp : ∀ p ∈ ps, p.length = s) : (Spec.blocks E s t j ps).length = ps.length * s := by
  induction ps generalizing j with
  | nil => simp [Spec.blocks]
  | cons p ps ih =>
    simp only [Spec.blocks, List.length_append, List.length_cons]
    rw [block_length hE _ _ (tweak_length t ht j) (hp p (by simp)), ih (j + 1) (fun x hx => hp x (by simp [hx])), Nat.succ_mul]; omega

theorem blocks_append (t : List Byte) (j : Nat) (a b : List (List Byte)) : Spec.blocks E s t j (a ++ b) = Spec.blocks E s t j a ++ Spec.blocks E s t (j + a.length) b := by
  induction a generalizing j with
  | nil => simp [Spec.blocks]
  | cons p a ih => simp only [List.cons_append, Spec.blocks, ih, List.append_assoc, List.length_cons]; congr 3; omega

/-- `n` blocks from `inP` to `outP`, the tweak going from number `j` to `j + n`. -/
structure Ran (E : List Byte → List Byte) (s : Nat) (t : List Byte) (j n outP inP : Nat) (m : Mem) (x : Mem × (Nat → List Byte)) : Prop where
  out : load x.1 outP (n * s) = Spec.blocks E s t j (chunks s (load m inP (n * s)))
  frame : ∀ a, a < outP ∨ outP + n * s ≤ a → x.1 a = m a
  reg : x.2 0 = Spec.tweak s t (j + n)

/-- The buffers are the same or apart. -/
def Apart (outP inP len : Nat) : Prop := inP = outP ∨ inP + len ≤ outP ∨ outP + len ≤ inP

theorem Ran.nil {t : List Byte} {j outP inP : Nat} {m : Mem} {r : Nat → List Byte} (hr : r 0 = Spec.tweak s t j) : Ran E s t j 0 outP inP m (m, r) :=
  ⟨by simp only [Nat.zero_mul, load_zero]; rfl, fun _ _ => rfl, hr⟩

theorem Ran.append {t : List Byte} {j n n' outP inP : Nat} {m : Mem} {x y : Mem × (Nat → List Byte)} (hs : 0 < s) (hap : Apart outP inP ((n + n') * s)) (h1 : Ran E s t j n outP inP m x)
    (h2 : Ran E s t (j + n) n' (outP + n * s) (inP + n * s) x.1 y) : Ran E s t j (n + n') outP inP m y := by
  have hm : (n + n') * s = n * s + n' * s := Nat.add_mul _ _ _
  unfold Apart at hap
  rw [hm] at hap
  refine ⟨?_, ?_, by rw [← Nat.add_assoc]; exact h2.reg⟩
  · rw [hm, load_add, load_add, chunks_append s hs _ _ (by simp), blocks_append]
    have hlen : (chunks s (load m inP (n * s))).length = n := by rw [chunks_length s hs _ (by simp)]; simp [Nat.mul_div_cancel _ hs]
    rw [hlen, ← h1.out]
    congr 1
    · exact load_congr _ _ _ _ (fun i hi => h2.frame _ (by omega))
    · rw [h2.out, load_congr x.1 m (inP + n * s) (n' * s) (fun i hi => h1.frame _ (by omega))]
  · intro a ha
    rw [h2.frame a (by omega), h1.frame a (by omega)]

include hE hsz in
theorem oneStep_ran (t : List Byte) (ht : t.length = s) (j outP inP : Nat) (m : Mem) (r : Nat → List Byte) (hr : r 0 = Spec.tweak s t j) :
    Ran E s t j 1 outP inP m (oneStep E w s m r outP inP) := by
  have hs := hsz.pos
  have hb := block_length hE (Spec.tweak s t j) (load m inP s) (tweak_length t ht j) (by simp)
  have e : oneStep E w s m r outP inP = (store m outP (Spec.block E (Spec.tweak s t j) (load m inP s)), setReg r 0 (Spec.tweak s t (j + 1))) := by
    simp only [oneStep, hr, gfDouble_tweak hsz t ht j]; rfl
  rw [e]
  refine ⟨?_, ?_, by simp [setReg]⟩
  · rw [Nat.one_mul, load_store' _ _ _ _ hb]
    have : chunks s (load m inP s) = [load m inP s] := by
      have := chunks_append_block s hs (load m inP s) [] (by simp)
      simpa using this
    rw [this]
    simp [Spec.blocks]
  · intro a ha
    exact store_out _ _ _ _ (by rw [hb]; omega)

include hE hsz in
theorem oneLoop_ran (t : List Byte) (ht : t.length = s) (n : Nat) : ∀ (j outP inP : Nat) (m : Mem) (r : Nat → List Byte), r 0 = Spec.tweak s t j → Apart outP inP (n * s) →
    Ran E s t j n outP inP m (oneLoop E w s n m r outP inP) := by
  induction n with
  | zero => intro j outP inP m r hr _; exact Ran.nil hr
  | succ n ih =>
    intro j outP inP m r hr hap
    have hm : (n + 1) * s = s + n * s := by rw [Nat.succ_mul, Nat.add_comm]
    have h1 := oneStep_ran hE hsz t ht j outP inP m r hr
    simp only [oneLoop]
    have h2 := ih (j + 1) (outP + s) (inP + s) (oneStep E w s m r outP inP).1 (oneStep E w s m r outP inP).2 h1.reg (by unfold Apart at *; omega)
    rw [Nat.add_comm n 1] at hap ⊢
    exact Ran.append hsz.pos hap h1 (by rw [Nat.one_mul]; exact h2)

include hsz in
theorem spread_reg (t : List Byte) (ht : t.length = s) (j d : Nat) (r : Nat → List Byte) (hr : r 0 = Spec.tweak s t j) : ∀ i, i ≤ d → spread w s d r i = Spec.tweak s t (j + i) := by
  induction d with
  | zero => intro i hi; have : i = 0 := by omega
            subst this; exact hr
  | succ d ih =>
    intro i hi
    simp only [spread, setReg]
    by_cases h : i = d + 1
    · rw [if_pos h, ih d (by omega), gfDouble_tweak hsz t ht, h]; rfl
    · rw [if_neg h]; exact ih i (by omega)

include hE in
theorem processBlocks_eq (hs : 0 < s) (t : List Byte) (ht : t.length = s) (r : Nat → List Byte) (c : Nat) : ∀ (j i : Nat) (x : List Byte) (m : Mem) (outP : Nat), x.length = c * s →
    (∀ k, k < c → r (i + k) = Spec.tweak s t (j + k)) →
    processBlocks E s r c i (xorBytes x ((List.range c).map fun k => r (i + k)).flatten) m outP = store m outP (Spec.blocks E s t j (chunks s x)) := by
  induction c with
  | zero =>
    intro j i x m outP hx _
    have : x = [] := List.eq_nil_of_length_eq_zero (by simpa using hx)
    subst this
    simp only [processBlocks]
    exact (store_nil m outP).symm
  | succ c ih =>
    intro j i x m outP hx hr
    rw [Nat.succ_mul] at hx
    have h0 := hr 0 (by omega)
    simp only [Nat.add_zero] at h0
    have htl := tweak_length t ht j
    have hmask : ((List.range (c + 1)).map fun k => r (i + k)).flatten = Spec.tweak s t j ++ ((List.range c).map fun k => r (i + 1 + k)).flatten := by
      rw [List.range_succ_eq_map, List.map_cons, List.map_map, List.flatten_cons, Nat.add_zero, h0]
      congr 2
      apply List.map_congr_left
      intro k _
      simp only [Function.comp]
      congr 1; omega
    obtain ⟨a, b, rfl, ha⟩ : ∃ a b : List Byte, x = a ++ b ∧ a.length = s := ⟨x.take s, x.drop s, (List.take_append_drop _ _).symm, by simp; omega⟩
    rw [hmask, xorBytes_append _ _ _ _ (by omega)]
    have hxl : (xorBytes a (Spec.tweak s t j)).length = s := by rw [xorBytes_length]; omega
    simp only [processBlocks]
    rw [List.take_left' hxl, List.drop_left' hxl, chunks_append_block s hs a b ha, h0]
    rw [ih (j + 1) (i + 1) b _ _ (by rw [List.length_append] at hx; omega) (by intro k hk; have := hr (k + 1) (by omega); rw [show i + 1 + k = i + (k + 1) by omega, this]; congr 1; omega)]
    simp only [Spec.blocks]
    rw [store_append, show (Spec.block E (Spec.tweak s t j) a).length = s from block_length hE _ _ htl ha]
    rfl

include hE hsz in
theorem parStep_ran (t : List Byte) (ht : t.length = s) (d c : Nat) (hd : c = d + 1) (j outP inP : Nat) (m : Mem) (r : Nat → List Byte) (hr : r 0 = Spec.tweak s t j) :
    Ran E s t j c outP inP m (parStep E w s d c m r outP inP) := by
  have hs := hsz.pos
  have hsp := spread_reg hsz t ht j d r hr
  have hlen : (Spec.blocks E s t j (chunks s (load m inP (c * s)))).length = c * s := by
    rw [blocks_length hE t ht j _ (chunks_block_length s hs _ (by simp)), chunks_length s hs _ (by simp)]
    simp [Nat.mul_div_cancel _ hs]
  have e : (parStep E w s d c m r outP inP).1 = store m outP (Spec.blocks E s t j (chunks s (load m inP (c * s)))) := by
    simp only [parStep, regBytes]
    have := processBlocks_eq hE hs t ht (spread w s d r) c j 0 (load m inP (c * s)) m outP (by simp) (by intro k hk; rw [Nat.zero_add]; exact hsp k (by omega))
    simp only [Nat.zero_add] at this
    exact this
  refine ⟨?_, ?_, ?_⟩
  · rw [e]; exact load_store' _ _ _ _ hlen
  · intro a ha
    rw [e]; exact store_out _ _ _ _ (by rw [hlen]; omega)
  · simp only [parStep, setReg, if_true]
    rw [hsp (c - 1) (by omega), gfDouble_tweak hsz t ht]
    congr 1; omega

include hE hsz in
theorem parLoop_ran (t : List Byte) (ht : t.length = s) (d c : Nat) (hd : c = d + 1) (n : Nat) : ∀ (j outP inP : Nat) (m : Mem) (r : Nat → List Byte), r 0 = Spec.tweak s t j → Apart outP inP (n * c * s) →
    Ran E s t j (n * c) outP inP m (parLoop E w s d c n m r outP inP) := by
  induction n with
  | zero => intro j outP inP m r hr _; rw [Nat.zero_mul]; exact Ran.nil hr
  | succ n ih =>
    intro j outP inP m r hr hap
    have hm : (n + 1) * c = c + n * c := by rw [Nat.succ_mul, Nat.add_comm]
    rw [hm] at hap ⊢
    have hm2 : (c + n * c) * s = c * s + n * c * s := Nat.add_mul _ _ _
    have h1 := parStep_ran hE hsz t ht d c hd j outP inP m r hr
    simp only [parLoop]
    exact Ran.append hsz.pos hap h1 (ih (j + c) _ _ _ _ h1.reg (by unfold Apart at *; omega))

/-- The numbers of parallel blocks there are. -/
def Parallel (P : Nat) : Prop := P = 4 ∨ P = 8 ∨ P = 12

include hE hsz in
theorem processData_ran {P : Nat} (hP : Parallel P) (t : List Byte) (ht : t.length = s) (j n outP inP : Nat) (m : Mem) (r : Nat → List Byte) (hr : r 0 = Spec.tweak s t j) (hap : Apart outP inP (n * s)) :
    ∃ x, processData E w s P m r outP inP (n * s) = .ok x ∧ Ran E s t j n outP inP m x := by
  have hs := hsz.pos
  have hP0 : 0 < P := by rcases hP with h | h | h <;> omega
  have hd : P = doublings P + 1 := by rcases hP with h | h | h <;> subst h <;> decide
  have e1 : n * s / (P * s) = n / P := Nat.mul_div_mul_right n P hs
  have e2 : n * s % (P * s) = n % P * s := Nat.mul_mod_mul_right s n P
  simp only [processData]
  rw [e1, e2]
  -- the three counts
  obtain ⟨a, rest, ha, hrest⟩ : ∃ a rest, a = n / P ∧ rest = n % P := ⟨_, _, rfl, rfl⟩
  rw [← ha, ← hrest]
  have hn : n = a * P + rest := by rw [ha, hrest, Nat.mul_comm]; exact (Nat.div_add_mod n P).symm
  have e3 : (if P = 12 then rest * s / (4 * s) else 0) = (if P = 12 then rest / 4 else 0) := by rw [Nat.mul_div_mul_right _ _ hs]
  rw [e3]
  obtain ⟨b, hb⟩ : ∃ b, b = (if P = 12 then rest / 4 else 0) := ⟨_, rfl⟩
  rw [← hb]
  have hb4 : b * 4 ≤ rest := by rw [hb]; split <;> omega
  have e4 : rest * s - b * (4 * s) = (rest - b * 4) * s := by rw [Nat.sub_mul, Nat.mul_assoc]
  rw [e4]
  have e5 : (if P = 8 then (rest - b * 4) * s / (2 * s) else 0) = (if P = 8 then (rest - b * 4) / 2 else 0) := by rw [Nat.mul_div_mul_right _ _ hs]
  rw [e5]
  obtain ⟨c, hc⟩ : ∃ c, c = (if P = 8 then (rest - b * 4) / 2 else 0) := ⟨_, rfl⟩
  rw [← hc]
  have hc2 : c * 2 ≤ rest - b * 4 := by rw [hc]; split <;> omega
  have e6 : (rest - b * 4) * s - c * (2 * s) = (rest - b * 4 - c * 2) * s := by rw [Nat.sub_mul _ (c * 2), Nat.mul_assoc c]
  rw [e6, if_neg (by simp), Nat.mul_div_cancel _ hs]
  refine ⟨_, rfl, ?_⟩
  obtain ⟨d, hd'⟩ : ∃ d, d = rest - b * 4 - c * 2 := ⟨_, rfl⟩
  rw [← hd']
  have hall : n = a * P + b * 4 + c * 2 + d := by omega
  have hms : n * s = a * P * s + b * 4 * s + c * 2 * s + d * s := by rw [hall, Nat.add_mul, Nat.add_mul, Nat.add_mul]
  unfold Apart at hap
  have r1 := parLoop_ran hE hsz t ht (doublings P) P hd a j outP inP m r hr (by unfold Apart; omega)
  have p1 : ∀ z, z + a * (P * s) = z + a * P * s := fun z => by rw [Nat.mul_assoc]
  have p2 : ∀ z, z + a * P * s + b * (4 * s) = z + (a * P + b * 4) * s := fun z => by rw [Nat.add_mul, ← Nat.mul_assoc b]; omega
  have p3 : ∀ z, z + (a * P + b * 4) * s + c * (2 * s) = z + (a * P + b * 4 + c * 2) * s := fun z => by rw [Nat.add_mul _ (c * 2), ← Nat.mul_assoc c]; omega
  simp only [p1, p2, p3]
  generalize parLoop E w s (doublings P) P a m r outP inP = x1 at r1 ⊢
  have r2 := parLoop_ran hE hsz t ht 3 4 rfl b (j + a * P) (outP + a * P * s) (inP + a * P * s) x1.1 x1.2 r1.reg (by unfold Apart; omega)
  generalize parLoop E w s 3 4 b x1.1 x1.2 (outP + a * P * s) (inP + a * P * s) = x2 at r2 ⊢
  have r12 := Ran.append hs (by unfold Apart; rw [Nat.add_mul]; omega) r1 r2
  have r3 := parLoop_ran hE hsz t ht 1 2 rfl c (j + (a * P + b * 4)) (outP + (a * P + b * 4) * s) (inP + (a * P + b * 4) * s) x2.1 x2.2 r12.reg (by unfold Apart; rw [Nat.add_mul]; omega)
  generalize parLoop E w s 1 2 c x2.1 x2.2 (outP + (a * P + b * 4) * s) (inP + (a * P + b * 4) * s) = x3 at r3 ⊢
  have r123 := Ran.append hs (by unfold Apart; rw [Nat.add_mul, Nat.add_mul]; omega) r12 r3
  have r4 := oneLoop_ran hE hsz t ht d (j + (a * P + b * 4 + c * 2)) (outP + (a * P + b * 4 + c * 2) * s) (inP + (a * P + b * 4 + c * 2) * s) x3.1 x3.2 r123.reg (by unfold Apart; rw [Nat.add_mul, Nat.add_mul]; omega)
  have r := Ran.append hs (by unfold Apart; rw [← hall]; omega) r123 r4
  rw [← hall] at r
  exact r

/-! ## The last block -/

include hE hsz in
theorem lastPlainTail_spec (t : List Byte) (ht : t.length = s) (j outP inP k : Nat) (hk : k ≤ s) (m : Mem) (r : Nat → List Byte) (hr : r 0 = Spec.tweak s t j) (hap : Apart outP inP (s + k)) :
    load (lastPlainTail E w s m r outP inP (s + k)).1 outP (s + k) = Spec.steal E s t j (load m inP s) (load m (inP + s) k) ∧
    ∀ a, a < outP ∨ outP + (s + k) ≤ a → (lastPlainTail E w s m r outP inP (s + k)).1 a = m a := by
  unfold Apart at hap
  have hst : oneStep E w s m r outP inP = (store m outP (Spec.block E (Spec.tweak s t j) (load m inP s)), setReg r 0 (Spec.tweak s t (j + 1))) := by
    simp only [oneStep, hr, gfDouble_tweak hsz t ht j]; rfl
  have hcc := block_length hE (Spec.tweak s t j) (load m inP s) (tweak_length t ht j) (by simp)
  unfold Spec.steal
  simp only [lastPlainTail, hst, load_length]
  generalize Spec.block E (Spec.tweak s t j) (load m inP s) = cc at hcc ⊢
  have e0 : s + k - s = k := by omega
  have e1 : outP + s - s = outP := by omega
  have e2 : ∀ v, setReg r 0 v 0 = v := fun v => by simp [setReg]
  rw [e0, e1, e2]
  have h1 : load (store m outP cc) (inP + s) k = load m (inP + s) k := load_store_disj _ _ _ _ _ (by omega)
  have h2 : load (store m outP cc) outP k = cc.take k := by
    have := load_store' m outP s cc hcc
    rw [← load_take _ _ s k hk, this]
  have h3 : load (copy (store m outP cc) (outP + s) outP k) (outP + k) (s - k) = cc.drop k := by
    unfold copy
    rw [load_store_disj _ _ _ _ _ (by simp only [load_length]; omega)]
    have := load_store' m outP s cc hcc
    rw [← load_drop _ _ s k hk, this]
  rw [h1, h3]
  have hb : (Spec.block E (Spec.tweak s t (j + 1)) (load m (inP + s) k ++ cc.drop k)).length = s :=
    block_length hE _ _ (tweak_length t ht _) (by rw [List.length_append, load_length, List.length_drop]; omega)
  have hB : xorBytes (E (xorBytes (load m (inP + s) k ++ cc.drop k) (Spec.tweak s t (j + 1)))) (Spec.tweak s t (j + 1)) = Spec.block E (Spec.tweak s t (j + 1)) (load m (inP + s) k ++ cc.drop k) := rfl
  rw [hB]
  generalize Spec.block E (Spec.tweak s t (j + 1)) (load m (inP + s) k ++ cc.drop k) = B at hb ⊢
  constructor
  · rw [load_add, load_store' _ _ _ _ hb, load_store_disj _ _ _ _ _ (by omega)]
    unfold copy
    rw [load_store' _ _ _ _ (by simp), h2]
  · intro a ha
    rw [store_out _ _ _ _ (by omega)]
    unfold copy
    rw [store_out _ _ _ _ (by simp only [load_length]; omega), store_out _ _ _ _ (by omega)]

include hE hsz in
theorem lastCipherTail_spec (t : List Byte) (ht : t.length = s) (j outP inP k : Nat) (hk : k ≤ s) (m : Mem) (r : Nat → List Byte) (hr : r 0 = Spec.tweak s t j) (hap : Apart outP inP (s + k)) :
    load (lastCipherTail E w s m r outP inP (s + k)).1 outP (s + k) = Spec.unsteal E s t j (load m inP s) (load m (inP + s) k) ∧
    ∀ a, a < outP ∨ outP + (s + k) ≤ a → (lastCipherTail E w s m r outP inP (s + k)).1 a = m a := by
  unfold Apart at hap
  have hpp := block_length hE (Spec.tweak s t (j + 1)) (load m inP s) (tweak_length t ht _) (by simp)
  unfold Spec.unsteal
  have g1 : ∀ v, setReg r 1 v 1 = v := fun v => by simp [setReg]
  have g0 : ∀ v, setReg r 1 v 0 = r 0 := fun v => by simp [setReg]
  simp only [lastCipherTail, g1, g0, load_length, hr, gfDouble_tweak hsz t ht j]
  have e0 : s + k - s = k := by omega
  have e1 : outP + s - s = outP := by omega
  have e2 : inP + s - s = inP := by omega
  rw [e0, e1, e2]
  have hP : xorBytes (E (xorBytes (load m inP s) (Spec.tweak s t (j + 1)))) (Spec.tweak s t (j + 1)) = Spec.block E (Spec.tweak s t (j + 1)) (load m inP s) := rfl
  rw [hP]
  generalize Spec.block E (Spec.tweak s t (j + 1)) (load m inP s) = pp at hpp ⊢
  have hd : (pp.drop k).take (s - k) = pp.drop k := List.take_of_length_le (by rw [List.length_drop]; omega)
  have htl : (pp.take k).length = k := by rw [List.length_take]; omega
  have hdl : (pp.drop k).length = s - k := by rw [List.length_drop]; omega
  rw [hd]
  unfold copy
  generalize hq : load m (inP + s) k = q
  have hql : q.length = k := by rw [← hq]; simp
  have h3 : load (store (store (store m outP q) (outP + s) (pp.take k)) (outP + k) (pp.drop k)) outP s = q ++ pp.drop k := by
    have : load (store (store (store m outP q) (outP + s) (pp.take k)) (outP + k) (pp.drop k)) outP (k + (s - k)) = q ++ pp.drop k := by
      rw [load_add, load_store' _ _ _ _ hdl, load_store_disj _ _ _ _ _ (by omega), load_store_disj _ _ _ _ _ (by omega), load_store' _ _ _ _ hql]
    rwa [show k + (s - k) = s by omega] at this
  rw [h3]
  have hb : (Spec.block E (Spec.tweak s t j) (q ++ pp.drop k)).length = s :=
    block_length hE _ _ (tweak_length t ht _) (by rw [List.length_append, hdl]; omega)
  have hB : xorBytes (E (xorBytes (q ++ pp.drop k) (Spec.tweak s t j))) (Spec.tweak s t j) = Spec.block E (Spec.tweak s t j) (q ++ pp.drop k) := rfl
  rw [hB]
  generalize Spec.block E (Spec.tweak s t j) (q ++ pp.drop k) = B at hb ⊢
  constructor
  · rw [load_add, load_store' _ _ _ _ hb, load_store_disj _ _ _ _ _ (by omega), load_store_disj _ _ _ _ _ (by omega), load_store' _ _ _ _ htl]
  · intro a ha
    rw [store_out _ _ _ _ (by omega), store_out _ _ _ _ (by omega), store_out _ _ _ _ (by omega), store_out _ _ _ _ (by omega)]
end

/-! ## The standard's decryption inverts its encryption -/

theorem block_block {E D : List Byte → List Byte} {s : Nat} (hE : ∀ b, b.length = s → (E b).length = s) (hDE : ∀ b, b.length = s → D (E b) = b) (T p : List Byte) (hT : T.length = s) (hp : p.length = s) :
    Spec.block D T (Spec.block E T p) = p := by
  unfold Spec.block
  have h1 : (xorBytes p T).length = s := by rw [xorBytes_length]; omega
  rw [xorBytes_cancel _ _ (by rw [hE _ h1]; omega), hDE _ h1, xorBytes_cancel _ _ (by omega)]

theorem blocks_blocks {E D : List Byte → List Byte} {s : Nat} (hs : 0 < s) (hE : ∀ b, b.length = s → (E b).length = s) (hDE : ∀ b, b.length = s → D (E b) = b) (t : List Byte) (ht : t.length = s) (j : Nat) (ps : List (List Byte))
    (hp : ∀ p ∈ ps, p.length = s) : Spec.blocks D s t j (chunks s (Spec.blocks E s t j ps)) = ps.flatten := by
  induction ps generalizing j with
  | nil => rfl
  | cons p ps ih =>
    have hl := hp p (by simp)
    simp only [Spec.blocks]
    rw [chunks_append_block s hs _ _ (block_length hE _ _ (tweak_length t ht j) hl)]
    simp only [Spec.blocks, List.flatten_cons]
    rw [block_block hE hDE _ _ (tweak_length t ht j) hl, ih (j + 1) (fun x hx => hp x (by simp [hx]))]

theorem unsteal_steal {E D : List Byte → List Byte} {s : Nat} (hE : ∀ b, b.length = s → (E b).length = s) (hDE : ∀ b, b.length = s → D (E b) = b) (t : List Byte) (ht : t.length = s) (j : Nat) (p q : List Byte)
    (hp : p.length = s) (hq : q.length ≤ s) : Spec.unsteal D s t j ((Spec.steal E s t j p q).take s) ((Spec.steal E s t j p q).drop s) = p ++ q := by
  unfold Spec.steal
  simp only
  have hcc := block_length hE (Spec.tweak s t j) p (tweak_length t ht j) hp
  have hcp := block_block hE hDE (Spec.tweak s t j) p (tweak_length t ht j) hp
  generalize Spec.block E (Spec.tweak s t j) p = cc at hcc hcp ⊢
  have hl : (q ++ cc.drop q.length).length = s := by rw [List.length_append, List.length_drop]; omega
  have hB := block_length hE (Spec.tweak s t (j + 1)) _ (tweak_length t ht _) hl
  have hBp := block_block hE hDE (Spec.tweak s t (j + 1)) _ (tweak_length t ht _) hl
  generalize Spec.block E (Spec.tweak s t (j + 1)) (q ++ cc.drop q.length) = B at hB hBp ⊢
  rw [List.take_left' hB, List.drop_left' hB]
  unfold Spec.unsteal
  simp only
  rw [hBp]
  have htl : (cc.take q.length).length = q.length := by rw [List.length_take]; omega
  rw [htl, List.drop_left' rfl, List.take_left' rfl, List.take_append_drop, hcp]

theorem decrypt_encrypt {E D : List Byte → List Byte} {s : Nat} (hs : 0 < s) (hE : ∀ b, b.length = s → (E b).length = s) (hDE : ∀ b, b.length = s → D (E b) = b) (t : List Byte) (ht : t.length = s) (msg : List Byte)
    (hm : s ≤ msg.length) : (Spec.encrypt E s t msg).length = msg.length ∧ Spec.decrypt D s t (Spec.encrypt E s t msg) = msg := by
  unfold Spec.encrypt
  by_cases h0 : msg.length % s = 0
  · have hcl := chunks_length s hs msg h0
    have hl : (Spec.blocks E s t 0 (chunks s msg)).length = msg.length := by
      rw [blocks_length hE t ht 0 _ (chunks_block_length s hs msg h0), hcl]
      exact Nat.div_mul_cancel (Nat.dvd_of_mod_eq_zero h0)
    simp only [if_pos h0]
    refine ⟨hl, ?_⟩
    unfold Spec.decrypt
    simp only [hl, if_pos h0]
    rw [blocks_blocks hs hE hDE t ht 0 _ (chunks_block_length s hs msg h0), chunks_flatten s hs]
  · simp only [if_neg h0]
    have hdm := Nat.div_add_mod msg.length s
    have hlt := Nat.mod_lt msg.length hs
    have hn1 : 1 ≤ msg.length / s := (Nat.one_le_div_iff hs).mpr hm
    obtain ⟨h, hh⟩ : ∃ h, msg.length / s = h + 1 := ⟨msg.length / s - 1, by omega⟩
    rw [hh] at hdm ⊢
    rw [Nat.mul_comm, Nat.succ_mul] at hdm
    obtain ⟨x, p, q, rfl, hx, hp, hq⟩ : ∃ x p q : List Byte, msg = x ++ (p ++ q) ∧ x.length = h * s ∧ p.length = s ∧ q.length = msg.length % s := by
      refine ⟨msg.take (h * s), (msg.drop (h * s)).take s, (msg.drop (h * s)).drop s, by rw [List.take_append_drop, List.take_append_drop], ?_, ?_, ?_⟩
      · rw [List.length_take]; omega
      · rw [List.length_take, List.length_drop]; omega
      · rw [List.length_drop, List.length_drop]; omega
    have e1 : h + 1 - 1 = h := rfl
    have e2 : (x ++ (p ++ q)).drop ((h + 1) * s) = q := by rw [← List.append_assoc, List.drop_left' (by rw [List.length_append, hx, hp, Nat.succ_mul])]
    rw [e1, e2, List.take_left' hx, List.drop_left' hx, List.take_left' hp]
    have hqs : q.length ≤ s := by omega
    have hus := unsteal_steal hE hDE t ht h p q hp hqs
    have hsl : (Spec.steal E s t h p q).length = s + q.length := by
      unfold Spec.steal
      have hcc := block_length hE (Spec.tweak s t h) p (tweak_length t ht h) hp
      simp only [List.length_append, List.length_take, hcc]
      rw [block_length hE _ _ (tweak_length t ht _) (by rw [List.length_append, List.length_drop]; omega)]
      omega
    have hbl : (Spec.blocks E s t 0 (chunks s x)).length = h * s := by
      rw [blocks_length hE t ht 0 _ (chunks_block_length s hs x (by rw [hx]; simp)), chunks_length s hs x (by rw [hx]; simp), hx, Nat.mul_div_cancel _ hs]
    have hbb := blocks_blocks hs hE hDE t ht 0 (chunks s x) (chunks_block_length s hs x (by rw [hx]; simp))
    rw [chunks_flatten s hs] at hbb
    generalize Spec.steal E s t h p q = S at hus hsl ⊢
    generalize Spec.blocks E s t 0 (chunks s x) = B at hbl hbb ⊢
    have htot : (B ++ S).length = (x ++ (p ++ q)).length := by simp only [List.length_append]; omega
    refine ⟨htot, ?_⟩
    unfold Spec.decrypt
    simp only [htot, if_neg h0, hh]
    rw [show h + 1 - 1 = h from rfl, List.take_left' hbl, List.drop_left' hbl, hbb]
    have e3 : (B ++ S).drop ((h + 1) * s) = S.drop s := by rw [Nat.succ_mul, ← List.drop_drop, List.drop_left' hbl]
    rw [e3, hus]

end Verif.Xts
