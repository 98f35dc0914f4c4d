import Verif.Rng.MTProofs

/-! # C46: random numbers in a range, shuffles, and the simple generators -/
namespace Verif.Rng
open Verif.Misc

/-- **`GenerateWord32(min, max)` returns a value from `min` to `max`**, whatever the generator. -/
theorem word32_in_range {σ : Type} (g : Gen σ) (hg : g.Ok) (order : ByteOrder) (min max : W32) (h : min ≤ max) (fuel : Nat) (s s' : σ) (v : W32)
    (e : generateWord32 g order min max fuel s = .ok (v, s')) : min ≤ v ∧ v ≤ max :=
  generateWord32_range g hg order h fuel s v s' e

/-- **It returns the first block that is accepted** of the 4-byte blocks the generator gives. -/
theorem word32_first_accepted {σ : Type} (g : Gen σ) (order : ByteOrder) (min max : W32) (k fuel : Nat) (s : σ) (v : W32) (hk : k < fuel)
    (hn : ∀ j < k, tryWord order min max (g.block (g.after s 4 j) 4).1 = none)
    (hv : tryWord order min max (g.block (g.after s 4 k) 4).1 = some v) :
    generateWord32 g order min max fuel s = .ok (v, g.after s 4 (k + 1)) :=
  generateWord32_first g order min max k fuel s v hk hn hv

/-- **Every value from `min` to `max` is given by the same number of the `2^32` blocks**: with uniform blocks each is equally likely. -/
theorem word32_uniform (order : ByteOrder) (min max : W32) (h : min ≤ max) (v w : W32) (hv : min ≤ v ∧ v ≤ max) (hw : min ≤ w ∧ w ≤ max) :
    ways (2 ^ 32) (fun x => tryWord order min max (order.bytes 4 x) == some v) = ways (2 ^ 32) (fun x => tryWord order min max (order.bytes 4 x) == some w) ∧
    0 < ways (2 ^ 32) (fun x => tryWord order min max (order.bytes 4 x) == some v) := by
  rw [tryWord_ways order h v hv.1 hv.2, tryWord_ways order h w hw.1 hw.2]
  exact ⟨rfl, Nat.two_pow_pos _⟩

example : tryWord .little 10 20 [0xf3, 1, 2, 3] = some 13 ∧ tryWord .little 10 20 [0xfb, 1, 2, 3] = none := by decide +kernel

/-- A generator for the examples: the bytes `s, s+1, ...`. -/
def countUp : Gen Nat := ⟨fun s n => ((List.range n).map fun i => BitVec.ofNat 8 (s + i), s + n)⟩

example : countUp.Ok := fun s n => by simp [countUp]
example : generateWord32 countUp .little 10 20 5 0x0b = .ok (13, 23) := by decide +kernel

/-- **`Shuffle` permutes**: it never accesses an element outside, and the result is a permutation; any number of elements. -/
theorem shuffle_permutes {σ α : Type} (g : Gen σ) (hg : g.Ok) (order : ByteOrder) (fuel : Nat) (l : List α) (s : σ) :
    (∀ l' s', shuffle g order fuel l.length l s = .ok (l', s') → l'.Perm l) ∧
    (∀ e, shuffle g order fuel l.length l s = .error e → e = .diverges) := by
  refine ⟨fun l' s' h => ?_, shuffle_never_out_of_bounds g hg order fuel _ l s rfl⟩
  obtain ⟨cs, hc, rfl⟩ := shuffle_choose g hg order fuel _ l s l' s' rfl h
  exact choose_perm cs l hc

/-- **Every permutation comes from exactly one sequence of the random choices**, the first among `n` values, the next among `n - 1` and so
on: with independent uniform choices all permutations are equally likely. -/
theorem shuffle_uniform {α : Type} (l p : List α) (hl : l.Nodup) (hp : p.Perm l) :
    ∃ cs, Choices l.length cs ∧ choose cs l = p ∧ ∀ cs', Choices l.length cs' → choose cs' l = p → cs' = cs :=
  choose_unique _ l p rfl hl hp

/-- `Shuffle` makes such choices: each from a `GenerateWord32(0, remaining - 1)`. -/
theorem shuffle_chooses {σ α : Type} (g : Gen σ) (hg : g.Ok) (order : ByteOrder) (fuel n : Nat) (a : α) (t : List α) (s : σ) (r : W32) (s1 : σ)
    (hr : generateWord32 g order 0 (BitVec.ofNat 32 t.length) fuel s = .ok (r, s1)) :
    let rest := if r.toNat = 0 then t else t.set (r.toNat - 1) a
    shuffle g order fuel (n + 1) (a :: t) s =
      match shuffle g order fuel n rest s1 with
      | .error e => .error e
      | .ok (l, s2) => .ok ((a :: t).getD r.toNat a :: l, s2) := by
  have hle := (generateWord32_range g hg order (min := 0) (max := BitVec.ofNat 32 t.length) (by rw [BitVec.le_def]; exact Nat.zero_le _) fuel s r s1 hr).2
  have hle : r.toNat ≤ t.length := by
    rw [BitVec.le_def, BitVec.toNat_ofNat] at hle
    exact Nat.le_trans hle (Nat.mod_le _ _)
  simp only [shuffle, List.length_cons, Nat.succ_ne_zero, if_false, Nat.add_sub_cancel, hr, iterSwap_eq a t r.toNat hle, List.tail_cons]
  rfl

example : shuffle countUp .little 9 4 [10, 20, 30, 40] 1 = .ok ([20, 30, 40, 10], 17) := by decide +kernel
example : choose [2, 1, 0] ['a', 'b', 'c'] = ['c', 'a', 'b'] ∧ choose [2, 0, 0] ['a', 'b', 'c'] = ['c', 'b', 'a'] := by decide

/-- **`Integer::Randomize(rng, min, max)` gives a value from `min` to `max`** and throws `InvalidArgument` exactly when `min > max`. -/
theorem randomize_in_range {σ : Type} (g : Gen σ) (hg : g.Ok) (min max : Int) (fuel : Nat) (s : σ) :
    (∀ v s', randomize g min max fuel s = .ok (v, s') → min ≤ v ∧ v ≤ max) ∧
    (0 < fuel → (randomize g min max fuel s = .error .invalidArgument ↔ max < min)) := by
  constructor
  · intro v s' e
    unfold randomize at e
    split at e
    · cases e
    · exact randomizeLoop_range g hg min max fuel s v s' e
  · intro _
    unfold randomize
    split
    · rename_i h; simp [h]
    · rename_i h
      have : ∀ (f : Nat) (s : σ), randomizeLoop g min max f s ≠ .error .invalidArgument := by
        intro f
        induction f with
        | zero => intro s h; cases h
        | succ f ih =>
          intro s
          simp only [randomizeLoop]
          split
          · intro h; cases h
          · exact ih _
      exact ⟨fun hh => (this _ _ hh).elim, fun hh => (h hh).elim⟩

/-- **Every value is given by the same number of the byte strings a round asks for**, and the first accepted one is taken. -/
theorem randomize_uniform (min max : Int) (h : min ≤ max) (v w : Int) (hv : min ≤ v ∧ v ≤ max) (hw : min ≤ w ∧ w ≤ max) :
    let n := bitLen (max - min).toNat / 8 + 1
    ways (256 ^ n) (fun x => tryInteger min max (beBytes n x) == some v) = ways (256 ^ n) (fun x => tryInteger min max (beBytes n x) == some w) ∧
    0 < ways (256 ^ n) (fun x => tryInteger min max (beBytes n x) == some v) := by
  intro n
  have h1 := tryInteger_ways min max h v hv.1 hv.2
  have h2 := tryInteger_ways min max h w hw.1 hw.2
  simp only at h1 h2
  exact ⟨h1.trans h2.symm, by rw [h1]; exact Nat.two_pow_pos _⟩

theorem randomize_first_accepted {σ : Type} (g : Gen σ) (min max : Int) (h : min ≤ max) (k fuel : Nat) (s : σ) (v : Int) :
    let n := bitLen (max - min).toNat / 8 + 1
    k < fuel → (∀ j < k, tryInteger min max (g.block (g.after s n j) n).1 = none) →
      tryInteger min max (g.block (g.after s n k) n).1 = some v → randomize g min max fuel s = .ok (v, g.after s n (k + 1)) := by
  intro n hk hn hv
  rw [randomize, if_neg (by omega)]
  exact randomizeLoop_first g min max k fuel s v hk hn hv

/-- **With `EquivalentTo` and `Mod`** the value also has that remainder, and `false` is returned exactly when there is no such value. -/
theorem randomize_equivalent {σ : Type} (g : Gen σ) (hg : g.Ok) (min max equiv mod : Int) (hmm : min ≤ max) (he : 0 ≤ equiv) (hm : equiv < mod) (fuel : Nat) (s : σ) :
    (∀ v s', randomizeEquiv g min max equiv mod fuel s = .ok (some v, s') → min ≤ v ∧ v ≤ max ∧ v % mod = equiv) ∧
    (∀ s', randomizeEquiv g min max equiv mod fuel s = .ok (none, s') → ∀ v, min ≤ v → v ≤ max → v % mod ≠ equiv) := by
  have hmin1 : (min + (equiv - min) % mod) % mod = equiv := by
    rw [Int.add_emod_emod, show min + (equiv - min) = equiv by omega, Int.emod_eq_of_lt he hm]
  have hnn := Int.emod_nonneg (equiv - min) (show mod ≠ 0 by omega)
  have hlt := Int.emod_lt_of_pos (equiv - min) (show 0 < mod by omega)
  unfold randomizeEquiv
  rw [if_neg (by omega), if_neg (by omega)]
  by_cases h1 : mod = 1
  · subst h1
    rw [if_pos rfl]
    constructor
    · intro v s' e
      cases hr : randomize g min max fuel s with
      | error x => rw [hr] at e; cases e
      | ok p =>
        rw [hr] at e
        injection e with e
        have hp : p.1 = v := by have := congrArg Prod.fst e; exact Option.some.inj this
        have := (randomize_in_range g hg min max fuel s).1 p.1 p.2 hr
        rw [hp] at this
        exact ⟨this.1, this.2, by omega⟩
    · intro s' e
      cases hr : randomize g min max fuel s with
      | error x => rw [hr] at e; cases e
      | ok p => rw [hr] at e; injection e with e; cases congrArg Prod.fst e
  · rw [if_neg h1]
    simp only
    generalize hd : (equiv - min) % mod = d at *
    by_cases h2 : max < min + d
    · rw [if_pos h2]
      constructor
      · intro v s' e; injection e with e; cases congrArg Prod.fst e
      · intro s' _ v hv1 hv2 hv
        -- the least value from `min` on with this remainder is `min + d`
        have : (v - min) % mod = d := by
          rw [← hd, Int.sub_emod, hv, Int.sub_emod_emod]
        have h3 : (v - min) % mod ≤ v - min := by
          rw [Int.emod_def]
          have : 0 ≤ mod * ((v - min) / mod) := Int.mul_nonneg (by omega) (Int.ediv_nonneg (by omega) (by omega))
          omega
        omega
    · rw [if_neg h2]
      constructor
      · intro v s' e
        cases hr : randomize g 0 ((max - (min + d)) / mod) fuel s with
        | error x => rw [hr] at e; cases e
        | ok p =>
          rw [hr] at e
          injection e with e
          have hp : p.1 * mod + (min + d) = v := by have := congrArg Prod.fst e; exact Option.some.inj this
          have hb := (randomize_in_range g hg 0 _ fuel s).1 p.1 p.2 hr
          have hle : p.1 * mod ≤ max - (min + d) := by
            have := Int.mul_le_mul_of_nonneg_right hb.2 (show 0 ≤ mod by omega)
            have h4 := Int.ediv_mul_le (max - (min + d)) (show mod ≠ 0 by omega)
            omega
          have hge : 0 ≤ p.1 * mod := Int.mul_nonneg hb.1 (by omega)
          refine ⟨by omega, by omega, ?_⟩
          rw [← hp, Int.add_comm, Int.add_mul_emod_self_right]
          exact hmin1
      · intro s' e
        cases hr : randomize g 0 ((max - (min + d)) / mod) fuel s with
        | error x => rw [hr] at e; cases e
        | ok p => rw [hr] at e; injection e with e; cases congrArg Prod.fst e

example : randomize countUp (-5) 1000 9 0 = .ok (-4, 2) := by decide
example : randomizeEquiv countUp 100 200 3 7 9 12 = .ok (some 185, 13) := by decide
example : randomizeEquiv countUp 11 12 3 7 9 4 = .ok (none, 4) := by decide

/-! ## MersenneTwister -/

/-- **`MersenneTwister` puts out the Mersenne twister sequence** for the seed, any number of words: word `j` is the tempered `x (N + j)`. -/
theorem mersenne_sequence (P : MTParams) (hM : 0 < P.M) (hMN : P.M < P.N) (seed : W32) (x : Nat → W32) (h : IsMT P seed x) (n : Nat) :
    ((MT.reset P seed).words P n).1 = (List.range n).map (fun j => temper (x (P.N + j))) := by
  have := (words_spec P hM hMN x (isMT_twist h) n 0 _ (reset_inv P seed x h)).1
  simpa using this

/-- There is such a sequence for every seed. -/
theorem mersenne_sequence_exists (P : MTParams) (hM : 0 < P.M) (hMN : P.M < P.N) (seed : W32) : ∃ x, IsMT P seed x :=
  ⟨_, mtSeq_isMT P hM hMN seed⟩

/-- `MT19937ar` (mersenne.h:226). -/
def mt19937ar : MTParams := ⟨0x9908B0DF, 397, 624, 1812433253⟩

/-- The first word for seed 5489, as in the C++ standard's `mt19937`. -/
example : ((MT.reset mt19937ar 5489).words mt19937ar 1).1 = [3499211612] := by
  rw [mersenne_sequence mt19937ar (by decide) (by decide) 5489 _ (mtSeq_isMT _ (by decide) (by decide) _) 1]
  decide +kernel

/-- **`GenerateWord32` of `MersenneTwister` stays in range.** -/
theorem mersenne_word32_in_range (P : MTParams) (min max : W32) (h : min ≤ max) (fuel : Nat) : ∀ (m m' : MT) (v : W32),
    MT.word32 P min max fuel m = .ok (v, m') → min ≤ v ∧ v ≤ max := by
  induction fuel with
  | zero => intro m m' v e; cases e
  | succ f ih =>
    intro m m' v e
    simp only [MT.word32] at e
    have hmm : min.toNat ≤ max.toNat := h
    have hmax := max.isLt
    split at e
    · rename_i hr
      have h1 := toNat_range h
      rw [hr] at h1
      have hv := v.isLt
      simp only [BitVec.reduceToNat] at h1
      constructor <;> rw [BitVec.le_def] <;> omega
    · split at e
      · exact ih _ _ _ e
      · rename_i hlt
        injection e with e
        have e := congrArg Prod.fst e
        simp only at e
        generalize BitVec.ofNat 32 (crop 32 (m.next P).1.toNat (bitPrecision 4 (max - min).toNat)) = y at *
        have hy : y.toNat ≤ max.toNat - min.toNat := by
          rw [BitVec.lt_def, toNat_range h] at hlt; omega
        have hv : v.toNat = y.toNat + min.toNat := by
          rw [← e, BitVec.toNat_add, Nat.mod_eq_of_lt (by omega)]
        constructor <;> rw [BitVec.le_def] <;> omega

/-- **A shorter request is not the start of a longer one, although the same words are used** (mersenne.h:80-104): on a little-endian
machine whole words are written from the low byte up and the last 1 to 3 bytes from the high byte down. -/
theorem mersenne_tail_order_differs :
    ∃ (P : MTParams) (seed : W32), ((MT.reset P seed).block P .little 3).1 ≠ ((MT.reset P seed).block P .little 4).1.take 3 :=
  ⟨⟨0x9908B0DF, 2, 4, 1812433253⟩, 5489, by decide +kernel⟩

/-- **`DiscardBytes(n)` discards as many words as it should discard bytes** (mersenne.h:126-130). After `DiscardBytes(4)`, which should
be the same as generating four bytes, four words are gone. -/
theorem mersenne_discard_too_much (P : MTParams) (m : MT) (n : Nat) : MT.discard P (4 * n) m = (m.words P (4 * n)).2 := by
  unfold MT.discard
  congr 2; omega

theorem mersenne_discard_not_generate :
    ∃ (P : MTParams) (seed : W32), (((MT.reset P seed).discard P 4).next P).1 ≠ (((MT.reset P seed).block P .little 4).2.next P).1 :=
  ⟨⟨0x9908B0DF, 2, 4, 1812433253⟩, 5489, by decide +kernel⟩

/-! ## LC_RNG -/

/-- The generator that is meant (rng.cpp:16-31): `48271 * seed mod (2^31 - 1)`. It is computed when the difference is positive. -/
theorem lc_rng_partial (seed : W32) (hs : seed.toNat < 2147483647) (h : 3399 * (seed.toNat / 44488) < 48271 * (seed.toNat % 44488)) :
    (lcNext seed).toNat = 48271 * seed.toNat % 2147483647 := by
  have hq : (44488 : W32).toNat = 44488 := rfl
  have hdiff : ((48271 : W32) * (seed % 44488) - (3399 : W32) * (seed / 44488)).toNat = 48271 * (seed.toNat % 44488) - 3399 * (seed.toNat / 44488) := by
    have e1 : ((48271 : W32) * (seed % 44488)).toNat = 48271 * (seed.toNat % 44488) := by
      rw [BitVec.toNat_mul, BitVec.toNat_umod, hq]
      exact Nat.mod_eq_of_lt (by simp only [BitVec.reduceToNat]; omega)
    have e2 : ((3399 : W32) * (seed / 44488)).toNat = 3399 * (seed.toNat / 44488) := by
      rw [BitVec.toNat_mul, BitVec.toNat_udiv, hq]
      exact Nat.mod_eq_of_lt (by simp only [BitVec.reduceToNat]; omega)
    rw [BitVec.toNat_sub_of_le (by rw [BitVec.le_def, e1, e2]; omega), e1, e2]
  simp only [lcNext, hdiff]
  have hdm := Nat.div_add_mod seed.toNat 44488
  have hlo := Nat.mod_lt seed.toNat (show 0 < 44488 by decide)
  generalize seed.toNat / 44488 = hi at *
  generalize seed.toNat % 44488 = lo at *
  rw [if_pos (by omega)]
  have hlt : 48271 * lo - 3399 * hi < 2147483647 := by
    omega
  have : BitVec.ofInt 32 ((48271 * lo - 3399 * hi : Nat) : Int) = BitVec.ofNat 32 (48271 * lo - 3399 * hi) := by simp
  rw [this, BitVec.toNat_ofNat, Nat.mod_eq_of_lt (by omega)]
  have e : 48271 * seed.toNat = (48271 * lo - 3399 * hi) + 2147483647 * hi := by omega
  rw [e, Nat.add_mul_mod_self_left, Nat.mod_eq_of_lt hlt]

/-- **Otherwise `LC_RNG` is not that generator** (rng.cpp:45-52): the difference is computed in unsigned arithmetic, so the test for a
negative value never succeeds, and the new seed is not below `2^31 - 1`. -/
theorem lc_rng_not_park_miller :
    (lcNext 44488).toNat = 4294963897 ∧ 48271 * 44488 % 2147483647 = 2147480248 := by decide

/-- The test `test > 0` fails only for a difference of exactly zero. -/
theorem lc_rng_negative_never_seen (seed : W32) (h : (48271 : W32) * (seed % 44488) ≠ (3399 : W32) * (seed / 44488)) :
    lcNext seed = (48271 : W32) * (seed % 44488) - (3399 : W32) * (seed / 44488) := by
  simp only [lcNext]
  generalize (48271 : W32) * (seed % 44488) = a at *
  generalize (3399 : W32) * (seed / 44488) = b at *
  have hne : (a - b).toNat ≠ 0 := by
    intro e
    apply h
    have h1 : a - b = 0 := BitVec.eq_of_toNat_eq e
    calc a = a - b + b := (BitVec.sub_add_cancel a b).symm
      _ = b := by rw [h1]; simp
  rw [if_pos (by omega)]
  generalize a - b = c
  rw [BitVec.ofInt_natCast, BitVec.ofNat_toNat, BitVec.setWidth_eq]

/-! ## X917RNG -/

/-- **`X917RNG` with a time vector is the ANSI X9.17 generator**, for any block cipher and any request size, when no block repeats; block 0
is used up by the constructor. -/
theorem x917_generates (E : List Byte → List Byte) (n : Nat) (hn : 0 < n) (hE : ∀ b, (E b).length = n) (dt : Nat) (seed last0 : List Byte)
    (hne0 : last0 ≠ x917R E n dt seed 0) (size : Nat) (hne : ∀ i, i * n < size → x917R E n dt seed i ≠ x917R E n dt seed (i + 1)) :
    ∃ x, X917.make E n seed (beBytes n dt) last0 = .ok x ∧
      ∃ x', X917.generate E n size x size = .ok (((List.range ((size + n - 1) / n)).flatMap fun i => x917R E n dt seed (i + 1)).take size, x') := by
  have h0 := x917_round E n dt seed 0 last0
  rw [if_neg hne0] at h0
  refine ⟨_, by unfold X917.make; simp only [Nat.add_zero, x917V] at h0; rw [h0], ?_⟩
  obtain ⟨l, e⟩ := x917_generate E n hn hE dt seed size 1 (x917R E n dt seed 0) size (Nat.le_refl _) (by
    intro i hlt
    by_cases hi : i = 0
    · subst hi; exact hne 0 hlt
    · rw [if_neg hi, show 1 + i - 1 = i by omega, show 1 + i = i + 1 by omega]; exact hne i hlt)
  have e' := e
  simp only [Nat.add_comm 1] at e'
  exact ⟨_, e'⟩

/-- **A repeated block is refused**: `SelfTestFailure`. -/
theorem x917_repeat_refused (E : List Byte → List Byte) (n dt : Nat) (seed : List Byte) (k : Nat) (h : x917R E n dt seed k = x917R E n dt seed (k + 1)) (f size : Nat) (hs : 0 < size) :
    X917.generate E n (f + 1) ⟨beBytes n (dt + (k + 1)), x917V E n dt seed (k + 1), x917R E n dt seed k⟩ size = .error .other := by
  simp only [X917.generate, x917_round, h, if_pos]
  rw [if_neg (by omega)]

/-- A cipher for the example: add the position and a constant. -/
def exE (b : List Byte) : List Byte := ((b ++ List.replicate 4 0).take 4).zipIdx.map fun (p : Byte × Nat) => p.1 * 5 + BitVec.ofNat 8 p.2 + 17

example : (match X917.make exE 4 [1, 2, 3, 4] [0, 0, 0, 255] [0, 0, 0, 0] with
    | .error e => .error e
    | .ok x => match x.generate exE 4 6 6 with
      | .error e => .error e
      | .ok r => .ok r.1) = (.ok ((x917R exE 4 255 [1, 2, 3, 4] 1 ++ x917R exE 4 255 [1, 2, 3, 4] 2).take 6) : Except Err (List Byte)) := by decide +kernel

end Verif.Rng
