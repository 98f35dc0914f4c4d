import Verif.Cmac.Model
import Verif.Cmac.Spec

/-! # Proofs about CMAC and CBC-MAC -/
namespace Verif.Cmac

open Verif.Modes (apb apbLoop apbStep snoc_of_length beVal_snoc beBytes_snoc)
open Spec (chain)

/-! ## Doubling -/

theorem getD_at (a : List Byte) (x : Byte) (t : List Byte) (n : Nat) (h : a.length = n) : (a ++ x :: t).getD n 0 = x := by subst h; simp
theorem set_at (a : List Byte) (x y : Byte) (t : List Byte) (n : Nat) (h : a.length = n) : (a ++ x :: t).set n y = a ++ y :: t := by subst h; simp

theorem getD_app (a t : List Byte) (n : Nat) (h : n < a.length) : (a ++ t).getD n 0 = a.getD n 0 := by
  rw [List.getD_eq_getElem?_getD, List.getD_eq_getElem?_getD, List.getElem?_append_left h]

theorem twice (x c : Byte) (v : Nat) : BitVec.ofNat 8 (2 * (v * 256 + x.toNat) + c.toNat) = x + (x + c) := by
  apply BitVec.eq_of_toNat_eq
  simp only [BitVec.toNat_ofNat, BitVec.toNat_add]
  omega

theorem top_toNat (x : Byte) : (x >>> 7).toNat = x.toNat / 128 := by
  rw [BitVec.toNat_ushiftRight, Nat.shiftRight_eq_div_pow]

theorem mulLoop_spec : ∀ (n : Nat) (a t : List Byte) (c : Byte), a.length = 2 * n → c.toNat ≤ 1 →
    (mulLoop (2 * n) (a ++ t) c).1 = beBytes (2 * n) (2 * beVal a + c.toNat) ++ t ∧ (mulLoop (2 * n) (a ++ t) c).2.toNat = (2 * beVal a + c.toNat) / 256 ^ (2 * n) := by
  intro n
  induction n with
  | zero =>
    intro a t c ha hc
    have : a = [] := List.eq_nil_of_length_eq_zero ha
    subst this
    simp [mulLoop, beBytes, leBytes]
  | succ n ih =>
    intro a t c ha hc
    obtain ⟨a1, y, rfl, h1⟩ := snoc_of_length a (2 * n + 1) (by omega)
    obtain ⟨a2, x, rfl, h2⟩ := snoc_of_length a1 (2 * n) (by omega)
    rw [show 2 * (n + 1) = 2 * n + 2 from by omega, mulLoop]
    have e : a2 ++ [x] ++ [y] ++ t = (a2 ++ [x]) ++ y :: t := by simp
    rw [e]
    rw [getD_at _ y t (2 * n + 1) h1, set_at _ y _ t (2 * n + 1) h1]
    have e2 : ∀ z : Byte, (a2 ++ [x]) ++ z :: t = a2 ++ x :: (z :: t) := by intro z; simp
    rw [e2, getD_at _ x _ (2 * n) h2, set_at _ x _ _ (2 * n) h2]
    have hx := x.isLt
    have hy := y.isLt
    obtain ⟨i1, i2⟩ := ih a2 ((x + (x + y >>> 7)) :: (y + (y + c)) :: t) (x >>> 7) h2 (by rw [top_toNat]; omega)
    rw [i1, i2, top_toNat]
    have hv : 2 * beVal (a2 ++ [x] ++ [y]) + c.toNat = 2 * (beVal (a2 ++ [x]) * 256 + y.toNat) + c.toNat := by rw [beVal_snoc]
    have hv1 : (2 * beVal (a2 ++ [x] ++ [y]) + c.toNat) / 256 = 2 * (beVal a2 * 256 + x.toNat) + (y >>> 7).toNat := by rw [hv, beVal_snoc, top_toNat]; omega
    have hv2 : (2 * beVal (a2 ++ [x] ++ [y]) + c.toNat) / 256 / 256 = 2 * beVal a2 + x.toNat / 128 := by rw [hv1, top_toNat]; omega
    constructor
    · rw [beBytes_snoc, beBytes_snoc, hv2, hv1, hv, twice, twice]
      simp
    · rw [Nat.pow_add, show (256 : Nat) ^ 2 = 256 * 256 from rfl, Nat.mul_comm (256 ^ (2 * n)), ← Nat.div_div_eq_div_mul, ← Nat.div_div_eq_div_mul, hv2]

/-- The block sizes the code knows. -/
def Width (b : Nat) : Prop := b = 8 ∨ b = 16 ∨ b = 32 ∨ b = 64 ∨ b = 128

theorem xorByte_length (k : List Byte) (i : Nat) (x : Byte) : (xorByte k i x).length = k.length := by simp [xorByte]

theorem ofNat8_xor (a b : Nat) : BitVec.ofNat 8 (a ^^^ b) = BitVec.ofNat 8 a ^^^ BitVec.ofNat 8 b := by
  apply BitVec.eq_of_toNat_eq
  simp only [BitVec.toNat_ofNat, BitVec.toNat_xor]
  exact Nat.xor_mod_two_pow

theorem xor_div (a b : Nat) : (a ^^^ b) / 256 = a / 256 ^^^ b / 256 := by
  rw [show (256 : Nat) = 2 ^ 8 from rfl, ← Nat.shiftRight_eq_div_pow, ← Nat.shiftRight_eq_div_pow, ← Nat.shiftRight_eq_div_pow, Nat.shiftRight_xor_distrib]

theorem beBytes_zero_xor (k v : Nat) : beBytes k (v ^^^ 0) = beBytes k v := by rw [Nat.xor_zero]

theorem xor_last (k v r : Nat) (hr : r < 256) : beBytes (k + 1) (v ^^^ r) = xorByte (beBytes (k + 1) v) k (BitVec.ofNat 8 r) := by
  rw [beBytes_snoc, beBytes_snoc, xor_div, Nat.div_eq_of_lt hr, Nat.xor_zero, ofNat8_xor, xorByte, getD_at _ _ _ k (by simp), set_at _ _ _ _ k (by simp)]

theorem xor_last2 (k v r s : Nat) (hr : r < 256) (hs : s < 256) :
    beBytes (k + 2) (v ^^^ (r * 256 + s)) = xorByte (xorByte (beBytes (k + 2) v) k (BitVec.ofNat 8 r)) (k + 1) (BitVec.ofNat 8 s) := by
  rw [show k + 2 = (k + 1) + 1 from rfl, beBytes_snoc, xor_div, show (r * 256 + s) / 256 = r by omega, xor_last _ _ _ hr, ofNat8_xor, beBytes_snoc (k + 1) v]
  have e : BitVec.ofNat 8 (r * 256 + s) = BitVec.ofNat 8 s := by
    apply BitVec.eq_of_toNat_eq; simp only [BitVec.toNat_ofNat]; omega
  rw [e]
  have e2 : ∀ y : Byte, xorByte (beBytes (k + 1) (v / 256) ++ [y]) k (BitVec.ofNat 8 r) = xorByte (beBytes (k + 1) (v / 256)) k (BitVec.ofNat 8 r) ++ [y] := by
    intro y
    unfold xorByte
    rw [List.set_append, if_pos (by simp), getD_app _ _ _ (by simp)]
  rw [e2]
  conv => rhs; rw [xorByte, getD_at _ _ _ (k + 1) (by simp [xorByte]), set_at _ _ _ _ (k + 1) (by simp [xorByte])]

theorem xor_last3 (k v r s t : Nat) (hr : r < 256) (hs : s < 256) (ht : t < 256) :
    beBytes (k + 3) (v ^^^ ((r * 256 + s) * 256 + t)) = xorByte (xorByte (xorByte (beBytes (k + 3) v) k (BitVec.ofNat 8 r)) (k + 1) (BitVec.ofNat 8 s)) (k + 2) (BitVec.ofNat 8 t) := by
  rw [show k + 3 = (k + 2) + 1 from rfl, beBytes_snoc, xor_div, show ((r * 256 + s) * 256 + t) / 256 = r * 256 + s by omega, xor_last2 _ _ _ _ hr hs, ofNat8_xor, beBytes_snoc (k + 2) v]
  have e : BitVec.ofNat 8 ((r * 256 + s) * 256 + t) = BitVec.ofNat 8 t := by
    apply BitVec.eq_of_toNat_eq; simp only [BitVec.toNat_ofNat]; omega
  rw [e]
  have e2 : ∀ (i : Nat) (z y : Byte) (L : List Byte), i < L.length → xorByte (L ++ [y]) i z = xorByte L i z ++ [y] := by
    intro i z y L hi
    unfold xorByte
    rw [List.set_append, if_pos hi, getD_app _ _ _ hi]
  rw [e2 k _ _ _ (by simp), e2 (k + 1) _ _ _ (by simp [xorByte])]
  conv => rhs; rw [xorByte, getD_at _ _ _ (k + 2) (by simp [xorByte]), set_at _ _ _ _ (k + 2) (by simp [xorByte])]

theorem mulU_spec (b : Nat) (hb : Width b) (k : List Byte) (hk : k.length = b) : mulU k = Spec.double b k := by
  have hp : 0 < b := by unfold Width at hb; omega
  have hev : b = 2 * (b / 2) := by unfold Width at hb; omega
  obtain ⟨l1, l2⟩ := mulLoop_spec (b / 2) k [] 0 (by omega) (by decide)
  rw [← hev, List.append_nil, List.append_nil] at l1
  rw [← hev, List.append_nil] at l2
  rw [show (0 : Byte).toNat = 0 from rfl, Nat.add_zero] at l1 l2
  have hlt : beVal k < 256 ^ b := by have := beVal_lt k; rwa [hk] at this
  have hpow : 256 ^ b = 2 ^ (8 * b) := by rw [show (256 : Nat) = 2 ^ 8 from rfl, ← Nat.pow_mul]
  have h2 : 2 ^ (8 * b) = 2 * 2 ^ (8 * b - 1) := by rw [← Nat.pow_succ']; congr 1; omega
  have hbit : (beVal k).testBit (8 * b - 1) = decide (2 ^ (8 * b - 1) ≤ beVal k) := by
    by_cases h : 2 ^ (8 * b - 1) ≤ beVal k
    · rw [decide_eq_true h]
      exact Nat.testBit_of_two_pow_le_and_two_pow_add_one_gt h (by rw [show 8 * b - 1 + 1 = 8 * b by omega, ← hpow]; exact hlt)
    · rw [decide_eq_false h]
      exact Nat.testBit_lt_two_pow (by omega)
  unfold mulU Spec.double
  dsimp only
  rw [hk, hbit, l1]
  by_cases h : 2 ^ (8 * b - 1) ≤ beVal k
  · have hc : (mulLoop b k 0).2 ≠ 0 := by
      intro e
      rw [e] at l2
      have z : (0 : Byte).toNat = 0 := rfl
      rw [z, hpow, h2] at l2
      have := Nat.div_pos (show 2 * 2 ^ (8 * b - 1) ≤ 2 * beVal k by omega) (show 0 < 2 * 2 ^ (8 * b - 1) from Nat.mul_pos (by decide) (Nat.two_pow_pos _))
      omega
    rw [if_pos hc, decide_eq_true h, if_pos rfl]
    have hm : ∀ r, beBytes b ((2 * beVal k % 2 ^ (8 * b)) ^^^ r % 256 ^ b) = beBytes b (2 * beVal k ^^^ r) := by
      intro r
      rw [← beBytes_mod b (2 * beVal k ^^^ r), hpow, Nat.xor_mod_two_pow]
    have hR : Spec.R b < 256 ^ b := by
      unfold Width at hb
      rcases hb with rfl | rfl | rfl | rfl | rfl <;> decide
    rw [← Nat.mod_eq_of_lt hR, hm]
    unfold Width at hb
    rcases hb with rfl | rfl | rfl | rfl | rfl
    · exact (xor_last 7 _ 0x1b (by decide)).symm
    · exact (xor_last 15 _ 0x87 (by decide)).symm
    · exact (xor_last2 30 _ 4 0x25 (by decide) (by decide)).symm
    · exact (xor_last2 62 _ 1 0x25 (by decide) (by decide)).symm
    · exact (xor_last3 125 _ 8 0 0x43 (by decide) (by decide) (by decide)).symm
  · have hc : ¬ (mulLoop b k 0).2 ≠ 0 := by
      intro e
      apply e
      apply BitVec.eq_of_toNat_eq
      rw [l2, hpow]
      exact Nat.div_eq_of_lt (by omega)
    rw [if_neg hc, decide_eq_false h]
    rfl

theorem double_length (b : Nat) (L : List Byte) : (Spec.double b L).length = b := by
  unfold Spec.double
  dsimp only
  split <;> simp

/-! ## Chaining -/

section
variable {E : List Byte → List Byte} {b : Nat} (hb : 0 < b) (hE : ∀ x, x.length = b → (E x).length = b)
include hb hE

omit hb in
theorem chain_length : ∀ (xs : List (List Byte)) (c : List Byte), c.length = b → (∀ x ∈ xs, x.length = b) → (chain E c xs).length = b := by
  intro xs
  induction xs with
  | nil => intro c hc _; exact hc
  | cons x xs ih =>
    intro c hc h
    exact ih _ (hE _ (by simp [hc, h x])) (fun y hy => h y (by simp [hy]))

theorem apbLoop_chain (fl : Modes.Flags) (hfl : fl = { dontIncrement := true, xorInput := true }) : ∀ (n : Nat) (m : Mem) (x : Nat), b ≤ x →
    load (apbLoop E b fl n m 0 (some x) 0) 0 b = chain E (load m 0 b) (chunks b (load m x (n * b))) := by
  subst hfl
  intro n
  induction n with
  | zero => intro m x _; simp [apbLoop, chain]
  | succ n ih =>
    intro m x hx
    rw [apbLoop]
    show load (apbLoop E b _ n _ 0 (some (x + b)) 0) 0 b = _
    rw [ih _ _ (by omega), show (n + 1) * b = b + n * b by rw [Nat.add_mul, Nat.one_mul, Nat.add_comm], load_add, chunks_append_block b hb _ _ (by simp), chain, chain, List.foldl_cons]
    have hs : (E (xorBytes (load m x b) (load m 0 b))).length = b := hE _ (by simp)
    simp only [apbStep, if_true, Bool.false_eq_true, if_false]
    rw [load_store' _ _ _ _ hs, load_store_disj _ _ _ _ _ (by rw [hs]; omega), xorBytes_comm]

theorem chainBlocks_spec (acc input : List Byte) (len : Nat) (ha : acc.length = b) (hl : len ≤ input.length) :
    chainBlocks E b acc input len = .ok (chain E acc (chunks b (input.take (len / b * b)))) := by
  have hle : len / b * b ≤ len := Nat.div_mul_le_self _ _
  unfold chainBlocks apb
  simp only [Bool.false_eq_true, if_false]
  rw [apbLoop_chain hb hE _ rfl _ _ _ (Nat.le_refl _), load_store_disj _ _ _ _ _ (by omega), load_store' _ _ _ _ ha]
  congr 3
  rw [← load_take _ _ input.length _ (by omega), load_store]

end

/-! ## A partial block in the register -/

/-- `c` with `r` combined into its first bytes. -/
def mix (c r : List Byte) : List Byte := xorBytes (c.take r.length) r ++ c.drop r.length

theorem mix_length (c r : List Byte) (h : r.length ≤ c.length) : (mix c r).length = c.length := by simp [mix]; omega

theorem mix_nil (c : List Byte) : mix c [] = c := by simp [mix, xorBytes]

theorem mix_full (c r : List Byte) (h : r.length = c.length) : mix c r = xorBytes c r := by
  unfold mix
  rw [h, List.take_length, List.drop_length, List.append_nil]

theorem xorAt_mix (b : Nat) (c r y : List Byte) (hc : c.length = b) (h : r.length + y.length ≤ b) : xorAt b (mix c r) r.length y = .ok (mix c (r ++ y)) := by
  have h1 : (xorBytes (c.take r.length) r).length = r.length := by simp; omega
  unfold xorAt
  rw [if_neg (by omega)]
  congr 1
  have t1 : (mix c r).take r.length = xorBytes (c.take r.length) r := List.take_left' h1
  have t2 : (mix c r).drop r.length = c.drop r.length := List.drop_left' h1
  have t3 : (mix c r).drop (r.length + y.length) = c.drop (r.length + y.length) := by rw [← List.drop_drop, t2, List.drop_drop]
  rw [t1, t2, t3]
  unfold mix
  rw [List.length_append]
  congr 1
  have e : c.take (r.length + y.length) = c.take r.length ++ (c.drop r.length).take y.length := List.take_add
  rw [e, xorBytes_append _ _ _ _ (by simp; omega)]
  congr 1
  have hl : ((c.drop r.length).take y.length).length = y.length := by simp; omega
  have := xorBytes_append ((c.drop r.length).take y.length) ((c.drop r.length).drop y.length) y [] hl
  rw [List.take_append_drop, List.append_nil] at this
  rw [this]
  simp [xorBytes]

theorem xorByte_mix (c r : List Byte) (x : Byte) (h : r.length < c.length) : xorByte (mix c r) r.length x = mix c (r ++ [x]) := by
  have := xorAt_mix c.length c r [x] rfl (by simp; omega)
  unfold xorAt at this
  rw [if_neg (by simp; omega)] at this
  injection this with this
  rw [← this]
  have h1 : (xorBytes (c.take r.length) r).length = r.length := by simp; omega
  have hm : (mix c r).length = c.length := mix_length _ _ (by omega)
  obtain ⟨y, t, e⟩ : ∃ y t, (mix c r).drop r.length = y :: t := by
    have : ((mix c r).drop r.length).length ≠ 0 := by simp [hm]; omega
    cases hd : (mix c r).drop r.length with
    | nil => rw [hd] at this; simp at this
    | cons y t => exact ⟨y, t, rfl⟩
  have hsp : mix c r = (mix c r).take r.length ++ y :: t := by rw [← e, List.take_append_drop]
  have ht : ((mix c r).take r.length).length = r.length := by simp [hm]; omega
  have hd : (mix c r).drop (r.length + 1) = t := by rw [← List.drop_drop, e]; rfl
  rw [e]
  simp only [List.length_singleton]
  rw [hd]
  conv => lhs; rw [hsp]
  rw [xorByte, getD_at _ _ _ _ ht, set_at _ _ _ _ _ ht]
  simp [xorBytes]

theorem mix_zeros (c r : List Byte) (n : Nat) (h : r.length + n = c.length) : mix c r = xorBytes c (r ++ List.replicate n 0) := by
  unfold mix
  conv => rhs; rw [← List.take_append_drop r.length c]
  rw [xorBytes_append _ _ _ _ (by simp; omega)]
  congr 1
  have : (c.drop r.length).length = n := by simp; omega
  rw [← this]
  generalize c.drop r.length = d
  induction d with
  | nil => rfl
  | cons x xs ih => simp [xorBytes, List.replicate_succ] at ih ⊢; exact ih

/-! ## CMAC -/

section
variable (b : Nat) (E : List Byte → List Byte)

/-- The object has been given `w ++ r`: the blocks of `w` are chained, `r` is the block in the register. -/
def At (s : St) (w r : List Byte) : Prop :=
  s.E = E ∧ s.k1 = Spec.K1 E b ∧ s.k2 = Spec.K2 E b ∧ w.length % b = 0 ∧ r.length ≤ b ∧ s.counter = r.length ∧ s.acc = mix (chain E (List.replicate b 0) (chunks b w)) r

/-- The object has been given the message `m`: a last block, also a complete one, is not yet chained. -/
def Rep (s : St) (m : List Byte) : Prop := ∃ w r, m = w ++ r ∧ (r = [] → w = []) ∧ At b E s w r

variable {b : Nat} {E : List Byte → List Byte} (hb : 0 < b) (hE : ∀ x, x.length = b → (E x).length = b)
include hb hE

theorem chunks_chain_length (w : List Byte) (hw : w.length % b = 0) : (chain E (List.replicate b 0) (chunks b w)).length = b :=
  chain_length hE _ _ (by simp) (chunks_block_length b hb w hw)

omit hE in
theorem chain_chunks_append (w v : List Byte) (hw : w.length % b = 0) :
    chain E (List.replicate b 0) (chunks b (w ++ v)) = chain E (chain E (List.replicate b 0) (chunks b w)) (chunks b v) := by
  rw [chunks_append b hb w v hw, chain, chain, chain, List.foldl_append]

omit hE in
theorem chain_one (c r : List Byte) (hr : r.length = b) : chain E c (chunks b r) = E (xorBytes c r) := by
  have : chunks b r = [r] := by
    have := chunks_append_block b hb r [] hr
    rwa [List.append_nil, chunks_nil] at this
  rw [this]; rfl

theorem updateFirst_spec (s : St) (w r x : List Byte) (h : At b E s w r) (hx : x ≠ []) :
    ∃ s' w' r' x', updateFirst b s x = .ok (s', x') ∧ At b E s' w' r' ∧ w ++ r ++ x = w' ++ r' ++ x' ∧ (x' = [] → r' ≠ []) ∧ (x' ≠ [] → r' = []) := by
  obtain ⟨h1, h2, h3, h4, h5, h6, h7⟩ := h
  have hxl : 0 < x.length := List.length_pos_iff.2 hx
  unfold updateFirst
  by_cases hc : s.counter > 0
  · rw [if_pos hc]
    have hC := chunks_chain_length hb hE w h4
    have hlen : (x.take (min (b - s.counter) x.length)).length = min (b - s.counter) x.length := by simp
    have ex := xorAt_mix b _ r (x.take (min (b - s.counter) x.length)) hC (by rw [hlen]; omega)
    rw [← h7, ← h6] at ex
    simp only [ex, bind, Except.bind]
    by_cases hd : s.counter + min (b - s.counter) x.length = b ∧ (x.drop (min (b - s.counter) x.length)).length > 0
    · rw [if_pos hd]
      have hrl : (r ++ x.take (min (b - s.counter) x.length)).length = b := by rw [List.length_append, hlen]; omega
      refine ⟨_, w ++ (r ++ x.take (min (b - s.counter) x.length)), [], _, rfl, ⟨h1, h2, h3, ?_, Nat.zero_le _, rfl, ?_⟩, ?_, ?_, fun _ => rfl⟩
      · rw [List.length_append, hrl, Nat.add_mod_right]; exact h4
      · dsimp only
        rw [mix_nil, h1, chain_chunks_append hb _ _ h4, chain_one hb _ _ hrl, mix_full _ _ (by rw [hrl, hC])]
      · simp
      · intro e; rw [e] at hd; simp at hd
    · rw [if_neg hd]
      refine ⟨_, w, r ++ x.take (min (b - s.counter) x.length), _, rfl, ⟨h1, h2, h3, h4, ?_, ?_, rfl⟩, by simp, ?_, ?_⟩
      · rw [List.length_append, hlen]; omega
      · rw [List.length_append, hlen, h6]
      · intro _ e
        have := congrArg List.length e
        rw [List.length_append, List.length_nil] at this
        omega
      · intro e
        have : 0 < (x.drop (min (b - s.counter) x.length)).length := List.length_pos_iff.2 e
        rw [List.length_drop] at this
        exact absurd ⟨by omega, by rw [List.length_drop]; omega⟩ hd
  · rw [if_neg hc]
    have hr : r = [] := List.eq_nil_of_length_eq_zero (by omega)
    exact ⟨s, w, r, x, rfl, ⟨h1, h2, h3, h4, h5, h6, h7⟩, rfl, fun e => absurd e hx, fun _ => hr⟩

theorem update_spec (s : St) (m x : List Byte) (h : Rep b E s m) : ∃ s', update b s x = .ok s' ∧ Rep b E s' (m ++ x) := by
  obtain ⟨w, r, rfl, hwr, hat⟩ := h
  unfold update
  by_cases hx : x.length = 0
  · have : x = [] := List.eq_nil_of_length_eq_zero hx
    rw [if_pos hx, this, List.append_nil]
    exact ⟨s, rfl, w, r, rfl, hwr, hat⟩
  rw [if_neg hx]
  obtain ⟨s1, w1, r1, x1, e1, hat1, hm1, hn1, hz1⟩ := updateFirst_spec hb hE s w r x hat (fun e => hx (by rw [e]; rfl))
  simp only [e1, bind, Except.bind]
  obtain ⟨s2, w2, r2, x2, e2, hat2, hm2, hn2, hl2⟩ : ∃ s2 w2 r2 x2, updateBlocks b s1 x1 = .ok (s2, x2) ∧ At b E s2 w2 r2 ∧ w1 ++ r1 ++ x1 = w2 ++ r2 ++ x2 ∧ (x2 = [] → r2 ≠ []) ∧ r2.length + x2.length ≤ b := by
    unfold updateBlocks
    by_cases hg : x1.length > b
    · rw [if_pos hg]
      have hr1 : r1 = [] := hz1 (fun e => by rw [e] at hg; simp at hg)
      obtain ⟨a1, a2, a3, a4, a5, a6, a7⟩ := hat1
      rw [hr1, mix_nil] at a7
      have hC := chunks_chain_length hb hE w1 a4
      simp only [a1, bind, Except.bind]
      rw [chainBlocks_spec hb hE s1.acc x1 _ (by rw [a7]; exact hC) (by omega)]
      have hdm := Nat.div_add_mod (x1.length - 1) b
      rw [Nat.mul_comm] at hdm
      have hml := Nat.mod_lt (x1.length - 1) hb
      have hle : (x1.length - 1) / b * b ≤ x1.length - 1 := Nat.div_mul_le_self _ _
      have hk : x1.length - (1 + (x1.length - 1) % b) = (x1.length - 1) / b * b := by omega
      rw [hk]
      refine ⟨_, w1 ++ x1.take ((x1.length - 1) / b * b), [], _, rfl, ⟨rfl, a2, a3, ?_, Nat.zero_le _, ?_, ?_⟩, ?_, ?_, ?_⟩
      · rw [List.length_append, List.length_take, Nat.min_eq_left (by omega), Nat.add_mul_mod_self_right]; exact a4
      · dsimp only; rw [a6, hr1]
      · dsimp only
        rw [mix_nil, chain_chunks_append hb _ _ a4, a7]
      · rw [hr1]; simp
      · intro e
        have := congrArg List.length e
        rw [List.length_drop] at this
        simp at this; omega
      · rw [List.length_drop]; simp; omega
    · rw [if_neg hg]
      refine ⟨s1, w1, r1, x1, rfl, hat1, rfl, hn1, ?_⟩
      by_cases hz : x1 = []
      · rw [hz]; exact hat1.2.2.2.2.1
      · rw [hz1 hz]; simp; omega
  rw [e2]
  dsimp only
  rw [hm1, hm2]
  unfold updateLast
  by_cases hg : x2.length > 0
  · rw [if_pos hg]
    obtain ⟨a1, a2, a3, a4, a5, a6, a7⟩ := hat2
    have := xorAt_mix b _ r2 x2 (chunks_chain_length hb hE w2 a4) hl2
    rw [← a7, ← a6] at this
    simp only [this, bind, Except.bind]
    refine ⟨_, rfl, w2, r2 ++ x2, by simp, ?_, a1, a2, a3, a4, ?_, ?_, rfl⟩
    · intro e
      have := congrArg List.length e
      rw [List.length_append, List.length_nil] at this
      omega
    · rw [List.length_append]; exact hl2
    · rw [List.length_append, a6]
  · rw [if_neg hg]
    have hz : x2 = [] := List.eq_nil_of_length_eq_zero (by omega)
    exact ⟨s2, rfl, w2, r2, by rw [hz, List.append_nil], fun e => absurd e (hn2 hz), hat2⟩

omit hE in
theorem cmac_split (w r : List Byte) (hw : w.length % b = 0) (hr : r.length ≤ b) (hwr : r = [] → w = []) :
    Spec.cmac E b (w ++ r) = E (xorBytes (chain E (List.replicate b 0) (chunks b w)) (if r.length = b then xorBytes r (Spec.K1 E b) else
      xorBytes (r ++ 0x80 :: List.replicate (b - 1 - r.length) 0) (Spec.K2 E b))) := by
  have hn : ((w ++ r).length - 1) / b * b = w.length := by
    by_cases h : r = []
    · rw [h, hwr h]; simp
    · have hp : 0 < r.length := List.length_pos_iff.2 h
      obtain ⟨c, hc⟩ := Nat.dvd_of_mod_eq_zero hw
      have : ((w ++ r).length - 1) / b = c := by
        rw [List.length_append, hc, show b * c + r.length - 1 = b * c + (r.length - 1) by omega, Nat.mul_add_div hb, Nat.div_eq_of_lt (by omega), Nat.add_zero]
      rw [this, hc, Nat.mul_comm]
  unfold Spec.cmac
  dsimp only
  rw [hn, List.drop_left, List.take_left]

omit hb hE in
theorem K1_length : (Spec.K1 E b).length = b := double_length _ _
omit hb hE in
theorem K2_length : (Spec.K2 E b).length = b := double_length _ _

theorem final_spec (s : St) (m : List Byte) (n : Nat) (h : Rep b E s m) (hn : n ≤ b) :
    ∃ s', truncatedFinal b s n = .ok (s', (Spec.cmac E b m).take n) ∧ Rep b E s' [] ∧ s' = { s with acc := List.replicate b 0, counter := 0 } := by
  obtain ⟨w, r, rfl, hwr, a1, a2, a3, a4, a5, a6, a7⟩ := h
  have hC := chunks_chain_length hb hE w a4
  have hm : s.acc.length = b := by rw [a7, mix_length _ _ (by omega), hC]
  have hfull : ∀ l : List Byte, l.length = b → l.take (b / b * b) = l := by
    intro l hl; rw [Nat.div_self hb, Nat.one_mul, ← hl, List.take_length]
  have key : (if s.counter < b then chainBlocks s.E b (xorByte s.acc s.counter 0x80) s.k2 b else chainBlocks s.E b s.acc s.k1 b) = .ok (Spec.cmac E b (w ++ r)) := by
    rw [cmac_split hb w r a4 a5 hwr, a1, a2, a3]
    by_cases hc : s.counter < b
    · rw [if_pos hc, if_neg (by omega), chainBlocks_spec hb hE _ _ _ (by rw [xorByte_length, hm]) (by rw [K2_length]; omega),
        hfull _ (K2_length), chain_one hb _ _ (K2_length), a7, a6, xorByte_mix _ _ _ (by omega), mix_zeros _ _ (b - 1 - r.length) (by rw [List.length_append, List.length_singleton, hC]; omega), xorBytes_assoc]
      congr 4
      simp
    · rw [if_neg hc, if_pos (by omega), chainBlocks_spec hb hE _ _ _ hm (by rw [K1_length]; omega), hfull _ (K1_length), chain_one hb _ _ (K1_length), a7,
        mix_full _ _ (by omega), xorBytes_assoc]
  unfold truncatedFinal
  rw [if_neg (by omega), key]
  refine ⟨_, rfl, ⟨[], [], rfl, fun _ => rfl, a1, a2, a3, by simp, by simp, rfl, ?_⟩, rfl⟩
  rw [mix_nil]; rfl

theorem cmac_length (m : List Byte) : (Spec.cmac E b m).length = b := by
  unfold Spec.cmac
  dsimp only
  apply hE
  have hdm := Nat.div_add_mod (m.length - 1) b
  rw [Nat.mul_comm] at hdm
  have hml := Nat.mod_lt (m.length - 1) hb
  have h1 : (m.take ((m.length - 1) / b * b)).length % b = 0 := by
    rw [List.length_take, Nat.min_eq_left (by omega)]; exact Nat.mul_mod_left _ _
  have hC := chunks_chain_length (E := E) hb hE _ h1
  rw [xorBytes_length, hC]
  split
  · rename_i h; rw [xorBytes_length, h, K1_length]; omega
  · rename_i h
    rw [List.length_drop] at h
    rw [xorBytes_length, K2_length, List.length_append, List.length_cons, List.length_replicate, List.length_drop]
    omega

theorem cmac_computes (lim : Nat) : (obj b).Computes (Spec.cmac E b) lim (Rep b E) where
  update := fun s m x h _ => update_spec hb hE s m x h
  restart := by
    intro s m h
    obtain ⟨s', h1, h2, _⟩ := final_spec hb hE s m 0 h (Nat.zero_le _)
    show Rep b E (restart b s) []
    unfold restart
    rw [h1]; exact h2
  final := by
    intro s m n h hn
    obtain ⟨s', h1, h2, _⟩ := final_spec hb hE s m n h hn
    exact ⟨s', h1, h2⟩
  reject := fun s n h => by show truncatedFinal b s n = _; unfold truncatedFinal; exact if_pos h
  length := fun m => cmac_length hb hE m

end

theorem setKey_rep (b : Nat) (hw : Width b) (E : List Byte → List Byte) (hE : ∀ x, x.length = b → (E x).length = b) : Rep b E (setKey b E) [] := by
  have hl : (E (List.replicate b 0)).length = b := hE _ (by simp)
  refine ⟨[], [], rfl, fun _ => rfl, rfl, ?_, ?_, by simp, by simp, rfl, (mix_nil _).symm⟩
  · exact mulU_spec b hw _ hl
  · show mulU (mulU _) = _
    rw [mulU_spec b hw _ hl, mulU_spec b hw _ (double_length _ _)]; rfl

/-! ## CBC-MAC -/

section
variable (b : Nat) (E : List Byte → List Byte)

def CbcAt (s : Cbc) (w r : List Byte) : Prop :=
  s.E = E ∧ w.length % b = 0 ∧ r.length < b ∧ s.counter = r.length ∧ s.reg = mix (chain E (List.replicate b 0) (chunks b w)) r

def CbcRep (s : Cbc) (m : List Byte) : Prop := ∃ w r, m = w ++ r ∧ CbcAt b E s w r

variable {b : Nat} {E : List Byte → List Byte} (hb : 0 < b) (hE : ∀ x, x.length = b → (E x).length = b)
include hb hE

theorem cbcByte_spec (s : Cbc) (m : List Byte) (x : Byte) (h : CbcRep b E s m) : CbcRep b E (cbcByte b s x) (m ++ [x]) := by
  obtain ⟨w, r, rfl, a1, a2, a3, a4, a5⟩ := h
  have hC := chunks_chain_length hb hE w a2
  unfold cbcByte
  dsimp only
  rw [a5, a4, xorByte_mix _ _ _ (by omega)]
  by_cases hc : r.length + 1 = b
  · rw [if_pos hc]
    have hrl : (r ++ [x]).length = b := by simp [hc]
    refine ⟨w ++ (r ++ [x]), [], by simp, a1, ?_, hb, rfl, ?_⟩
    · rw [List.length_append, hrl, Nat.add_mod_right]; exact a2
    · simp only [processBuf]
      rw [mix_nil, a1, chain_chunks_append hb _ _ a2, chain_one hb _ _ hrl, mix_full _ _ (by rw [hrl, hC])]
  · rw [if_neg hc]
    exact ⟨w, r ++ [x], by simp, a1, a2, by simp; omega, by simp, rfl⟩

theorem cbcBytes_spec : ∀ (x : List Byte) (s : Cbc) (m : List Byte), CbcRep b E s m → CbcRep b E (x.foldl (cbcByte b) s) (m ++ x) := by
  intro x
  induction x with
  | nil => intro s m h; rw [List.append_nil]; exact h
  | cons y ys ih =>
    intro s m h
    have := ih _ _ (cbcByte_spec hb hE s m y h)
    rw [List.append_assoc] at this
    exact this

theorem cbcFirst_spec : ∀ (x : List Byte) (s : Cbc) (m : List Byte), CbcRep b E s m →
    ∃ m', m' ++ (cbcFirst b s x).2 = m ++ x ∧ CbcRep b E (cbcFirst b s x).1 m' ∧ ((cbcFirst b s x).2 = [] ∨ (cbcFirst b s x).1.counter = 0) := by
  intro x
  induction x with
  | nil => intro s m h; exact ⟨m, rfl, h, .inl rfl⟩
  | cons y ys ih =>
    intro s m h
    unfold cbcFirst
    by_cases hc : s.counter ≠ 0
    · rw [if_pos hc]
      obtain ⟨m', i1, i2, i3⟩ := ih _ _ (cbcByte_spec hb hE s m y h)
      exact ⟨m', by rw [i1]; simp, i2, i3⟩
    · rw [if_neg hc]
      exact ⟨m, rfl, h, .inr (Decidable.not_not.1 hc)⟩

theorem cbcUpdate_spec (s : Cbc) (m x : List Byte) (h : CbcRep b E s m) : ∃ s', cbcUpdate b s x = .ok s' ∧ CbcRep b E s' (m ++ x) := by
  obtain ⟨m1, h1, h2, h3⟩ := cbcFirst_spec hb hE x s m h
  unfold cbcUpdate
  rw [← h1]
  generalize cbcFirst b s x = y at *
  obtain ⟨s1, x1⟩ := y
  dsimp only at h1 h2 h3 ⊢
  simp only [bind, Except.bind]
  by_cases hg : x1.length ≥ b
  · rw [if_pos hg]
    obtain ⟨w, r, rfl, a1, a2, a3, a4, a5⟩ := h2
    have hr : r = [] := by
      rcases h3 with e | e
      · rw [e] at hg; simp at hg; omega
      · exact List.eq_nil_of_length_eq_zero (by omega)
    rw [hr, mix_nil] at a5
    subst hr
    have hC := chunks_chain_length hb hE w a2
    have hdm := Nat.div_add_mod x1.length b
    rw [Nat.mul_comm] at hdm
    have hle : x1.length / b * b ≤ x1.length := Nat.div_mul_le_self _ _
    rw [a1, chainBlocks_spec hb hE _ _ _ (by rw [a5]; exact hC) (Nat.le_refl _), show x1.length - x1.length % b = x1.length / b * b by omega]
    refine ⟨_, rfl, ?_⟩
    have : w ++ [] ++ x1 = (w ++ x1.take (x1.length / b * b)) ++ x1.drop (x1.length / b * b) := by simp
    rw [this]
    apply cbcBytes_spec hb hE
    refine ⟨w ++ x1.take (x1.length / b * b), [], by simp, rfl, ?_, hb, a4, ?_⟩
    · rw [List.length_append, List.length_take, Nat.min_eq_left (by omega), Nat.add_mul_mod_self_right]; exact a2
    · dsimp only
      rw [mix_nil, chain_chunks_append hb _ _ a2, a5]
  · rw [if_neg hg]
    exact ⟨_, rfl, cbcBytes_spec hb hE _ _ _ h2⟩

theorem cbc_split (w r : List Byte) (hw : w.length % b = 0) (hr : r.length < b) :
    Spec.cbcMac E b (w ++ r) = if r = [] then chain E (List.replicate b 0) (chunks b w) else E (mix (chain E (List.replicate b 0) (chunks b w)) r) := by
  have hC := chunks_chain_length hb hE w hw
  unfold Spec.cbcMac
  have hmod : (w ++ r).length % b = r.length := by rw [List.length_append, Nat.add_mod, hw, Nat.zero_add, Nat.mod_mod, Nat.mod_eq_of_lt hr]
  rw [hmod]
  by_cases h : r = []
  · rw [if_pos h, h]; simp
  · rw [if_neg h]
    have hp : 0 < r.length := List.length_pos_iff.2 h
    have hl : (r ++ List.replicate ((b - r.length) % b) 0).length = b := by
      rw [List.length_append, List.length_replicate, Nat.mod_eq_of_lt (by omega)]; omega
    rw [List.append_assoc, chain_chunks_append hb _ _ hw, chain_one hb _ _ hl, mix_zeros _ _ ((b - r.length) % b) (by rw [Nat.mod_eq_of_lt (by omega)]; omega)]

theorem cbcFinal_spec (s : Cbc) (m : List Byte) (n : Nat) (h : CbcRep b E s m) (hn : n ≤ b) :
    ∃ s', cbcFinal b s n = .ok (s', (Spec.cbcMac E b m).take n) ∧ CbcRep b E s' [] := by
  obtain ⟨w, r, rfl, a1, a2, a3, a4, a5⟩ := h
  unfold cbcFinal
  rw [if_neg (by omega), cbc_split hb hE w r a2 a3]
  by_cases hr : r = []
  · rw [if_pos hr]
    rw [hr] at a4 a5
    rw [if_neg (by simp [a4])]
    refine ⟨{ s with reg := List.replicate b 0 }, ?_, [], [], rfl, a1, by simp, hb, a4, by rw [mix_nil]; rfl⟩
    dsimp only
    rw [a5, mix_nil]
  · rw [if_neg hr]
    have hp : 0 < r.length := List.length_pos_iff.2 hr
    rw [if_pos (by omega)]
    refine ⟨{ processBuf s with reg := List.replicate b 0 }, ?_, [], [], rfl, a1, by simp, hb, rfl, by rw [mix_nil]; rfl⟩
    simp only [processBuf]
    rw [a5, a1]

theorem cbcMac_length (m : List Byte) : (Spec.cbcMac E b m).length = b := by
  apply chunks_chain_length hb hE
  rw [List.length_append, List.length_replicate]
  have hm := Nat.mod_lt m.length hb
  by_cases h : m.length % b = 0
  · rw [h, Nat.sub_zero, Nat.mod_self, Nat.add_zero, h]
  · rw [Nat.mod_eq_of_lt (a := b - m.length % b) (by omega)]
    have hdm := Nat.div_add_mod m.length b
    rw [show m.length + (b - m.length % b) = b * (m.length / b) + b by omega, Nat.mul_add_mod, Nat.mod_self]

theorem cbc_computes (lim : Nat) : (cbcObj b).Computes (Spec.cbcMac E b) lim (CbcRep b E) where
  update := fun s m x h _ => cbcUpdate_spec hb hE s m x h
  restart := by
    intro s m h
    obtain ⟨s', h1, h2⟩ := cbcFinal_spec hb hE s m 0 h (Nat.zero_le _)
    show CbcRep b E (match cbcFinal b s 0 with | .ok (s, _) => s | .error _ => s) []
    rw [h1]; exact h2
  final := fun s m n h hn => cbcFinal_spec hb hE s m n h hn
  reject := fun s n h => by show cbcFinal b s n = _; unfold cbcFinal; exact if_pos h
  length := fun m => cbcMac_length hb hE m

omit hE in
theorem cbcSetKey_rep : CbcRep b E (cbcSetKey b E) [] := ⟨[], [], rfl, rfl, by simp, hb, rfl, (mix_nil _).symm⟩

end

end Verif.Cmac
