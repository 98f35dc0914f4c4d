import Verif.Integer.ClsProofs2
import Verif.Integer.EncModel

/-!
# Proofs about class Integer: digits, bits, bytes, shifts
-/
namespace Verif.Integer

open Verif.Misc

variable {ws : Nat}

theorem digit {B : Nat} {A : List Nat} (hA : Words B A) (j : Nat) (h : j < A.length) :
    A.getD j 0 = wval B A / B ^ j % B := by
  have hB : 0 < B := by have := hA _ (List.getElem_mem h); omega
  have e1 := wval_take_drop B A j (by omega)
  have e2 : A.drop j = A.getD j 0 :: A.drop (j + 1) := by
    rw [List.getD_eq_getElem?_getD, List.getElem?_eq_getElem h]
    exact List.drop_eq_getElem_cons h
  have hl := wval_take_lt hA j (by omega)
  rw [e1, e2, wval, Nat.add_mul_div_left _ _ (Nat.pow_pos hB), Nat.div_eq_of_lt hl, Nat.zero_add,
    Nat.add_mul_mod_self_left, Nat.mod_eq_of_lt]
  exact hA.getD hB j

theorem digit_beyond {B : Nat} {A : List Nat} (hA : Words B A) (j : Nat) (h : A.length ≤ j) : wval B A / B ^ j = 0 := by
  rcases Nat.eq_zero_or_pos B with h0 | hB
  · cases A with
    | nil => simp [wval]
    | cons w ws => have := hA.head; omega
  · apply Nat.div_eq_of_lt
    exact Nat.lt_of_lt_of_le (wval_lt hA) (Nat.pow_le_pow_right hB h)

theorem wval_set (B : Nat) {A : List Nat} (j w : Nat) (h : j < A.length) :
    wval B (A.set j w) + B ^ j * A.getD j 0 = wval B A + B ^ j * w := by
  have e2 : A.drop j = A.getD j 0 :: A.drop (j + 1) := by
    rw [List.getD_eq_getElem?_getD, List.getElem?_eq_getElem h]
    exact List.drop_eq_getElem_cons h
  have e1 := wval_take_drop B A j (by omega)
  rw [List.set_eq_take_append_cons_drop, if_pos h, wval_append, wval, List.length_take, Nat.min_eq_left (by omega), e1, e2, wval]
  ring

theorem Words.set {B : Nat} {A : List Nat} (hA : Words B A) (j w : Nat) (h : w < B) : Words B (A.set j w) := by
  intro x hx
  rcases List.mem_or_eq_of_mem_set hx with h1 | h1
  · exact hA x h1
  · omega

theorem testBit_wval {W : Nat} (hW : 0 < W) {A : List Nat} (hA : Words (2 ^ W) A) (n : Nat) :
    (wval (2 ^ W) A).testBit n = (decide (n / W < A.length) && (A.getD (n / W) 0).testBit (n % W)) := by
  have en : n = W * (n / W) + n % W := (Nat.div_add_mod n W).symm
  by_cases h : n / W < A.length
  · rw [digit hA _ h, ← Nat.pow_mul, Nat.testBit_mod_two_pow, Nat.testBit_div_two_pow]
    have h2 : n % W < W := Nat.mod_lt _ hW
    have e3 : n % W + W * (n / W) = n := by omega
    simp [h, h2, e3]
  · have h0 := digit_beyond hA (n / W) (by omega)
    have : (wval (2 ^ W) A / (2 ^ W) ^ (n / W)).testBit (n % W) = false := by rw [h0]; simp
    rw [← Nat.pow_mul, Nat.testBit_div_two_pow] at this
    have e3 : n % W + W * (n / W) = n := by omega
    rw [e3] at this
    simp [h, this]

/-! ### Bits -/

theorem getBit_spec (hw : 0 < ws) {x : Obj} (hx : Ok ws x) (n : Nat) : getBit ws x n = (value ws x).natAbs.testBit n := by
  rw [← wval_eq_natAbs, testBit_wval (by omega) hx.words]
  unfold getBit
  split
  · rename_i h
    rw [decide_eq_true h, Bool.true_and, Nat.testBit]
    rw [Nat.and_comm]
    cases h : 1 &&& (x.reg.getD (n / (8 * ws)) 0 >>> (n % (8 * ws))) <;> simp
  · rename_i h
    simp [h]

theorem bitsToWords_lt (hw : 0 < ws) (n : Nat) : n / (8 * ws) < bitsToWords ws (n + 1) := by
  unfold bitsToWords
  have : n + 1 + 8 * ws - 1 = n + 8 * ws := by omega
  rw [this, Nat.add_div_right _ (by omega)]
  omega

theorem setBit_spec (hw : 0 < ws) {x : Obj} (hx : Ok ws x) (n : Nat) :
    Ok ws (setBit ws x n) ∧ (setBit ws x n).neg = x.neg ∧
      (value ws (setBit ws x n)).natAbs = (value ws x).natAbs ||| 2 ^ n := by
  have hB := base_gt hw
  have hg := hx.words.cleanGrow (by omega : 0 < base ws) (roundupSize (bitsToWords ws (n + 1)))
  have hlen := cleanGrow_length x.reg (roundupSize (bitsToWords ws (n + 1)))
  have hv := cleanGrow_wval (base ws) x.reg (roundupSize (bitsToWords ws (n + 1)))
  obtain ⟨r1, r2, r3⟩ := roundupSize_spec (bitsToWords ws (n + 1))
  have hlt := bitsToWords_lt hw n
  have hj : n / (8 * ws) < (cleanGrow x.reg (roundupSize (bitsToWords ws (n + 1)))).length := by omega
  have hm : n % (8 * ws) < 8 * ws := Nat.mod_lt _ (by omega)
  have hwd : (cleanGrow x.reg (roundupSize (bitsToWords ws (n + 1)))).getD (n / (8 * ws)) 0 ||| 1 <<< (n % (8 * ws)) < base ws := by
    apply Nat.or_lt_two_pow
    · exact hg.getD (by omega) _
    · rw [Nat.one_shiftLeft]
      exact Nat.pow_lt_pow_right (by omega) hm
  have hset := hg.set (n / (8 * ws)) _ hwd
  have key : wval (base ws) (setBit ws x n).reg = wval (base ws) x.reg ||| 2 ^ n := by
    apply Nat.eq_of_testBit_eq
    intro i
    simp only [setBit]
    rw [testBit_wval (by omega) hset, Nat.testBit_or, ← hv, testBit_wval (by omega) hg, List.length_set]
    by_cases hi : i / (8 * ws) = n / (8 * ws)
    · rw [hi, decide_eq_true hj]
      simp only [Bool.true_and]
      rw [List.getD_eq_getElem?_getD, List.getElem?_set_self hj, Option.getD_some, Nat.testBit_or, Nat.one_shiftLeft]
      congr 1
      rw [Nat.testBit_two_pow, Nat.testBit_two_pow]
      apply decide_eq_decide.mpr
      have e1 := Nat.div_add_mod i (8 * ws)
      have e2 := Nat.div_add_mod n (8 * ws)
      rw [hi] at e1
      omega
    · rw [List.getD_eq_getElem?_getD, List.getElem?_set_ne (Ne.symm hi), ← List.getD_eq_getElem?_getD]
      have : (2 ^ n).testBit i = false := by
        rw [Nat.testBit_two_pow]; apply decide_eq_false; intro h; subst h; exact hi rfl
      rw [this, Bool.or_false]
  refine ⟨⟨hset, ?_, ?_⟩, rfl, ?_⟩
  · simp only [setBit, List.length_set, hlen]
    exact size_max hx.size r1
  · intro h
    rw [key]
    have hne : (wval (base ws) x.reg ||| 2 ^ n).testBit n = true := by
      rw [Nat.testBit_or, Nat.testBit_two_pow]; simp
    intro h0; rw [h0] at hne; simp at hne
  · rw [← wval_eq_natAbs, ← wval_eq_natAbs]; exact key

theorem power2_spec (hw : 0 < ws) (e : Nat) : Ok ws (power2 ws e) ∧ value ws (power2 ws e) = 2 ^ e := by
  have hB := base_gt hw
  obtain ⟨r1, r2, r3⟩ := roundupSize_spec (bitsToWords ws (e + 1))
  have ⟨_, l2⟩ := size_even r1
  have hreg : (ofWord 0 (bitsToWords ws (e + 1))).reg = List.replicate (roundupSize (bitsToWords ws (e + 1))) 0 := by
    simp only [ofWord]
    obtain ⟨m, em⟩ : ∃ m, roundupSize (bitsToWords ws (e + 1)) = m + 1 := ⟨_, (Nat.sub_add_cancel (by omega)).symm⟩
    rw [em, List.replicate_succ]; simp
  have hz : Ok ws (ofWord 0 (bitsToWords ws (e + 1))) := by
    refine ⟨?_, ?_, by simp [ofWord]⟩
    · rw [hreg]; exact Words.replicate (by omega) _
    · rw [hreg, List.length_replicate]; exact r1
  obtain ⟨h1, h2, h3⟩ := setBit_spec hw hz e
  refine ⟨h1, ?_⟩
  have h0 : value ws (ofWord 0 (bitsToWords ws (e + 1))) = 0 := by
    rw [value_pos rfl, hreg, wval_zeros]; rfl
  rw [h0] at h3
  have h4 : (power2 ws e).neg = false := h2
  rw [value_pos h4]
  have := wval_eq_natAbs (ws := ws) (power2 ws e)
  rw [this]
  unfold power2
  rw [h3]
  simp

/-! ### Bytes -/

theorem base_eq (ws : Nat) : base ws = 256 ^ ws := by
  unfold base; rw [Nat.pow_mul]

theorem mod_pow_div (x w m : Nat) (h : m < w) : x % 256 ^ w / 256 ^ m % 256 = x / 256 ^ m % 256 := by
  have e : (256 : Nat) ^ w = 256 ^ m * 256 ^ (w - m) := by rw [← Nat.pow_add]; congr 1; omega
  rw [e, Nat.mod_mul_right_div_self, Nat.mod_mod_of_dvd]
  have : w - m = (w - m - 1) + 1 := by omega
  rw [this, Nat.pow_succ]
  exact Nat.dvd_mul_left _ _

theorem getByte_spec (hw : 0 < ws) {x : Obj} (hx : Ok ws x) (n : Nat) :
    getByte ws x n = BitVec.ofNat 8 (wval (base ws) x.reg / 256 ^ n) := by
  have hn := Nat.div_add_mod n ws
  have hm : n % ws < ws := Nat.mod_lt _ hw
  have e0 : wval (base ws) x.reg / 256 ^ n = wval (base ws) x.reg / base ws ^ (n / ws) / 256 ^ (n % ws) := by
    rw [base_eq, ← Nat.pow_mul, Nat.div_div_eq_div_mul, ← Nat.pow_add, hn]
  unfold getByte
  split
  · rename_i h
    rw [digit hx.words _ h, e0, Nat.shiftRight_eq_div_pow, Nat.mul_comm, Nat.pow_mul, base_eq]
    apply BitVec.eq_of_toNat_eq
    simp only [BitVec.toNat_ofNat]
    exact mod_pow_div _ _ _ hm
  · rename_i h
    rw [e0, digit_beyond hx.words _ (by omega)]
    simp

theorem byteCount_spec (hw : ∃ k, ws = 2 ^ k) {x : Obj} (hx : Ok ws x) : byteCount ws x = byteLen (value ws x).natAbs := by
  have hw0 : 0 < ws := by obtain ⟨k, e⟩ := hw; rw [e]; exact Nat.two_pow_pos k
  have hB := base_gt hw0
  rw [← wval_eq_natAbs]
  unfold byteCount
  split
  · rename_i h
    have hle := countWords_le x.reg
    have htop := countWords_top x.reg h
    have hd := hx.words.getD (by omega : 0 < base ws) (wordCount x - 1)
    have hbp : bytePrecision ws (x.reg.getD (wordCount x - 1) 0) = byteLen (x.reg.getD (wordCount x - 1) 0) := by
      obtain ⟨k, e⟩ := hw
      rw [base_eq] at hd
      rw [e] at hd ⊢
      exact bytePrecision_eq k _ hd
    rw [hbp]
    have hv : wval (base ws) x.reg = wval (base ws) (x.reg.take (wordCount x - 1)) + base ws ^ (wordCount x - 1) * x.reg.getD (wordCount x - 1) 0 := by
      have hle' : wordCount x ≤ x.reg.length := hle
      have h1 := wval_take_succ (base ws) x.reg (wordCount x - 1) (by omega)
      rw [← h1, show wordCount x - 1 + 1 = wordCount x by omega]
      exact (wval_take_countWords _ _).symm
    have hlow := wval_take_lt hx.words (wordCount x - 1) (by unfold wordCount; omega)
    have htop' : x.reg.getD (wordCount x - 1) 0 ≠ 0 := htop
    generalize hT : x.reg.getD (wordCount x - 1) 0 = T at *
    generalize hL : wval (base ws) (x.reg.take (wordCount x - 1)) = L at *
    have hT1 := byteLen_lt T
    have hT2 := byteLen_pos_le htop'
    have hT3 : byteLen T ≠ 0 := by
      intro e; rw [e] at hT1; simp at hT1; exact htop' hT1
    have eP : base ws ^ (wordCount x - 1) = 256 ^ ((wordCount x - 1) * ws) := by
      rw [base_eq, ← Nat.pow_mul, Nat.mul_comm]
    rw [eP] at hv hlow
    have eb : (wordCount x - 1) * ws + byteLen T = ((wordCount x - 1) * ws + (byteLen T - 1)) + 1 := by omega
    rw [eb]
    symm
    apply byteLen_unique
    · rw [← eb, Nat.pow_add, hv]
      have := Nat.mul_le_mul_left (256 ^ ((wordCount x - 1) * ws)) (Nat.succ_le_of_lt hT1)
      rw [Nat.mul_succ] at this
      omega
    · rw [Nat.pow_add, hv]
      have := Nat.mul_le_mul_left (256 ^ ((wordCount x - 1) * ws)) hT2
      omega
  · rename_i h
    simp only [ne_eq, Decidable.not_not] at h
    rw [(countWords_eq_zero (B := base ws) (by omega)).mp h]; rfl

theorem bitCount_spec (hw : 0 < ws) {x : Obj} (hx : Ok ws x) : bitCount ws x = bitLen (value ws x).natAbs := by
  have hB := base_gt hw
  rw [← wval_eq_natAbs]
  unfold bitCount
  split
  · rename_i h
    have hle := countWords_le x.reg
    have htop := countWords_top x.reg h
    have hd := hx.words.getD (by omega : 0 < base ws) (wordCount x - 1)
    rw [bitPrecision_eq ws _ hd]
    have hv : wval (base ws) x.reg = wval (base ws) (x.reg.take (wordCount x - 1)) + base ws ^ (wordCount x - 1) * x.reg.getD (wordCount x - 1) 0 := by
      have hle' : wordCount x ≤ x.reg.length := hle
      have h1 := wval_take_succ (base ws) x.reg (wordCount x - 1) (by omega)
      rw [← h1, show wordCount x - 1 + 1 = wordCount x by omega]
      exact (wval_take_countWords _ _).symm
    have hlow := wval_take_lt hx.words (wordCount x - 1) (by unfold wordCount; omega)
    have htop' : x.reg.getD (wordCount x - 1) 0 ≠ 0 := htop
    generalize hT : x.reg.getD (wordCount x - 1) 0 = T at *
    generalize hL : wval (base ws) (x.reg.take (wordCount x - 1)) = L at *
    have hT1 := bitLen_lt T
    have hT2 := bitLen_pos_le htop'
    have hT3 : bitLen T ≠ 0 := by
      intro e; rw [e] at hT1; simp at hT1; exact htop' hT1
    have eP : base ws ^ (wordCount x - 1) = 2 ^ ((wordCount x - 1) * (8 * ws)) := by
      unfold base; rw [← Nat.pow_mul, Nat.mul_comm (8 * ws)]
    rw [eP] at hv hlow
    have eb : (wordCount x - 1) * (8 * ws) + bitLen T = ((wordCount x - 1) * (8 * ws) + (bitLen T - 1)) + 1 := by omega
    rw [eb]
    symm
    apply bitLen_unique
    · rw [← eb, Nat.pow_add, hv]
      have := Nat.mul_le_mul_left (2 ^ ((wordCount x - 1) * (8 * ws))) (Nat.succ_le_of_lt hT1)
      rw [Nat.mul_succ] at this
      omega
    · rw [Nat.pow_add, hv]
      have := Nat.mul_le_mul_left (2 ^ ((wordCount x - 1) * (8 * ws))) hT2
      omega
  · rename_i h
    simp only [ne_eq, Decidable.not_not] at h
    rw [(countWords_eq_zero (B := base ws) (by omega)).mp h]; rfl

/-! ### Shifts -/

theorem shlLoop_spec {W s : Nat} (hs : 0 < s) (hsW : s < W) (A : List Nat) (hA : Words (2 ^ W) A) : ∀ c, c < 2 ^ s →
    (shlLoop W s c A).1.length = A.length ∧ Words (2 ^ W) (shlLoop W s c A).1 ∧ (shlLoop W s c A).2 < 2 ^ s ∧
      wval (2 ^ W) (shlLoop W s c A).1 + (2 ^ W) ^ A.length * (shlLoop W s c A).2 = wval (2 ^ W) A * 2 ^ s + c := by
  induction A with
  | nil => intro c hc; exact ⟨rfl, Words.nil, hc, by simp [shlLoop, wval]⟩
  | cons u us ih =>
    intro c hc
    have hu := hA.head
    have eW : 2 ^ W = 2 ^ s * 2 ^ (W - s) := by rw [← Nat.pow_add]; congr 1; omega
    have hcar : u >>> (W - s) < 2 ^ s := by
      rw [Nat.shiftRight_eq_div_pow]
      apply Nat.div_lt_of_lt_mul
      rw [Nat.mul_comm, ← eW]; exact hu
    obtain ⟨h1, h2, h3, h4⟩ := ih hA.tail _ hcar
    have ew : (u <<< s) % 2 ^ W ||| c = 2 ^ s * (u % 2 ^ (W - s)) + c := by
      rw [Nat.shiftLeft_eq, eW, Nat.mul_comm u, Nat.mul_mod_mul_left]
      rw [Nat.two_pow_add_eq_or_of_lt hc]
    simp only [shlLoop]
    refine ⟨by simp [h1], Words.cons ?_ h2, h3, ?_⟩
    · rw [ew, eW]
      have := Nat.mod_lt u (Nat.two_pow_pos (W - s))
      have := Nat.mul_le_mul_left (2 ^ s) (Nat.succ_le_of_lt this)
      rw [Nat.mul_succ] at this
      omega
    · simp only [wval, List.length_cons]
      rw [ew]
      rw [Nat.shiftRight_eq_div_pow] at h4
      have hdm := Nat.div_add_mod u (2 ^ (W - s))
      rw [Nat.shiftRight_eq_div_pow]
      generalize shlLoop W s (u / 2 ^ (W - s)) us = R at *
      generalize u % 2 ^ (W - s) = um at *
      generalize u / 2 ^ (W - s) = ud at *
      have : 2 ^ W * (wval (2 ^ W) R.1 + (2 ^ W) ^ us.length * R.2) = 2 ^ W * (wval (2 ^ W) us * 2 ^ s + ud) := by rw [h4]
      rw [← hdm, Nat.pow_succ]
      have e5 : 2 ^ W * ud = 2 ^ s * (2 ^ (W - s) * ud) := by rw [eW]; ring
      nlinarith [this, e5]

theorem shrLoop_spec {W s : Nat} (hs : 0 < s) (hsW : s < W) (L : List Nat) (hL : Words (2 ^ W) L) : ∀ prev carry,
    carry = 2 ^ (W - s) * (prev % 2 ^ s) →
    (shrLoop W s carry L).length = L.length ∧ Words (2 ^ W) (shrLoop W s carry L) ∧
      wval (2 ^ W) (shrLoop W s carry L).reverse = (wval (2 ^ W) L.reverse + (2 ^ W) ^ L.length * (prev % 2 ^ s)) / 2 ^ s := by
  induction L with
  | nil =>
    intro prev carry _
    refine ⟨rfl, Words.nil, ?_⟩
    simp only [shrLoop, List.reverse_nil, wval, List.length_nil, Nat.pow_zero, Nat.zero_add, Nat.one_mul]
    rw [Nat.div_eq_of_lt (Nat.mod_lt _ (Nat.two_pow_pos s))]
  | cons u us ih =>
    intro prev carry hc
    have hu := hL.head
    have eW : 2 ^ W = 2 ^ s * 2 ^ (W - s) := by rw [← Nat.pow_add]; congr 1; omega
    have ec : (u <<< (W - s)) % 2 ^ W = 2 ^ (W - s) * (u % 2 ^ s) := by
      rw [Nat.shiftLeft_eq, eW, Nat.mul_comm u, Nat.mul_comm (2 ^ s), Nat.mul_mod_mul_left]
    obtain ⟨h1, h2, h3⟩ := ih hL.tail u _ ec
    have hus : u / 2 ^ s < 2 ^ (W - s) := Nat.div_lt_of_lt_mul (by rw [← eW]; exact hu)
    have ew : u >>> s ||| carry = 2 ^ (W - s) * (prev % 2 ^ s) + u / 2 ^ s := by
      rw [Nat.shiftRight_eq_div_pow, hc, Nat.or_comm, Nat.two_pow_add_eq_or_of_lt hus]
    have hp := Nat.mod_lt prev (Nat.two_pow_pos s)
    simp only [shrLoop]
    refine ⟨by simp [h1], Words.cons ?_ h2, ?_⟩
    · rw [ew, eW]
      have := Nat.mul_le_mul_left (2 ^ (W - s)) (Nat.succ_le_of_lt hp)
      rw [Nat.mul_succ, Nat.mul_comm _ (2 ^ s)] at this
      omega
    · rw [List.reverse_cons, List.reverse_cons, wval_append, wval_append, List.length_reverse, List.length_reverse, h1, h3, ew]
      simp only [wval, Nat.mul_zero, Nat.add_zero, List.length_cons]
      have hdm := Nat.div_add_mod u (2 ^ s)
      have e1 : wval (2 ^ W) us.reverse + (2 ^ W) ^ us.length * u + (2 ^ W) ^ (us.length + 1) * (prev % 2 ^ s)
          = (wval (2 ^ W) us.reverse + (2 ^ W) ^ us.length * (u % 2 ^ s))
            + 2 ^ s * ((2 ^ W) ^ us.length * (2 ^ (W - s) * (prev % 2 ^ s) + u / 2 ^ s)) := by
        conv_lhs => rw [← hdm]
        rw [Nat.pow_succ]
        generalize (2 ^ W) ^ us.length = P
        rw [eW]
        ring
      rw [e1, Nat.add_mul_div_left _ _ (Nat.two_pow_pos s)]

theorem shiftWordsLeftByBits_spec {W s : Nat} (hsW : s < W) (A : List Nat) (hA : Words (2 ^ W) A) :
    (shiftWordsLeftByBits W s A).1.length = A.length ∧ Words (2 ^ W) (shiftWordsLeftByBits W s A).1 ∧
      (shiftWordsLeftByBits W s A).2 < 2 ^ s ∧
      wval (2 ^ W) (shiftWordsLeftByBits W s A).1 + (2 ^ W) ^ A.length * (shiftWordsLeftByBits W s A).2 = wval (2 ^ W) A * 2 ^ s := by
  unfold shiftWordsLeftByBits
  split
  · have := shlLoop_spec (by omega) hsW A hA 0 (Nat.two_pow_pos s)
    simpa using this
  · rename_i h
    have : s = 0 := by omega
    subst this
    exact ⟨rfl, hA, by simp, by simp⟩

theorem shiftWordsRightByBits_spec {W s : Nat} (hsW : s < W) (A : List Nat) (hA : Words (2 ^ W) A) :
    (shiftWordsRightByBits W s A).length = A.length ∧ Words (2 ^ W) (shiftWordsRightByBits W s A) ∧
      wval (2 ^ W) (shiftWordsRightByBits W s A) = wval (2 ^ W) A / 2 ^ s := by
  unfold shiftWordsRightByBits
  split
  · have hr : Words (2 ^ W) A.reverse := fun w h => hA w (List.mem_reverse.mp h)
    obtain ⟨h1, h2, h3⟩ := shrLoop_spec (by omega) hsW A.reverse hr 0 0 (by simp)
    refine ⟨by simp [h1], fun w h => h2 w (List.mem_reverse.mp h), ?_⟩
    rw [h3]; simp
  · rename_i h
    have : s = 0 := by omega
    subst this
    exact ⟨rfl, hA, by simp⟩

theorem bitsToWords_split (hw : 0 < ws) (n : Nat) :
    bitsToWords ws n = n / (8 * ws) + bitsToWords ws (n % (8 * ws)) ∧ bitsToWords ws (n % (8 * ws)) ≤ 1 ∧
      (bitsToWords ws (n % (8 * ws)) = 0 → n % (8 * ws) = 0) := by
  have hW : 0 < 8 * ws := by omega
  have hm := Nat.mod_lt n hW
  have hn := Nat.div_add_mod n (8 * ws)
  unfold bitsToWords
  have e : n + 8 * ws - 1 = (n % (8 * ws) + 8 * ws - 1) + 8 * ws * (n / (8 * ws)) := by omega
  refine ⟨?_, ?_, ?_⟩
  · rw [e, Nat.add_mul_div_left _ _ hW, Nat.add_comm]
  · have : (n % (8 * ws) + 8 * ws - 1) / (8 * ws) < 2 := by
      apply Nat.div_lt_of_lt_mul; omega
    omega
  · intro h
    rcases Nat.div_eq_zero_iff.mp h with h' | h' <;> omega

theorem shlAssign_spec (hw : 0 < ws) {x : Obj} (hx : Ok ws x) (n : Nat) :
    Ok ws (shlAssign ws x n) ∧ value ws (shlAssign ws x n) = value ws x * 2 ^ n := by
  have hB := base_gt hw
  have hB0 : 0 < base ws := by omega
  obtain ⟨b1, b2, b3⟩ := bitsToWords_split hw n
  obtain ⟨r1, r2, r3⟩ := roundupSize_spec (wordCount x + bitsToWords ws n)
  have hm : n % (8 * ws) < 8 * ws := Nat.mod_lt _ (by omega)
  have hn := Nat.div_add_mod n (8 * ws)
  have hcw := countWords_le x.reg
  have hwc : wordCount x = countWords x.reg := rfl
  simp only [shlAssign]
  generalize hwcd : wordCount x = wc at *
  generalize hsw : n / (8 * ws) = sw at *
  generalize hsb : n % (8 * ws) = sb at *
  generalize hr0 : cleanGrow x.reg (roundupSize (wc + bitsToWords ws n)) = r0
  have w0 : Words (base ws) r0 := by rw [← hr0]; exact hx.words.cleanGrow hB0 _
  have l0 : r0.length = max x.reg.length (roundupSize (wc + bitsToWords ws n)) := by rw [← hr0]; exact cleanGrow_length _ _
  have v0 : wval (base ws) (r0.take wc) = wval (base ws) x.reg := by
    have : r0.take wc = x.reg.take wc := by
      rw [← hr0, Integer.cleanGrow, List.take_append_of_le_length (by omega)]
    rw [this, hwc]; exact wval_take_countWords _ _
  have hl : wc + bitsToWords ws n ≤ r0.length := by omega
  have z0 : wval (base ws) (r0.drop wc) = 0 := by
    have h1 := wval_take_drop (base ws) r0 wc (by omega)
    have h2 : wval (base ws) r0 = wval (base ws) x.reg := by rw [← hr0]; exact cleanGrow_wval _ _ _
    rw [v0, h2] at h1
    rcases Nat.eq_zero_or_pos (wval (base ws) (r0.drop wc)) with h | h
    · exact h
    · have := Nat.mul_pos (Nat.pow_pos hB0 (n := wc)) h
      omega
  have zr := wval_eq_zero hB0 z0
  -- the word shift
  have e1 : shiftWordsLeftByWords (r0.take (wc + sw)) sw = List.replicate sw 0 ++ r0.take wc := by
    have : (r0.take (wc + sw)).length = wc + sw := by simp; omega
    unfold shiftWordsLeftByWords
    rw [this, Nat.min_eq_left (by omega), List.take_take]
    congr 2; omega
  have e2 : writeAt r0 0 (shiftWordsLeftByWords (r0.take (wc + sw)) sw) = List.replicate sw 0 ++ (r0.take wc ++ r0.drop (wc + sw)) := by
    rw [e1, writeAt]
    have : (List.replicate sw 0 ++ r0.take wc).length = sw + wc := by simp; omega
    rw [this]
    simp only [List.take_zero, List.nil_append, Nat.zero_add, List.append_assoc]
    rw [Nat.add_comm sw wc]
  rw [e2]
  have ez : r0.drop (wc + sw) = List.replicate (r0.length - (wc + sw)) 0 := by
    rw [← List.drop_drop, zr, List.drop_replicate]; congr 1; simp; omega
  have e3 : ((List.replicate sw 0 ++ (r0.take wc ++ r0.drop (wc + sw))).drop sw).take (wc + bitsToWords ws sb)
      = r0.take wc ++ List.replicate (bitsToWords ws sb) 0 := by
    have hrl : (List.replicate sw 0).length = sw := List.length_replicate
    rw [List.drop_left' hrl, ez, List.take_append, List.length_take, Nat.min_eq_left (by omega : wc ≤ r0.length)]
    rw [List.take_of_length_le (by simp), List.take_replicate]
    congr 2; omega
  rw [e3]
  have hwA : Words (base ws) (r0.take wc ++ List.replicate (bitsToWords ws sb) 0) := (w0.take wc).append (Words.replicate hB0 _)
  obtain ⟨s1, s2, s3, s4⟩ := shiftWordsLeftByBits_spec hm _ hwA
  have lA : (r0.take wc ++ List.replicate (bitsToWords ws sb) 0).length = wc + bitsToWords ws sb := by simp; omega
  have vA : wval (base ws) (r0.take wc ++ List.replicate (bitsToWords ws sb) 0) = wval (base ws) x.reg := by
    rw [wval_append, wval_zeros, v0]; simp
  rw [vA, lA] at s4
  rw [lA] at s1
  generalize hS : shiftWordsLeftByBits (8 * ws) sb (r0.take wc ++ List.replicate (bitsToWords ws sb) 0) = S at *
  have hout : S.2 = 0 := by
    rcases Nat.eq_zero_or_pos S.2 with h | h
    · exact h
    · have hlt : wval (base ws) x.reg < base ws ^ wc := by rw [hwc]; exact wval_lt_countWords hx.words
      have hle : base ws ^ (wc + bitsToWords ws sb) ≤ base ws ^ (wc + bitsToWords ws sb) * S.2 := Nat.le_mul_of_pos_right _ h
      have hlt2 : wval (base ws) x.reg * 2 ^ sb < base ws ^ (wc + bitsToWords ws sb) := by
        rcases Nat.eq_zero_or_pos (bitsToWords ws sb) with h0 | h0
        · have := b3 h0
          rw [h0, this]; simpa using hlt
        · have : bitsToWords ws sb = 1 := by omega
          rw [this, Nat.pow_succ]
          have h5 : 2 ^ sb ≤ base ws := Nat.pow_le_pow_right (by omega) (by omega)
          calc wval (base ws) x.reg * 2 ^ sb < base ws ^ wc * 2 ^ sb := (Nat.mul_lt_mul_right (Nat.two_pow_pos sb)).mpr hlt
            _ ≤ base ws ^ wc * base ws := Nat.mul_le_mul_left _ h5
      have s4' : wval (base ws) S.1 + base ws ^ (wc + bitsToWords ws sb) * S.2 = wval (base ws) x.reg * 2 ^ sb := s4
      omega
  rw [hout] at s4
  have e4 : writeAt (List.replicate sw 0 ++ (r0.take wc ++ r0.drop (wc + sw))) sw S.1
      = List.replicate sw 0 ++ (S.1 ++ List.replicate (r0.length - (sw + S.1.length)) 0) := by
    rw [writeAt, List.take_left' List.length_replicate, List.append_assoc]
    congr 2
    rw [← List.drop_drop, List.drop_left' List.length_replicate, ez, List.drop_append, List.drop_of_length_le (by simp; omega),
      List.nil_append, List.drop_replicate]
    congr 1; simp; omega
  rw [e4]
  have hval : wval (base ws) (List.replicate sw 0 ++ (S.1 ++ List.replicate (r0.length - (sw + S.1.length)) 0)) = wval (base ws) x.reg * 2 ^ n := by
    rw [wval_append, wval_append, wval_zeros, wval_zeros, List.length_replicate]
    simp only [Nat.mul_zero, Nat.add_zero, Nat.zero_add] at s4 ⊢
    rw [s4, ← hn, Nat.pow_add]
    unfold base
    rw [← Nat.pow_mul]
    ring
  refine ⟨⟨(Words.replicate hB0 _).append (s2.append (Words.replicate hB0 _)), ?_, ?_⟩, ?_⟩
  · simp only [List.length_append, List.length_replicate]
    have : sw + (S.1.length + (r0.length - (sw + S.1.length))) = r0.length := by omega
    rw [this, l0]
    exact size_max hx.size r1
  · intro h
    simp only at h ⊢
    rw [hval]
    have := hx.sign h
    exact Nat.mul_ne_zero this (by have := Nat.two_pow_pos n; omega)
  · simp only [value, hval]
    split <;> push_cast <;> ring

theorem shrAssign_spec (hw : 0 < ws) {x : Obj} (hx : Ok ws x) (n : Nat) :
    Ok ws (shrAssign ws x n) ∧ value ws (shrAssign ws x n) = (value ws x).tdiv (2 ^ n) := by
  have hB := base_gt hw
  have hB0 : 0 < base ws := by omega
  have hm : n % (8 * ws) < 8 * ws := Nat.mod_lt _ (by omega)
  have hn := Nat.div_add_mod n (8 * ws)
  have hcw : wordCount x ≤ x.reg.length := countWords_le x.reg
  have hxv : wval (base ws) (x.reg.take (wordCount x)) = wval (base ws) x.reg := wval_take_countWords _ _
  have hdr := drop_ge_countWords hB0 hx.words (wordCount x) (Nat.le_refl _) hcw
  have hzr := wval_eq_zero hB0 hdr.2
  have hlt : wval (base ws) x.reg < base ws ^ wordCount x := wval_lt_countWords hx.words
  simp only [shrAssign]
  generalize hwcd : wordCount x = wc at *
  generalize hsw : n / (8 * ws) = sw at *
  generalize hsb : n % (8 * ws) = sb at *
  have lt : (x.reg.take wc).length = wc := by simp; omega
  have e1 : writeAt x.reg 0 (shiftWordsRightByWords (x.reg.take wc) sw)
      = (x.reg.take wc).drop (min sw wc) ++ List.replicate (x.reg.length - (wc - min sw wc)) 0 := by
    have ll : (shiftWordsRightByWords (x.reg.take wc) sw).length = wc := by
      simp [shiftWordsRightByWords]; omega
    rw [writeAt, ll, Nat.zero_add, List.take_zero, List.nil_append, hzr, shiftWordsRightByWords, lt, List.append_assoc,
      List.replicate_append_replicate]
    congr 2
    rw [List.length_drop]; omega
  have wpre : Words (base ws) ((x.reg.take wc).drop (min sw wc)) := (hx.words.take _).drop _
  have key : ∀ r2, r2 = (if wc > sw then writeAt (writeAt x.reg 0 (shiftWordsRightByWords (x.reg.take wc) sw)) 0
        (shiftWordsRightByBits (8 * ws) sb ((writeAt x.reg 0 (shiftWordsRightByWords (x.reg.take wc) sw)).take (wc - sw)))
      else writeAt x.reg 0 (shiftWordsRightByWords (x.reg.take wc) sw)) →
      Words (base ws) r2 ∧ r2.length = x.reg.length ∧ wval (base ws) r2 = wval (base ws) x.reg / 2 ^ n := by
    intro r2 hr2
    rw [e1] at hr2
    have epow : (2 : Nat) ^ n = base ws ^ sw * 2 ^ sb := by
      rw [← hn, Nat.pow_add]; unfold base; rw [← Nat.pow_mul]
    split at hr2
    · rename_i hgt
      have hmin : min sw wc = sw := Nat.min_eq_left (by omega)
      rw [hmin] at hr2 wpre
      have lp : ((x.reg.take wc).drop sw).length = wc - sw := by simp; omega
      rw [List.take_left' lp] at hr2
      obtain ⟨s1, s2, s3⟩ := shiftWordsRightByBits_spec hm _ wpre
      rw [lp] at s1
      rw [writeAt, s1, Nat.zero_add, List.take_zero, List.nil_append, List.drop_left' lp] at hr2
      rw [hr2]
      refine ⟨s2.append (Words.replicate hB0 _), by simp [s1]; omega, ?_⟩
      rw [wval_append, wval_zeros]
      simp only [Nat.mul_zero, Nat.add_zero]
      have s3' : wval (base ws) (shiftWordsRightByBits (8 * ws) sb ((x.reg.take wc).drop sw)) = wval (base ws) ((x.reg.take wc).drop sw) / 2 ^ sb := s3
      rw [s3', epow, ← Nat.div_div_eq_div_mul]
      congr 1
      have td := wval_take_drop (base ws) (x.reg.take wc) sw (by omega)
      have hl := wval_take_lt (hx.words.take wc) sw (by omega)
      rw [hxv] at td
      rw [td, Nat.add_mul_div_left _ _ (Nat.pow_pos hB0), Nat.div_eq_of_lt hl, Nat.zero_add]
    · rename_i hgt
      have hmin : min sw wc = wc := Nat.min_eq_right (by omega)
      rw [hmin] at hr2
      have : (x.reg.take wc).drop wc = [] := List.drop_of_length_le (by omega)
      rw [this, List.nil_append] at hr2
      rw [hr2]
      refine ⟨Words.replicate hB0 _, by simp, ?_⟩
      rw [wval_zeros]
      symm
      apply Nat.div_eq_of_lt
      rw [epow]
      have h1 := Nat.pow_le_pow_right hB0 (by omega : wc ≤ sw)
      have h2 := Nat.le_mul_of_pos_right (base ws ^ sw) (Nat.two_pow_pos sb)
      exact Nat.lt_of_lt_of_le hlt (Nat.le_trans h1 h2)
  obtain ⟨k1, k2, k3⟩ := key _ rfl
  generalize hr2 : (if wc > sw then writeAt (writeAt x.reg 0 (shiftWordsRightByWords (x.reg.take wc) sw)) 0
        (shiftWordsRightByBits (8 * ws) sb ((writeAt x.reg 0 (shiftWordsRightByWords (x.reg.take wc) sw)).take (wc - sw)))
      else writeAt x.reg 0 (shiftWordsRightByWords (x.reg.take wc) sw)) = r2 at *
  have tpos : (wval (base ws) x.reg : Int).tdiv (2 ^ n) = ((wval (base ws) x.reg / 2 ^ n : Nat) : Int) := by
    have := Int.ofNat_tdiv (wval (base ws) x.reg) (2 ^ n)
    rw [this]; push_cast; rfl
  split
  · rename_i h
    obtain ⟨z1, z2⟩ := zero_ok hw
    refine ⟨z1, ?_⟩
    have h0 := (countWords_eq_zero (B := base ws) hB0).mp h.2
    rw [z2, value_neg h.1, Int.neg_tdiv, tpos, ← k3, h0]; rfl
  · rename_i h
    refine ⟨⟨k1, by simp only; rw [k2]; exact hx.size, ?_⟩, ?_⟩
    · intro hn h0
      exact h ⟨hn, (countWords_eq_zero (B := base ws) hB0).mpr h0⟩
    · cases hs : x.neg
      · rw [value_pos rfl, value_pos hs, tpos, k3]
      · rw [value_neg rfl, value_neg hs, Int.neg_tdiv, tpos, k3]

end Verif.Integer
