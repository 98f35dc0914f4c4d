import Verif.Aes.Proofs

/-! # Rijndael: the key schedule -/
namespace Verif.Aes
open Spec

theorem sum_W (a b c d : Byte) : (a.setWidth 32 <<< 24) ^^^ (b.setWidth 32 <<< 16) ^^^ (c.setWidth 32 <<< 8) ^^^ d.setWidth 32 = W a b c d := by
  apply BitVec.eq_of_getLsbD_eq
  intro i hi
  rw [W_bit]
  simp only [BitVec.getLsbD_xor, BitVec.getLsbD_shiftLeft, BitVec.getLsbD_setWidth]
  by_cases h1 : i < 8
  · simp [show i < 24 by omega, show i < 16 by omega, h1, hi]
  by_cases h2 : i < 16
  · simp [show i < 24 by omega, h1, h2, hi, show i - 8 < 32 by omega, BitVec.getLsbD_of_ge d i (by omega)]
  by_cases h3 : i < 24
  · simp [h1, h2, h3, hi, show i - 16 < 32 by omega, show i - 8 < 32 by omega, BitVec.getLsbD_of_ge d i (by omega), BitVec.getLsbD_of_ge c (i - 8) (by omega)]
  · simp [h1, h2, h3, hi, show i - 24 < 32 by omega, show i - 16 < 32 by omega, show i - 8 < 32 by omega, BitVec.getLsbD_of_ge d i (by omega),
      BitVec.getLsbD_of_ge c (i - 8) (by omega), BitVec.getLsbD_of_ge b (i - 16) (by omega)]

theorem kw_xor (v w : Word) : kw (Word.xor v w) = kw v ^^^ kw w := by
  unfold kw Word.xor
  rw [W_xor]
  simp (discharger := decide) only [wat_of]

theorem kw_subRot (w : Word) : kw (subWord (rotWord w)) = subRot (kw w) := by
  unfold subRot kw subWord rotWord
  simp only [sum_W, getByte_W0, getByte_W1, getByte_W2, getByte_W3, se_eq]
  simp (discharger := decide) only [wat_of, Nat.reduceAdd, Nat.reduceMod]

theorem kw_sub (w : Word) : kw (subWord w) = subOnly (kw w) := by
  unfold subOnly kw subWord
  simp only [sum_W, getByte_W0, getByte_W1, getByte_W2, getByte_W3, se_eq]
  simp (discharger := decide) only [wat_of]

theorem kw_rcon : ∀ k < 10, kw (rcon (k + 1)) = rconTab.getD k 0 := by decide +kernel

theorem keyWords_length (key : List Byte) : ∀ n, (keyWords key n).length = n
  | 0 => rfl
  | n + 1 => by rw [keyWords, List.length_append, keyWords_length key n]; rfl

/-- The words of `m_key`. -/
def M (key : List Byte) (n : Nat) : List W32 := (keyWords key n).map kw

theorem M_get (key : List Byte) {n i : Nat} (h : i < n) : (M key n).getD i 0 = kw ((keyWords key n).getD i []) := by
  unfold M
  rw [List.getD_eq_getElem?_getD, List.getElem?_map, List.getD_eq_getElem?_getD, List.getElem?_eq_getElem (by rw [keyWords_length]; exact h)]
  rfl

theorem M_succ (key : List Byte) {n : Nat} (h : key.length / 4 ≤ n) : M key (n + 1) = M key n ++ [kw (nextWord (key.length / 4) (keyWords key n) n)] := by
  unfold M
  rw [keyWords, if_neg (by omega), List.map_append, List.map_singleton]

theorem M_plain {key : List Byte} {nk n i j : Nat} (hk : key.length / 4 = nk) (h0 : 0 < nk) (hi : i + nk = n) (hj : j + 1 = n) {v : Nat} (hv : n % nk = v)
    (h1 : v ≠ 0) (h2 : ¬(nk > 6 ∧ v = 4)) : M key n ++ [(M key n).getD i 0 ^^^ (M key n).getD j 0] = M key (n + 1) := by
  rw [M_succ key (by omega), hk]
  unfold nextWord
  simp only []
  rw [hv, if_neg h1, if_neg h2, kw_xor, M_get _ (by omega), M_get _ (by omega), show n - nk = i by omega, show n - 1 = j by omega]

theorem M_sub {key : List Byte} {nk n i j : Nat} (hk : key.length / 4 = nk) (h0 : 6 < nk) (hi : i + nk = n) (hj : j + 1 = n) (h1 : n % nk = 4) :
    M key n ++ [(M key n).getD i 0 ^^^ subOnly ((M key n).getD j 0)] = M key (n + 1) := by
  rw [M_succ key (by omega), hk]
  unfold nextWord
  simp only []
  rw [if_neg (by omega), if_pos ⟨h0, h1⟩, kw_xor, kw_sub, M_get _ (by omega), M_get _ (by omega), show n - nk = i by omega, show n - 1 = j by omega]

theorem M_first {key : List Byte} {nk n i j : Nat} (hk : key.length / 4 = nk) (h0 : 0 < nk) (hi : i + nk = n) (hj : j + 1 = n) (h1 : n % nk = 0) {rc : W32}
    (hrc : rc = kw (rcon (n / nk))) : M key n ++ [(M key n).getD i 0 ^^^ subRot ((M key n).getD j 0) ^^^ rc] = M key (n + 1) := by
  rw [M_succ key (by omega), hk]
  unfold nextWord
  simp only []
  rw [if_pos h1, kw_xor, kw_xor, kw_subRot, M_get _ (by omega), M_get _ (by omega), show n - nk = i by omega, show n - 1 = j by omega, hrc, BitVec.xor_assoc]

theorem mod_of {nk k j : Nat} (hj : j < nk) : (nk * k + nk + j) % nk = j := by
  rw [Nat.add_mod, Nat.add_mod_right, Nat.mul_mod_right, Nat.zero_add, Nat.mod_mod, Nat.mod_eq_of_lt hj]

theorem schedule_step {key : List Byte} {nk size k : Nat} (hk : key.length / 4 = nk) (hnk : nk = 4 ∨ nk = 6 ∨ nk = 8) {rc : W32} {rcs : List W32}
    (hrc : rc = kw (rcon (k + 1))) : schedule nk size (rc :: rcs) (nk * k) (M key (nk * k + nk)) =
      if nk * k + nk + 4 = size then .ok (M key (nk * k + nk + 4)) else schedule nk size rcs (nk * (k + 1)) (M key (nk * (k + 1) + nk)) := by
  have hp : 0 < nk := by omega
  have hq : (nk * k + nk) / nk = k + 1 := by rw [← Nat.mul_succ, Nat.mul_div_cancel_left _ hp]
  have m0 := mod_of (nk := nk) (k := k) (j := 0) (by omega)
  have m1 := mod_of (nk := nk) (k := k) (j := 1) (by omega)
  have m2 := mod_of (nk := nk) (k := k) (j := 2) (by omega)
  have m3 := mod_of (nk := nk) (k := k) (j := 3) (by omega)
  rw [Nat.add_zero] at m0
  rw [schedule]
  simp only []
  rw [M_first hk hp (i := nk * k) rfl (by omega) m0 (by rw [hq]; exact hrc),
    M_plain hk hp (by omega) (by omega) m1 (by decide) (by omega),
    M_plain hk hp (by omega) (by omega) m2 (by decide) (by omega),
    M_plain hk hp (by omega) (by omega) m3 (by decide) (by omega)]
  by_cases he : nk * k + nk + 4 = size
  · rw [if_pos he, if_pos he]
  · rw [if_neg he, if_neg he, show nk * (k + 1) = nk * k + nk from rfl]
    rcases hnk with h | h | h
    · rw [if_neg (by omega), if_neg (by omega), show nk * k + nk + 1 + 1 + 1 + 1 = nk * k + nk + nk by omega]
    · have m4 := mod_of (nk := nk) (k := k) (j := 4) (by omega)
      have m5 := mod_of (nk := nk) (k := k) (j := 5) (by omega)
      rw [if_pos h, M_plain hk hp (by omega) (by omega) m4 (by decide) (by omega),
        M_plain hk hp (by omega) (by omega) m5 (by decide) (by omega), show nk * k + nk + 1 + 1 + 1 + 1 + 1 + 1 = nk * k + nk + nk by omega]
    · have m4 := mod_of (nk := nk) (k := k) (j := 4) (by omega)
      have m5 := mod_of (nk := nk) (k := k) (j := 5) (by omega)
      have m6 := mod_of (nk := nk) (k := k) (j := 6) (by omega)
      have m7 := mod_of (nk := nk) (k := k) (j := 7) (by omega)
      rw [if_neg (by omega), if_pos h, M_sub hk (by omega) (by omega) (by omega) m4,
        M_plain hk hp (by omega) (by omega) m5 (by decide) (by omega), M_plain hk hp (by omega) (by omega) m6 (by decide) (by omega),
        M_plain hk hp (by omega) (by omega) m7 (by decide) (by omega), show nk * k + nk + 1 + 1 + 1 + 1 + 1 + 1 + 1 + 1 = nk * k + nk + nk by omega]

theorem schedule_spec {key : List Byte} {nk size K : Nat} (hk : key.length / 4 = nk) (hnk : nk = 4 ∨ nk = 6 ∨ nk = 8) (hs : size = nk * K + nk + 4)
    (hK : K < 10) : ∀ d k, k + d = K → schedule nk size (rconTab.drop k) (nk * k) (M key (nk * k + nk)) = .ok (M key size) := by
  intro d
  induction d with
  | zero =>
    intro k he
    have hk10 : k < rconTab.length := by show k < 10; omega
    rw [List.drop_eq_getElem_cons hk10, schedule_step hk hnk, if_pos (by rw [hs, ← he]; rfl), hs, ← he]; rfl
    rw [kw_rcon k (by omega), List.getD_eq_getElem?_getD, List.getElem?_eq_getElem hk10]; rfl
  | succ d ih =>
    intro k he
    have hk10 : k < rconTab.length := by show k < 10; omega
    have hlt : nk * k + nk ≤ nk * K := by rw [← Nat.mul_succ]; exact Nat.mul_le_mul_left _ (by omega)
    rw [List.drop_eq_getElem_cons hk10, schedule_step hk hnk, if_neg (by omega)]
    · exact ih (k + 1) (by omega)
    · rw [kw_rcon k (by omega), List.getD_eq_getElem?_getD, List.getElem?_eq_getElem hk10]; rfl

theorem keyWords_user (key : List Byte) : ∀ n, n ≤ key.length / 4 →
    M key n = (List.range n).map fun i => native true (key.getD (4 * i) 0) (key.getD (4 * i + 1) 0) (key.getD (4 * i + 2) 0) (key.getD (4 * i + 3) 0) := by
  intro n
  induction n with
  | zero => intro _; rfl
  | succ n ih =>
    intro h
    have ih := ih (by omega)
    unfold M at ih ⊢
    rw [keyWords]
    rw [if_pos (by omega), List.map_append, ih, List.range_succ, List.map_append, List.map_singleton, List.map_singleton]
    rfl

theorem schedule_all {key : List Byte} (h : key.length = 16 ∨ key.length = 24 ∨ key.length = 32) :
    schedule (key.length / 4) (4 * (key.length / 4 + 6 + 1)) rconTab 0 (userKey key) = .ok (M key (4 * (rounds key + 1))) := by
  have hu : userKey key = M key (key.length / 4) := (keyWords_user key _ (Nat.le_refl _)).symm
  rw [hu, rounds]
  rcases h with h | h | h
  · have := schedule_spec (key := key) (nk := key.length / 4) (size := 4 * (key.length / 4 + 6 + 1)) (K := 9) rfl (by omega) (by omega) (by omega) 9 0 rfl
    rwa [Nat.mul_zero, Nat.zero_add] at this
  · have := schedule_spec (key := key) (nk := key.length / 4) (size := 4 * (key.length / 4 + 6 + 1)) (K := 7) rfl (by omega) (by omega) (by omega) 7 0 rfl
    rwa [Nat.mul_zero, Nat.zero_add] at this
  · have := schedule_spec (key := key) (nk := key.length / 4) (size := 4 * (key.length / 4 + 6 + 1)) (K := 6) rfl (by omega) (by omega) (by omega) 6 0 rfl
    rwa [Nat.mul_zero, Nat.zero_add] at this

theorem M_roundKey {key : List Byte} {i j : Nat} (hi : i ≤ rounds key) (hj : j < 4) :
    (M key (4 * (rounds key + 1))).getD (4 * i + j) 0 = kw (roundKey key i j) := by
  rw [M_get _ (by omega)]; rfl

/-! ## The key of the inverse cipher -/

theorem swapFour_eq (f : W32 → W32) (rk : Nat → W32) {i j : Nat} (h : i + 4 ≤ j) (k : Nat) : swapFour f rk i j k =
    if i ≤ k ∧ k < i + 4 then f (rk (k - i + j)) else if j ≤ k ∧ k < j + 4 then f (rk (k - j + i)) else rk k := by
  unfold swapFour swapWith
  by_cases h1 : i ≤ k ∧ k < i + 4
  · rw [if_pos h1]
    have : k = i ∨ k = i + 1 ∨ k = i + 2 ∨ k = i + 3 := by omega
    rcases this with e | e | e | e <;> subst e <;>
      (repeat (first | rw [if_pos rfl] | rw [if_neg (by omega)])) <;> congr 2 <;> omega
  rw [if_neg h1]
  by_cases h2 : j ≤ k ∧ k < j + 4
  · rw [if_pos h2]
    have : k = j ∨ k = j + 1 ∨ k = j + 2 ∨ k = j + 3 := by omega
    rcases this with e | e | e | e <;> subst e <;>
      (repeat (first | rw [if_pos rfl] | rw [if_neg (by omega)])) <;> congr 2 <;> omega
  · rw [if_neg h2]
    repeat rw [if_neg (by omega)]

/-- The key after the swaps of the rounds before `a`. -/
def revd (f : W32 → W32) (N a : Nat) (rk : Nat → W32) (k : Nat) : W32 :=
  if (1 ≤ k / 4 ∧ k / 4 < a) ∨ (N - a < k / 4 ∧ k / 4 < N) then f (rk (4 * (N - k / 4) + k % 4)) else rk k

theorem revLoop_eq (f : W32 → W32) (N m : Nat) (hN : N = 2 * m) (rk : Nat → W32) : ∀ d fuel a, a + d = m → 1 ≤ a → d ≤ fuel →
    revLoop f (fuel + 1) (revd f N a rk) (4 * a) (4 * (N - a)) = (revd f N m rk, 4 * m) := by
  intro d
  induction d with
  | zero =>
    intro fuel a h1 h2 _
    rw [revLoop, if_neg (by omega), show a = m by omega]
  | succ d ih =>
    intro fuel a h1 h2 h3
    obtain ⟨fuel, rfl⟩ : ∃ g, fuel = g + 1 := ⟨fuel - 1, by omega⟩
    rw [revLoop, if_pos (by omega)]
    have e : swapFour f (revd f N a rk) (4 * a) (4 * (N - a)) = revd f N (a + 1) rk := by
      funext k
      rw [swapFour_eq f _ (by omega)]
      by_cases c1 : 4 * a ≤ k ∧ k < 4 * a + 4
      · rw [if_pos c1, revd, if_neg (by omega), revd, if_pos (by omega)]
        congr 2; omega
      rw [if_neg c1]
      by_cases c2 : 4 * (N - a) ≤ k ∧ k < 4 * (N - a) + 4
      · rw [if_pos c2, revd, if_neg (by omega), revd, if_pos (by omega)]
        congr 2; omega
      rw [if_neg c2, revd, revd]
      by_cases c3 : (1 ≤ k / 4 ∧ k / 4 < a) ∨ (N - a < k / 4 ∧ k / 4 < N)
      · rw [if_pos c3, if_pos (by omega)]
      · rw [if_neg c3, if_neg (by omega)]
    rw [e, show 4 * a + 4 = 4 * (a + 1) by omega, show 4 * (N - a) - 4 = 4 * (N - (a + 1)) by omega]
    exact ih fuel (a + 1) (by omega) (by omega) (by omega)

theorem revKey_eq (c : Cfg) {N m : Nat} (hN : N = 2 * m) (hm : 1 ≤ m) (rk : Nat → W32) (i j : Nat) (hi : i ≤ N) (hj : j < 4) :
    revKey c N rk (4 * i + j) = if i = 0 then condReverse c.big (rk (4 * N + j)) else if i = N then condReverse c.big (rk j)
      else inverseMixColumn c (rk (4 * (N - i) + j)) := by
  have h0 : revd (inverseMixColumn c) N 1 rk = rk := by
    funext k; rw [revd, if_neg (by omega)]
  have hl := revLoop_eq (inverseMixColumn c) N m hN rk (m - 1) (N - 1) 1 (by omega) (by omega) (by omega)
  rw [h0, show N - 1 + 1 = N by omega, show 4 * 1 = 4 from rfl, show 4 * (N - 1) = 4 * N - 4 by omega] at hl
  unfold revKey
  rw [hl]
  simp only []
  rw [swapFour_eq _ _ (by omega)]
  by_cases c1 : i = 0
  · rw [if_pos c1, if_pos (by omega), if_neg (by omega), revd, if_neg (by omega)]
    congr 2; omega
  rw [if_neg c1, if_neg (by omega)]
  by_cases c2 : i = N
  · rw [if_pos c2, if_pos (by omega), if_neg (by omega), revd, if_neg (by omega)]
    congr 2; omega
  rw [if_neg c2, if_neg (by omega)]
  by_cases c3 : i = m
  · rw [if_pos (by omega), revd, if_neg (by omega)]
    congr 2; omega
  · rw [if_neg (by omega), revd, if_pos (by omega)]
    congr 2; omega

end Verif.Aes
