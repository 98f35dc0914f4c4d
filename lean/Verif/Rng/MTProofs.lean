import Verif.Rng.Proofs

namespace Verif.Rng

theorem rd_append (l : List W32) (x : W32) (i : Nat) : rd (l ++ [x]) i = if i = l.length then x else rd l i := by
  simp only [rd, List.getD_eq_getElem?_getD]
  split
  · rename_i h; subst h; simp
  · rename_i h
    by_cases h2 : i < l.length
    · rw [List.getElem?_append_left h2]
    · rw [List.getElem?_eq_none (by simp; omega), List.getElem?_eq_none (by omega)]

theorem rd_set (l : List W32) (k : Nat) (x : W32) (i : Nat) (hk : k < l.length) : rd (l.set k x) i = if i = k then x else rd l i := by
  simp only [rd, List.getD_eq_getElem?_getD, List.getElem?_set]
  by_cases h : i = k
  · subst h; simp [hk]
  · rw [if_neg (fun h' => h h'.symm), if_neg h]

theorem seedLoop_spec (P : MTParams) (x : Nat → W32) (hx : ∀ i, i + 1 < P.N → x (i + 1) = P.F * (x i ^^^ (x i >>> 30)) + BitVec.ofNat 32 (i + 1)) :
    ∀ (n i : Nat) (l : List W32), 0 < i → l.length = i → (∀ j, j < i → j < P.N → rd l j = x j) →
      (seedLoop P n i l).length = i + n ∧ ∀ j, j < i + n → j < P.N → rd (seedLoop P n i l) j = x j := by
  intro n
  induction n with
  | zero => intro i l _ hl h; exact ⟨hl, h⟩
  | succ n ih =>
    intro i l hi hl h
    obtain ⟨k, rfl⟩ := Nat.exists_eq_succ_of_ne_zero (n := i) (by omega)
    simp only [seedLoop, Nat.succ_eq_add_one, Nat.add_sub_cancel]
    have := ih (k + 1 + 1) (l ++ [P.F * (rd l k ^^^ (rd l k >>> 30)) + BitVec.ofNat 32 (k + 1)]) (by omega) (by simp [hl]) (by
      intro j hj hjN
      rw [rd_append]
      split
      · rename_i e
        rw [hl] at e
        subst e
        rw [h k (by omega) (by omega), ← hx k hjN]
      · rename_i e; exact h j (by omega) hjN)
    rw [show k + 1 + (n + 1) = k + 1 + 1 + n by omega]
    exact this

/-- Rounds of the twist loops. -/
theorem twistLoop_spec (P : MTParams) (y : Nat → W32) (off : Nat → Nat)
    (hy : ∀ i, y (i + P.N) = twistWord P (y i) (y (i + 1)) (y (i + P.M))) :
    ∀ (n kk : Nat) (l : List W32), kk + n < P.N → P.N ≤ l.length →
      (∀ k, kk ≤ k → k < kk + n → ∀ m : List W32, (∀ i < P.N, rd m i = if i < k then y (i + P.N) else y i) → rd m (off k) = y (k + P.M)) →
      (∀ i < P.N, rd l i = if i < kk then y (i + P.N) else y i) →
      (twistLoop P off n kk l).length = l.length ∧ ∀ i < P.N, rd (twistLoop P off n kk l) i = if i < kk + n then y (i + P.N) else y i := by
  intro n
  induction n with
  | zero => intro kk l _ _ _ h; exact ⟨rfl, h⟩
  | succ n ih =>
    intro kk l hk hl hoff h
    simp only [twistLoop]
    have h1 := ih (kk + 1) (l.set kk (twistWord P (rd l kk) (rd l (kk + 1)) (rd l (off kk)))) (by omega) (by simpa using hl)
      (fun k a b m hm => hoff k (by omega) (by omega) m hm) (by
        intro i hi
        rw [rd_set _ _ _ _ (by omega)]
        by_cases e : i = kk
        · subst e
          rw [if_pos rfl, if_pos (by omega), hoff i (Nat.le_refl _) (by omega) l h, h i hi, if_neg (by omega), h (i + 1) (by omega), if_neg (by omega), ← hy]
        · rw [if_neg e, h i hi]
          by_cases e2 : i < kk
          · rw [if_pos e2, if_pos (by omega)]
          · rw [if_neg e2, if_neg (by omega)])
    rw [List.length_set] at h1
    rw [show kk + (n + 1) = kk + 1 + n by omega]
    exact h1

theorem twist_spec (P : MTParams) (hM : 0 < P.M) (hMN : P.M < P.N) (y : Nat → W32)
    (hy : ∀ i, y (i + P.N) = twistWord P (y i) (y (i + 1)) (y (i + P.M))) (m : MT) (hl : P.N ≤ m.st.length) (h : ∀ i < P.N, rd m.st i = y i) :
    (m.twist P).idx = 0 ∧ P.N ≤ (m.twist P).st.length ∧ ∀ i < P.N, rd (m.twist P).st i = y (i + P.N) := by
  have h1 := twistLoop_spec P y (fun kk => kk + P.M) hy (P.N - P.M) 0 m.st (by omega) hl (by
    intro k _ hk m hm
    rw [hm (k + P.M) (by omega), if_neg (by omega)]) (by intro i hi; rw [h i hi]; simp)
  simp only [MT.twist]
  generalize twistLoop P (fun kk => kk + P.M) (P.N - P.M) 0 m.st = l1 at *
  have h2 := twistLoop_spec P y (fun kk => kk + P.M - P.N) hy (P.M - 1) (P.N - P.M) l1 (by omega) (by omega) (by
    intro k hk1 hk2 m hm
    rw [hm (k + P.M - P.N) (by omega), if_pos (by omega)]
    congr 1; omega) (by intro i hi; rw [h1.2 i hi]; congr 2; omega)
  generalize twistLoop P (fun kk => kk + P.M - P.N) (P.M - 1) (P.N - P.M) l1 = l2 at *
  refine ⟨trivial, by rw [List.length_set]; omega, ?_⟩
  intro i hi
  rw [rd_set _ _ _ _ (by omega)]
  by_cases e : i = P.N - 1
  · rw [if_pos e, h2.2 _ (by omega), if_neg (by omega), h2.2 0 (by omega), h2.2 (P.M - 1) (by omega), if_pos (by omega), e, hy (P.N - 1)]
    rw [if_pos (by omega), show 0 + P.N = P.N - 1 + 1 by omega, show P.M - 1 + P.N = P.N - 1 + P.M by omega]
  · rw [if_neg e, h2.2 i hi, if_pos (by omega)]

/-- After `j` words. -/
structure MTInv (P : MTParams) (x : Nat → W32) (j : Nat) (m : MT) : Prop where
  len : P.N ≤ m.st.length
  idx : m.idx ≤ P.N
  pos : m.idx ≤ P.N + j
  st : ∀ i < P.N, rd m.st i = x (P.N + j - m.idx + i)

theorem next_spec (P : MTParams) (hM : 0 < P.M) (hMN : P.M < P.N) (x : Nat → W32)
    (hx : ∀ i, x (i + P.N) = twistWord P (x i) (x (i + 1)) (x (i + P.M))) (j : Nat) (m : MT) (h : MTInv P x j m) :
    (m.next P).1 = temper (x (P.N + j)) ∧ MTInv P x (j + 1) (m.next P).2 := by
  obtain ⟨hl, hi, hp, hs⟩ := h
  simp only [MT.next]
  by_cases e : P.N ≤ m.idx
  · have e' : m.idx = P.N := by omega
    rw [if_pos e]
    have ht := twist_spec P hM hMN (fun i => x (j + i)) (by intro i; simp only [← Nat.add_assoc]; exact hx (j + i)) m hl (by
      intro i hi; rw [hs i hi, e']; congr 1; omega)
    rw [ht.1]
    refine ⟨?_, ⟨ht.2.1, ?_, ?_, ?_⟩⟩
    · rw [ht.2.2 0 (by omega)]; congr 2; omega
    · simp only; omega
    · simp only; omega
    · intro i hi
      simp only
      rw [ht.2.2 i hi]; congr 1; omega
  · rw [if_neg e]
    refine ⟨?_, ⟨hl, ?_, ?_, ?_⟩⟩
    · rw [hs _ (by omega)]; congr 2; omega
    · simp only; omega
    · simp only; omega
    · intro i hi; simp only; rw [hs i hi]; congr 1; omega

theorem words_spec (P : MTParams) (hM : 0 < P.M) (hMN : P.M < P.N) (x : Nat → W32)
    (hx : ∀ i, x (i + P.N) = twistWord P (x i) (x (i + 1)) (x (i + P.M))) (n : Nat) : ∀ (j : Nat) (m : MT), MTInv P x j m →
    (m.words P n).1 = (List.range n).map (fun i => temper (x (P.N + j + i))) ∧ MTInv P x (j + n) (m.words P n).2 := by
  induction n with
  | zero => intro j m h; exact ⟨rfl, h⟩
  | succ n ih =>
    intro j m h
    have h1 := next_spec P hM hMN x hx j m h
    have h2 := ih (j + 1) _ h1.2
    simp only [MT.words]
    refine ⟨?_, ?_⟩
    · rw [h1.1, h2.1, List.range_succ_eq_map, List.map_cons, List.map_map]
      congr 1
      apply List.map_congr_left
      intro i _
      simp only [Function.comp]
      congr 2; omega
    · rw [show j + (n + 1) = j + 1 + n by omega]; exact h2.2

theorem isMT_twist {P : MTParams} {seed : W32} {x : Nat → W32} (h : IsMT P seed x) (i : Nat) :
    x (i + P.N) = twistWord P (x i) (x (i + 1)) (x (i + P.M)) := h.2.2 i

theorem reset_inv (P : MTParams) (seed : W32) (x : Nat → W32) (h : IsMT P seed x) : MTInv P x 0 (MT.reset P seed) := by
  have := seedLoop_spec P x h.2.1 P.N 1 [seed] (by omega) rfl (by
    intro j hj _
    have : j = 0 := by omega
    subst this; exact h.1.symm)
  refine ⟨?_, Nat.le_refl _, Nat.le_refl _, ?_⟩
  · simp only [MT.reset]; omega
  · intro i hi
    simp only [MT.reset]
    rw [this.2 i (by omega) hi]; congr 1; omega

/-! ## A sequence exists -/

def mtPrefix (P : MTParams) (seed : W32) : Nat → List W32
  | 0 => []
  | k + 1 =>
    let l := mtPrefix P seed k
    l ++ [if k = 0 then seed else if k < P.N then P.F * (rd l (k - 1) ^^^ (rd l (k - 1) >>> 30)) + BitVec.ofNat 32 k
      else twistWord P (rd l (k - P.N)) (rd l (k - P.N + 1)) (rd l (k - P.N + P.M))]

theorem mtPrefix_length (P : MTParams) (seed : W32) (k : Nat) : (mtPrefix P seed k).length = k := by
  induction k with
  | zero => rfl
  | succ k ih => simp [mtPrefix, ih]

def mtSeq (P : MTParams) (seed : W32) (i : Nat) : W32 := rd (mtPrefix P seed (i + 1)) i

theorem mtPrefix_rd (P : MTParams) (seed : W32) (k i : Nat) (h : i < k) : rd (mtPrefix P seed k) i = mtSeq P seed i := by
  induction k with
  | zero => omega
  | succ k ih =>
    by_cases e : i = k
    · subst e; rfl
    · simp only [mtPrefix]
      rw [rd_append, mtPrefix_length, if_neg e]
      exact ih (by omega)

theorem mtSeq_isMT (P : MTParams) (hM : 0 < P.M) (hMN : P.M < P.N) (seed : W32) : IsMT P seed (mtSeq P seed) := by
  have key : ∀ k, mtSeq P seed k = (if k = 0 then seed else if k < P.N then P.F * (rd (mtPrefix P seed k) (k - 1) ^^^ (rd (mtPrefix P seed k) (k - 1) >>> 30)) + BitVec.ofNat 32 k
      else twistWord P (rd (mtPrefix P seed k) (k - P.N)) (rd (mtPrefix P seed k) (k - P.N + 1)) (rd (mtPrefix P seed k) (k - P.N + P.M))) := by
    intro k
    simp only [mtSeq, mtPrefix]
    rw [rd_append, mtPrefix_length, if_pos rfl]
  refine ⟨by rw [key]; rfl, ?_, ?_⟩
  · intro i hi
    rw [key (i + 1), if_neg (by omega), if_pos hi, Nat.add_sub_cancel, mtPrefix_rd _ _ _ _ (by omega)]
  · intro i
    rw [key (i + P.N), if_neg (by omega), if_neg (by omega), Nat.add_sub_cancel, mtPrefix_rd _ _ _ _ (by omega), mtPrefix_rd _ _ _ _ (by omega),
      mtPrefix_rd _ _ _ _ (by omega)]
    rfl

/-! ## X9.17 -/

theorem x917_round (E : List Byte → List Byte) (n dt : Nat) (v : List Byte) (k : Nat) (last : List Byte) :
    X917.round E n ⟨beBytes n (dt + k), x917V E n dt v k, last⟩ =
      if last = x917R E n dt v k then .error .other
      else .ok (x917R E n dt v k, ⟨beBytes n (dt + (k + 1)), x917V E n dt v (k + 1), x917R E n dt v k⟩) := by
  have hinc : Verif.Modes.incrementCounterByOne n (beBytes n (dt + k)) = beBytes n (dt + (k + 1)) := by
    have := Verif.Modes.incrementCounterByOne_spec n (beBytes n (dt + k)) [] (beBytes_length _ _)
    rw [List.append_nil, List.append_nil, beVal_beBytes] at this
    rw [this, ← beBytes_mod n (_ + 1), Nat.mod_add_mod, beBytes_mod]
    rfl
  simp only [X917.round, hinc]
  rfl

theorem x917_generate (E : List Byte → List Byte) (n : Nat) (hn : 0 < n) (hE : ∀ b, (E b).length = n) (dt : Nat) (v : List Byte) : ∀ (f k : Nat) (last : List Byte) (size : Nat),
    size ≤ f → (∀ i, i * n < size → (if i = 0 then last else x917R E n dt v (k + i - 1)) ≠ x917R E n dt v (k + i)) →
    ∃ last', X917.generate E n f ⟨beBytes n (dt + k), x917V E n dt v k, last⟩ size =
      .ok (((List.range ((size + n - 1) / n)).flatMap fun i => x917R E n dt v (k + i)).take size,
        ⟨beBytes n (dt + (k + (size + n - 1) / n)), x917V E n dt v (k + (size + n - 1) / n), last'⟩) := by
  intro f
  induction f with
  | zero =>
    intro k last size hs _
    have : size = 0 := by omega
    subst this
    have : (0 + n - 1) / n = 0 := Nat.div_eq_of_lt (by omega)
    exact ⟨last, by rw [this]; simp [X917.generate]⟩
  | succ f ih =>
    intro k last size hs hne
    by_cases h0 : size = 0
    · subst h0
      have : (0 + n - 1) / n = 0 := Nat.div_eq_of_lt (by omega)
      exact ⟨last, by rw [this]; simp [X917.generate]⟩
    · have h1 := hne 0 (by omega)
      simp only [if_true, Nat.add_zero] at h1
      simp only [X917.generate, if_neg h0, x917_round, if_neg h1]
      have hR : (x917R E n dt v k).length = n := hE _
      obtain ⟨last', e⟩ := ih (k + 1) (x917R E n dt v k) (size - min n size) (by omega) (by
        intro i hi
        have := hne (i + 1) (by rw [Nat.add_mul]; omega)
        rw [if_neg (by omega)] at this
        by_cases hi0 : i = 0
        · subst hi0; exact this
        · rw [if_neg hi0]
          rw [show k + 1 + i - 1 = k + (i + 1) - 1 by omega, show k + 1 + i = k + (i + 1) by omega]
          exact this)
      rw [e]
      have hd : (size + n - 1) / n = (size - min n size + n - 1) / n + 1 := by
        by_cases hsn : n ≤ size
        · rw [Nat.min_eq_left hsn, show size + n - 1 = (size - n + n - 1) + n by omega, Nat.add_div_right _ hn]
        · rw [Nat.min_eq_right (by omega), Nat.sub_self, Nat.div_eq_of_lt (a := 0 + n - 1) (by omega), show size + n - 1 = (size - 1) + n by omega,
            Nat.add_div_right _ hn, Nat.div_eq_of_lt (by omega)]
      refine ⟨last', ?_⟩
      simp only
      congr 2
      · rw [hd, List.range_succ_eq_map, List.flatMap_cons, List.flatMap_map, List.take_append, show k + 0 = k from rfl, hR]
        congr 1
        · by_cases hsn : n ≤ size
          · rw [Nat.min_eq_left hsn, List.take_of_length_le (by omega), List.take_of_length_le (by omega)]
          · rw [Nat.min_eq_right (by omega)]
        · rw [show size - min n size = size - n by omega]
          congr 1
          simp only [show ∀ i, k + 1 + i = k + (i + 1) by omega]
      · rw [hd]
        congr 2 <;> omega

end Verif.Rng
