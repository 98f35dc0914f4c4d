import Verif.Flate.HuffmanProofs

/-!
# Every decoder that `Initialize` accepts decodes every code
-/
namespace Verif.Flate

/-- Whatever bits it is given, the decoder finds a symbol below `n` with a code of 1 to 15 bits. -/
structure DOk (d : Decoder) (n : Nat) : Prop where
  max : 1 ≤ d.maxBits ∧ d.maxBits ≤ 15
  total : ∀ code, ∃ v l, decodeCode d code = some (v, l) ∧ 1 ≤ l ∧ l ≤ 15 ∧ v < n

theorem firstCode_le (lens : List Nat) (i : Nat) : firstCode lens (i + 1) + 2 * lens.length ≤ lens.length * 2 ^ (i + 1) := by
  induction i with
  | zero => simp only [firstCode]; omega
  | succ i ih =>
    have h2 := List.count_le_length (a := i + 1) (l := lens)
    rw [firstCode, Nat.pow_succ, ← Nat.mul_assoc]
    omega

/-- Code lengths of at most 15 make no number overflow, whether or not they form a code. -/
theorem startChecked_small {lens : List Nat} (hn : lens.length ≤ 2 ^ 16) (i : Nat) (hi : i ≤ 15) :
    ∃ next, startChecked (blCount lens) i = .ok (firstCode lens i, next) := by
  match i, hi with
  | 0, _ => exact ⟨_, rfl⟩
  | 1, _ => exact ⟨_, rfl⟩
  | i + 2, hi =>
    obtain ⟨next, h1⟩ := startChecked_small hn (i + 1) (by omega)
    have h2 := firstCode_le lens (i + 1)
    have h3 : lens.length * 2 ^ (i + 2) ≤ 2 ^ 16 * 2 ^ 15 := Nat.mul_le_mul hn (Nat.pow_le_pow_right (by decide) hi)
    rw [startChecked, h1]
    simp only [blCount_eq]
    have hm2 : 2 * (firstCode lens (i + 1) + lens.count (i + 1)) = firstCode lens (i + 2) := rfl
    have h4 : 2 * (firstCode lens (i + 1) + lens.count (i + 1)) < 2 ^ 32 := by
      rw [hm2]
      have : (2 : Nat) ^ 16 * 2 ^ 15 < 2 ^ 32 := by decide
      have : firstCode lens (i + 2) ≤ lens.length * 2 ^ (i + 2) := by
        have := h2
        rw [show i + 1 + 1 = i + 2 from rfl] at this
        omega
      omega
    have hm1 : (firstCode lens (i + 1) + lens.count (i + 1)) % 2 ^ 32 = firstCode lens (i + 1) + lens.count (i + 1) :=
      Nat.mod_eq_of_lt (by omega)
    rw [hm1, Nat.mul_comm _ 2, Nat.mod_eq_of_lt h4, if_neg (by omega), if_neg (by omega), hm2]
    exact ⟨_, rfl⟩

/-- In a complete code every string of bits begins with the code of a symbol. -/
theorem complete_found {lens : List Nat} (hm : maxLen lens ≤ 32) (hpos : 1 ≤ maxLen lens) (hKe : kraft 32 lens = 2 ^ 32) (code : Nat) :
    ∃ s, lens.getD s 0 ≠ 0 ∧ bits (lens.getD s 0) code = codeBits lens s := by
  have hK : kraft 32 lens ≤ 2 ^ 32 := Nat.le_of_eq hKe
  obtain ⟨next, hn1, hn2⟩ := startChecked_eq hK hm (maxLen lens) (Nat.le_refl _)
  have hc := all_chain hK hm next hn2 (maxLen lens) 1 (Nat.le_refl _) (by omega)
  rw [if_neg (by omega), hKe] at hc
  have hcont : Contig ((List.range' 1 (maxLen lens)).flatMap fun l => blk l (next l) 0 lens) := by
    obtain ⟨g1, g2, g3, g4, -⟩ := hc.get
    exact ⟨fun e he => by rw [g1 e he, firstCode, Nat.zero_mul], g2, g3, fun e he => (g4 e he).2⟩
  have hperm := assignInfos_perm (maxLen lens) lens next 0 (fun l hl => le_maxLen hl)
  have hne : ((List.range' 1 (maxLen lens)).flatMap fun l => blk l (next l) 0 lens) ≠ [] := by
    intro e
    rw [e] at hc
    change firstCode lens 1 * _ = _ at hc
    rw [firstCode, Nat.zero_mul] at hc
    exact absurd hc (by decide)
  obtain ⟨k, e, he, he1, he2⟩ := exists_split hcont hne (bitReverse code)
  have hin : bitReverse code < e.code + 2 ^ (32 - e.len) := by
    by_cases hlast : k + 1 < ((List.range' 1 (maxLen lens)).flatMap fun l => blk l (next l) 0 lens).length
    · have e1 := List.getElem?_eq_getElem hlast
      rw [← (hcont.succ k e _ he e1).1]
      exact he2 _ e1
    · have hend : ∀ (T : List Info) (c l c' k : Nat) (e : Info), Chain c l T c' → T[k]? = some e → T.length ≤ k + 1 → e.code + 2 ^ (32 - e.len) = c' := by
        intro T
        induction T with
        | nil => intro c l c' k e _ h; cases h
        | cons a T ih =>
          intro c l c' k e h1 h2 h3
          cases k with
          | zero =>
            cases h2
            have : T = [] := List.eq_nil_of_length_eq_zero (by simpa using h3)
            subst this
            rw [h1.1]; exact h1.2.2.2
          | succ k => exact ih _ _ _ k e h1.2.2.2 h2 (by simpa using h3)
      rw [hend _ _ _ _ k e hc he (by omega)]
      exact bitReverse_lt _
  obtain ⟨s', l', g1, g2, g3⟩ := assignInfos_of_mem lens next 0 e (hperm.symm.subset (List.mem_of_getElem? he))
  have hl' := getD_of_some g1
  have hs' : lens.getD s' 0 ≠ 0 := by rw [hl']; exact g2
  have hle' := le_maxLen (getD_mem hs')
  rw [← hl'] at g3
  rw [hn2 _ (by omega) hle'] at g3
  have h2 : normalize (firstCode lens (lens.getD s' 0) + (lens.take s').count (lens.getD s' 0)) (lens.getD s' 0) =
      codeNum lens s' * 2 ^ (32 - lens.getD s' 0) := normalize_eq (codeNum_lt hK hm hs') (by omega)
  rw [h2] at g3
  subst g3
  exact ⟨s', hs', bits_of_range (by omega) he1 hin⟩

/-- What the checks of `Initialize` leave: complete codes, and codes all of whose symbols have one bit. -/
theorem accepted {lens : List Nat} {d : Decoder} (hn : lens.length ≤ 2 ^ 16) (h15 : ∀ l ∈ lens, l ≤ 15) (h : decoderInit lens = .ok d) :
    1 ≤ maxLen lens ∧ maxLen lens ≤ 15 ∧ (maxLen lens ≠ 1 → kraft 32 lens = 2 ^ 32) ∧
      ∃ next, startChecked (blCount lens) (maxLen lens) = .ok (firstCode lens (maxLen lens), next) ∧
        d = ⟨maxLen lens, min 9 (maxLen lens), sortInfos (assignInfos next 0 lens)⟩ := by
  have hm := maxLen_le h15
  obtain ⟨next, hs⟩ := startChecked_small hn (maxLen lens) hm
  unfold decoderInit at h
  by_cases c1 : lens.length = 0
  · rw [if_pos c1] at h; cases h
  rw [if_neg c1, if_neg (by omega)] at h
  by_cases c2 : maxLen lens = 0
  · rw [if_pos c2] at h; cases h
  rw [if_neg c2, hs] at h
  simp only [] at h
  split at h
  · cases h
  rename_i c3
  split at h
  · cases h
  rename_i c4
  refine ⟨by omega, hm, fun hne => ?_, next, hs, by cases h; rfl⟩
  replace c4 : ¬ firstCode lens (maxLen lens) < (2 ^ maxLen lens + 2 ^ 64 - blCount lens (maxLen lens)) % 2 ^ 64 := fun hc => c4 ⟨hne, hc⟩
  rw [blCount_eq] at c3 c4
  have h1 : 2 ^ maxLen lens ≤ 2 ^ 15 := Nat.pow_le_pow_right (by decide) hm
  have h2 := List.count_le_length (a := maxLen lens) (l := lens)
  have h3 : firstCode lens (maxLen lens) ≤ 2 ^ 16 * 2 ^ 15 := by
    obtain ⟨k, hk⟩ : ∃ k, maxLen lens = k + 1 := ⟨maxLen lens - 1, by omega⟩
    have a := firstCode_le lens k
    have b : lens.length * 2 ^ (k + 1) ≤ 2 ^ 16 * 2 ^ 15 := Nat.mul_le_mul hn (Nat.pow_le_pow_right (by decide) (by omega))
    rw [hk]; omega
  have heq : firstCode lens (maxLen lens) + lens.count (maxLen lens) = 2 ^ maxLen lens := by
    clear h hs
    generalize firstCode lens (maxLen lens) = F at *
    generalize lens.count (maxLen lens) = C at *
    generalize 2 ^ maxLen lens = P at *
    omega
  obtain ⟨k, hk⟩ : ∃ k, maxLen lens = k + 1 := ⟨maxLen lens - 1, by omega⟩
  have := first_tail lens k (by omega)
  rw [← hk, tailSum_succ, tailSum_top fun x hx => by have := le_maxLen hx; omega, Nat.add_zero (List.count _ _ * _), ← Nat.add_mul, heq, ← Nat.pow_add] at this
  rw [← this]
  congr 1
  omega

theorem takeWhile_pos {α : Type} (p : α → Bool) (a : α) (l : List α) (h : p a = true) : 0 < ((a :: l).takeWhile p).length := by
  rw [List.takeWhile_cons_of_pos h]; exact Nat.succ_pos _

/-- The decoders that `Initialize` sets up. -/
theorem decoder_total {lens : List Nat} {d : Decoder} (hn : lens.length ≤ 2 ^ 16) (h15 : ∀ l ∈ lens, l ≤ 15) (h : decoderInit lens = .ok d) :
    DOk d lens.length := by
  obtain ⟨h1, h2, h3, next, h4, h5⟩ := accepted hn h15 h
  subst h5
  refine ⟨⟨h1, h2⟩, fun code => ?_⟩
  by_cases hne : maxLen lens = 1
  · -- all codes have one bit
    have hmem : ∀ e ∈ sortInfos (assignInfos next 0 lens), e.len = 1 ∧ e.value < lens.length := by
      intro e he
      obtain ⟨s, l, g1, g2, g3⟩ := assignInfos_of_mem lens next 0 e ((sortInfos_perm _).subset he)
      have hl : l = 1 := by have := le_maxLen (List.mem_of_getElem? g1); omega
      have hsl := (List.getElem?_eq_some_iff.1 g1).1
      subst g3
      exact ⟨hl, by simpa using hsl⟩
    have hx : ∃ e ∈ sortInfos (assignInfos next 0 lens), e.code = 0 := by
      have hm := maxLen_mem (lens := lens) (by omega)
      rw [hne] at hm h4
      simp only [startChecked, Except.ok.injEq, Prod.mk.injEq] at h4
      have hn0 : next = fun _ => 0 := h4.2.symm
      clear h4 h3 h15 h hmem
      have key : ∀ (lens : List Nat) (i : Nat), 1 ∈ lens → (∀ l ∈ lens, l ≤ 1) → ∃ e ∈ assignInfos (fun _ => 0) i lens, e.code = 0 := by
        intro lens
        induction lens with
        | nil => intro i hm; cases hm
        | cons x lens ih =>
          intro i hm hle
          rw [assignInfos]
          by_cases hx : x ≠ 0
          · rw [if_pos hx]
            refine ⟨_, List.mem_cons_self, ?_⟩
            simp [normalize]
          · rw [if_neg hx]
            refine ih (i + 1) ?_ (fun l hl => hle l (List.mem_cons_of_mem _ hl))
            rcases List.mem_cons.1 hm with hm | hm
            · omega
            · exact hm
      obtain ⟨e, he, hc⟩ := key lens 0 hm (fun l hl => by have := le_maxLen hl; omega)
      rw [hn0]
      exact ⟨e, (sortInfos_perm _).symm.subset he, hc⟩
    have hsorted := sortInfos_sorted (assignInfos next 0 lens)
    generalize sortInfos (assignInfos next 0 lens) = T at *
    obtain ⟨e0, he0, hc0⟩ := hx
    cases T with
    | nil => cases he0
    | cons a T =>
      have ha : a.code = 0 := by
        rcases List.mem_cons.1 he0 with rfl | he0
        · exact hc0
        · have := (List.pairwise_cons.1 hsorted).1 e0 he0
          omega
      have hub : ∀ y, 0 < upperBound (a :: T) y := fun y => takeWhile_pos _ a T (decide_eq_true (by omega))
      have hub2 : ∀ y, upperBound (a :: T) y ≤ (a :: T).length := fun y => (List.takeWhile_sublist _).length_le
      unfold decodeCode fillEntry
      simp only []
      generalize hy : (bitReverse code &&& cacheMask ⟨maxLen lens, min 9 (maxLen lens), a :: T⟩) = y
      have g1 := hub y
      have g2 := hub2 y
      rw [if_neg (by omega)]
      have hlt : upperBound (a :: T) y - 1 < (a :: T).length := by omega
      rw [List.getElem?_eq_getElem hlt]
      simp only []
      obtain ⟨m1, m2⟩ := hmem _ (List.getElem_mem hlt)
      rw [if_pos (by rw [m1, hne]; decide)]
      exact ⟨_, _, rfl, by omega, by omega, m2⟩
  · have hK := h3 hne
    have hv : ValidCode 32 lens := ⟨fun l hl => Nat.le_trans (h15 l hl) (by decide), .inl hK⟩
    obtain ⟨d', e1, e2⟩ := decoder_ok (Nat.le_refl 32) hv
    rw [h] at e1
    cases e1
    obtain ⟨s, f1, f2⟩ := complete_found (by omega) h1 hK code
    have hmem := getD_mem f1
    refine ⟨s, _, e2.hit s code f1 f2, by omega, h15 _ hmem, ?_⟩
    exact (List.getElem?_eq_some_iff.1 (getD_some f1)).1

end Verif.Flate
