import Verif.Flate.CanonProofs

/-!
# The Huffman encoder and decoder agree
-/
namespace Verif.Flate

theorem assignInfos_mem (lens : List Nat) (next : Nat → Nat) (i s l : Nat) (h : lens[s]? = some l) (hl : l ≠ 0) :
    ⟨normalize (next l + (lens.take s).count l) l, l, i + s⟩ ∈ assignInfos next i lens := by
  induction lens generalizing next i s with
  | nil => cases h
  | cons x lens ih =>
    cases s with
    | zero =>
      cases h
      rw [assignInfos, if_pos hl]
      exact List.mem_cons_self
    | succ s =>
      rw [List.getElem?_cons_succ] at h
      rw [assignInfos, show i + (s + 1) = i + 1 + s by omega]
      split
      · rename_i hx
        apply List.mem_cons_of_mem
        have := ih (tick next x) (i + 1) s h
        rw [tick] at this
        rw [List.take_succ_cons, List.count_cons]
        by_cases hlx : l = x
        · subst hlx
          simp only [if_true, beq_self_eq_true] at this ⊢
          rw [show next l + ((lens.take s).count l + 1) = next l + 1 + (lens.take s).count l by omega]
          exact this
        · have hxl : ¬ x = l := fun e => hlx e.symm
          simpa [hlx, hxl] using this
      · rename_i hx
        simp only [ne_eq, Decidable.not_not] at hx
        have := ih next (i + 1) s h
        have h0 : ¬ 0 = l := fun e => hl e.symm
        rw [List.take_succ_cons, List.count_cons, hx]
        simpa [h0] using this

theorem assignInfos_of_mem (lens : List Nat) (next : Nat → Nat) (i : Nat) (e : Info) (h : e ∈ assignInfos next i lens) :
    ∃ s l, lens[s]? = some l ∧ l ≠ 0 ∧ e = ⟨normalize (next l + (lens.take s).count l) l, l, i + s⟩ := by
  induction lens generalizing next i with
  | nil => cases h
  | cons x lens ih =>
    rw [assignInfos] at h
    split at h
    · rename_i hx
      rcases List.mem_cons.1 h with rfl | h
      · exact ⟨0, x, rfl, hx, rfl⟩
      · obtain ⟨s, l, h1, h2, rfl⟩ := ih _ _ h
        refine ⟨s + 1, l, h1, h2, ?_⟩
        rw [tick, List.take_succ_cons, List.count_cons]
        by_cases hlx : l = x
        · subst hlx
          simp only [if_true, beq_self_eq_true, Info.mk.injEq, and_true, true_and]
          exact ⟨congrArg (normalize · l) (by omega), by omega⟩
        · have hxl : ¬ x = l := fun e => hlx e.symm
          simp [hlx, hxl]; omega
    · rename_i hx
      simp only [ne_eq, Decidable.not_not] at hx
      obtain ⟨s, l, h1, h2, rfl⟩ := ih _ _ h
      refine ⟨s + 1, l, h1, h2, ?_⟩
      have h0 : ¬ 0 = l := fun e => h2 e.symm
      rw [List.take_succ_cons, List.count_cons, hx]
      simp [h0]; omega

theorem getD_some {lens : List Nat} {s : Nat} (h : lens.getD s 0 ≠ 0) : lens[s]? = some (lens.getD s 0) := by
  rw [List.getD_eq_getElem?_getD] at *
  cases hs : lens[s]? with
  | none => rw [hs] at h; exact absurd rfl h
  | some l => rfl

theorem getD_mem {lens : List Nat} {s : Nat} (h : lens.getD s 0 ≠ 0) : lens.getD s 0 ∈ lens := List.mem_of_getElem? (getD_some h)

theorem getD_of_some {lens : List Nat} {s l : Nat} (h : lens[s]? = some l) : lens.getD s 0 = l := by
  rw [List.getD_eq_getElem?_getD, h]; rfl

/-! ## Bits of a code and its place among the normalized codes -/

theorem reverse_top (y l : Nat) (hl : l ≤ 32) : bits l (bitReverse y / 2 ^ (32 - l)) = (bits l y).reverse := by
  have h := bits_drop (32 - l) 32 (bitReverse y) (by omega)
  rw [bits_bitReverse, List.drop_reverse, bits_length, show 32 - (32 - l) = l by omega, bits_take _ _ _ hl] at h
  exact h.symm

theorem range_of_bits {code c l : Nat} (hl : l ≤ 32) (hc : c < 2 ^ l) (h : bits l code = (bits l c).reverse) :
    c * 2 ^ (32 - l) ≤ bitReverse code ∧ bitReverse code < c * 2 ^ (32 - l) + 2 ^ (32 - l) := by
  have h1 := reverse_top code l hl
  rw [h, List.reverse_reverse] at h1
  have hlt : bitReverse code / 2 ^ (32 - l) < 2 ^ l := by
    rw [Nat.div_lt_iff_lt_mul (Nat.two_pow_pos _), ← Nat.pow_add, show l + (32 - l) = 32 by omega]
    exact bitReverse_lt _
  have h2 := bits_inj hlt hc h1
  constructor
  · rw [← h2]; exact Nat.div_mul_le_self _ _
  · rw [← h2]
    have := Nat.lt_div_mul_add (Nat.two_pow_pos (32 - l)) (a := bitReverse code)
    omega

theorem bits_of_range {code c l : Nat} (hl : l ≤ 32) (h1 : c * 2 ^ (32 - l) ≤ bitReverse code)
    (h2 : bitReverse code < c * 2 ^ (32 - l) + 2 ^ (32 - l)) : bits l code = (bits l c).reverse := by
  have h := reverse_top code l hl
  have : bitReverse code / 2 ^ (32 - l) = c := by
    apply Nat.div_eq_of_lt_le
    · exact h1
    · rw [Nat.add_mul, Nat.one_mul]; exact h2
  rw [this] at h
  rw [h, List.reverse_reverse]

/-- The decoder decodes the code given by `lens`. -/
structure Decodes (d : Decoder) (lens : List Nat) : Prop where
  max : d.maxBits = maxLen lens
  hit : ∀ s code, lens.getD s 0 ≠ 0 → bits (lens.getD s 0) code = codeBits lens s → decodeCode d code = some (s, lens.getD s 0)
  short : ∀ s code b, lens.getD s 0 ≠ 0 → b < lens.getD s 0 → code < 2 ^ b → bits b code = (codeBits lens s).take b →
    ∃ v l, decodeCode d code = some (v, l) ∧ b < l

/-- The encoder gives out the code given by `lens`. -/
theorem encoder_code {lens : List Nat} {M : Nat} (hM : M ≤ 32) (hv : ∀ l ∈ lens, l ≤ M) (hK : kraft 32 lens ≤ 2 ^ 32) {s : Nat}
    (hs : lens.getD s 0 ≠ 0) : ∃ c, (encoderInit lens)[s]? = some ⟨c, lens.getD s 0⟩ ∧ c < 2 ^ lens.getD s 0 ∧
      bits (lens.getD s 0) c = codeBits lens s := by
  have hm : maxLen lens ≤ 32 := Nat.le_trans (maxLen_le hv) hM
  have hmem := getD_mem hs
  have hle := le_maxLen hmem
  refine ⟨bitReverse (codeNum lens s) >>> (32 - lens.getD s 0), ?_, ?_, ?_⟩
  · rw [encoderInit, if_neg (by omega), assignCodes_get _ _ _ _ (getD_some hs) hs, startCodes_eq hK hm _ hle]
    rfl
  · rw [Nat.shiftRight_eq_div_pow, Nat.div_lt_iff_lt_mul (Nat.two_pow_pos _), ← Nat.pow_add,
      show lens.getD s 0 + (32 - lens.getD s 0) = 32 by omega]
    exact bitReverse_lt _
  · rw [Nat.shiftRight_eq_div_pow, reverse_top _ _ (by omega)]
    rfl

theorem kraft_one {lens : List Nat} (h : ∀ l ∈ lens, l ≤ 1) : kraft 32 lens = lens.count 1 * 2 ^ 31 := by
  induction lens with
  | nil => rfl
  | cons x lens ih =>
    have h1 := ih (fun l hl => h l (List.mem_cons_of_mem _ hl))
    have h2 := h x List.mem_cons_self
    simp only [kraft, List.map_cons, List.sum_cons, List.count_cons] at *
    rw [h1]
    obtain rfl | rfl : x = 0 ∨ x = 1 := by omega
    · simp
    · simp; ring

theorem ValidCode.kraft_le {M : Nat} {lens : List Nat} (hM : M ≤ 32) (h : ValidCode M lens) : kraft 32 lens ≤ 2 ^ 32 := by
  rcases h.2 with h1 | ⟨h1, h2⟩
  · rw [kraft_scale hM h.1, h1, ← Nat.pow_add, show M + (32 - M) = 32 by omega]
  · rw [kraft_one h1, h2]; decide

theorem ValidCode.max_pos {M : Nat} {lens : List Nat} (h : ValidCode M lens) : 1 ≤ maxLen lens := by
  by_contra hc
  have hz : ∀ l ∈ lens, l = 0 := fun l hl => by have := le_maxLen hl; omega
  rcases h.2 with h1 | ⟨h1, h2⟩
  · have : kraft M lens = 0 := by
      clear h h1 hc
      induction lens with
      | nil => rfl
      | cons x lens ih =>
        have := ih (fun l hl => hz l (List.mem_cons_of_mem _ hl))
        simp only [kraft, List.map_cons, List.sum_cons] at *
        rw [this, hz x List.mem_cons_self]; rfl
    rw [this] at h1
    have := Nat.two_pow_pos M
    omega
  · have : 1 ∈ lens := List.count_pos_iff.1 (by omega)
    have := hz 1 this
    omega

/-- zinflate.cpp:65: valid codes are accepted, and decoded as RFC 1951 says. -/
theorem decoder_ok {M : Nat} {lens : List Nat} (hM : M ≤ 32) (hv : ValidCode M lens) :
    ∃ d, decoderInit lens = .ok d ∧ Decodes d lens := by
  have hK := hv.kraft_le hM
  have hm : maxLen lens ≤ 32 := Nat.le_trans (maxLen_le hv.1) hM
  have hpos := hv.max_pos
  obtain ⟨next, hn1, hn2⟩ := startChecked_eq hK hm (maxLen lens) (Nat.le_refl _)
  have hmem := maxLen_mem (lens := lens) (by omega)
  have hlen : lens.length ≠ 0 := fun e => by rw [List.eq_nil_of_length_eq_zero e] at hmem; cases hmem
  -- the last check
  have htop : (firstCode lens (maxLen lens) + lens.count (maxLen lens)) * 2 ^ (32 - maxLen lens) = kraft 32 lens := by
    obtain ⟨k, hk⟩ : ∃ k, maxLen lens = k + 1 := ⟨maxLen lens - 1, by omega⟩
    have := first_tail lens k (by omega)
    rw [← hk, tailSum_succ, tailSum_top fun x hx => by have := le_maxLen hx; omega] at this
    rw [Nat.add_mul]; exact this
  have hle := first_count_le hK hm (l := maxLen lens) hpos hm
  have hsub : (2 ^ maxLen lens + 2 ^ 64 - blCount lens (maxLen lens)) % 2 ^ 64 = 2 ^ maxLen lens - lens.count (maxLen lens) := by
    rw [blCount_eq, show 2 ^ maxLen lens + 2 ^ 64 - lens.count (maxLen lens) = 2 ^ maxLen lens - lens.count (maxLen lens) + 2 ^ 64 by omega,
      Nat.add_mod_right, Nat.mod_eq_of_lt]
    have : 2 ^ maxLen lens ≤ 2 ^ 32 := Nat.pow_le_pow_right (by decide) hm
    omega
  have hcomp : maxLen lens ≠ 1 → firstCode lens (maxLen lens) + lens.count (maxLen lens) = 2 ^ maxLen lens := by
    intro hne
    rcases hv.2 with h1 | ⟨h1, -⟩
    · rw [kraft_scale hM hv.1, h1, ← Nat.pow_add, show M + (32 - M) = 32 by omega] at htop
      have e : (2:Nat) ^ 32 = 2 ^ maxLen lens * 2 ^ (32 - maxLen lens) := by rw [← Nat.pow_add]; congr 1; omega
      rw [e] at htop
      exact Nat.eq_of_mul_eq_mul_right (Nat.two_pow_pos _) htop
    · have := maxLen_le h1; omega
  have hcont : Contig ((List.range' 1 (maxLen lens)).flatMap fun l => blk l (next l) 0 lens) := by
    have hc := all_chain hK hm next hn2 (maxLen lens) 1 (Nat.le_refl _) (by omega)
    rw [if_neg (by omega)] at hc
    obtain ⟨g1, g2, g3, g4, -⟩ := hc.get
    exact ⟨fun e he => by rw [g1 e he, firstCode, Nat.zero_mul], g2, g3, fun e he => Nat.le_trans (g4 e he).2 hK⟩
  have hperm := assignInfos_perm (maxLen lens) lens next 0 (fun l hl => le_maxLen hl)
  have hsort := sortInfos_eq hcont hperm
  refine ⟨⟨maxLen lens, min 9 (maxLen lens), sortInfos (assignInfos next 0 lens)⟩, ?_, ?_⟩
  · rw [decoderInit, if_neg hlen, if_neg (by omega), if_neg (by omega), hn1]
    simp only []
    rw [hsub, if_neg (by omega), if_neg]
    rintro ⟨h1, h2⟩
    have := hcomp h1
    omega
  · -- the table holds the canonical codes
    rw [hsort]
    have hentry : ∀ s, lens.getD s 0 ≠ 0 → ∃ k : Nat, ((List.range' 1 (maxLen lens)).flatMap fun l => blk l (next l) 0 lens)[k]? =
        some (Info.mk (codeNum lens s * 2 ^ (32 - lens.getD s 0)) (lens.getD s 0) s) := by
      intro s hs
      have h1 := hperm.subset (assignInfos_mem lens next 0 s _ (getD_some hs) hs)
      have hl := le_maxLen (getD_mem hs)
      rw [hn2 _ (by omega) hl, Nat.zero_add] at h1
      have h2 : normalize (firstCode lens (lens.getD s 0) + (lens.take s).count (lens.getD s 0)) (lens.getD s 0) =
          codeNum lens s * 2 ^ (32 - lens.getD s 0) := normalize_eq (codeNum_lt hK hm hs) (by omega)
      rw [h2] at h1
      obtain ⟨k, hk, e⟩ := List.mem_iff_getElem.1 h1
      exact ⟨k, by rw [List.getElem?_eq_getElem hk, e]⟩
    have hit : ∀ s code, lens.getD s 0 ≠ 0 → bits (lens.getD s 0) code = codeBits lens s →
        decodeCode ⟨maxLen lens, min 9 (maxLen lens), (List.range' 1 (maxLen lens)).flatMap fun l => blk l (next l) 0 lens⟩ code =
          some (s, lens.getD s 0) := by
      intro s code hs hb
      obtain ⟨k, hk⟩ := hentry s hs
      have hl := le_maxLen (getD_mem hs)
      obtain ⟨h1, h2⟩ := range_of_bits (by omega) (codeNum_lt hK hm hs) hb
      exact decode_of_contig (Decoder.mk (maxLen lens) (min 9 (maxLen lens)) _) hcont (show 1 ≤ min 9 (maxLen lens) by omega)
        (show min 9 (maxLen lens) ≤ 32 by omega) code k _ hk h1 h2
    refine ⟨rfl, hit, ?_⟩
    intro s code b hs hb hcode hbits
    have hlm := le_maxLen (getD_mem hs)
    -- some symbol is found
    have hfound : ∃ s', lens.getD s' 0 ≠ 0 ∧ bits (lens.getD s' 0) code = codeBits lens s' := by
      rcases hv.2 with h1 | ⟨h1, h2⟩
      · have hKe : kraft 32 lens = 2 ^ 32 := by rw [kraft_scale hM hv.1, h1, ← Nat.pow_add, show M + (32 - M) = 32 by omega]
        obtain ⟨k0, hk0⟩ := hentry s hs
        have hne : ((List.range' 1 (maxLen lens)).flatMap fun l => blk l (next l) 0 lens) ≠ [] := by
          intro e; rw [e] at hk0; cases hk0
        obtain ⟨k, e, he, he1, he2⟩ := exists_split hcont hne (bitReverse code)
        have hin : bitReverse code < e.code + 2 ^ (32 - e.len) := by
          by_cases hlast : k + 1 < ((List.range' 1 (maxLen lens)).flatMap fun l => blk l (next l) 0 lens).length
          · have e1 := List.getElem?_eq_getElem hlast
            rw [← (hcont.succ k e _ he e1).1]
            exact he2 _ e1
          · have hc := all_chain hK hm next hn2 (maxLen lens) 1 (Nat.le_refl _) (by omega)
            rw [if_neg (by omega), hKe] at hc
            have hend : ∀ (T : List Info) (c l c' k : Nat) (e : Info), Chain c l T c' → T[k]? = some e → T.length ≤ k + 1 → e.code + 2 ^ (32 - e.len) = c' := by
              intro T
              induction T with
              | nil => intro c l c' k e _ h; cases h
              | cons a T ih =>
                intro c l c' k e h1 h2 h3
                cases k with
                | zero =>
                  cases h2
                  have : T = [] := List.eq_nil_of_length_eq_zero (by simpa using h3)
                  subst this
                  rw [h1.1]; exact h1.2.2.2
                | succ k => exact ih _ _ _ k e h1.2.2.2 h2 (by simpa using h3)
            rw [hend _ _ _ _ k e hc he (by omega)]
            exact bitReverse_lt _
        obtain ⟨s', l', g1, g2, g3⟩ := assignInfos_of_mem lens next 0 e (hperm.symm.subset (List.mem_of_getElem? he))
        have hl' := getD_of_some g1
        have hs' : lens.getD s' 0 ≠ 0 := by rw [hl']; exact g2
        have hle' := le_maxLen (getD_mem hs')
        rw [← hl'] at g3
        rw [hn2 _ (by omega) hle'] at g3
        have h2 : normalize (firstCode lens (lens.getD s' 0) + (lens.take s').count (lens.getD s' 0)) (lens.getD s' 0) =
            codeNum lens s' * 2 ^ (32 - lens.getD s' 0) := normalize_eq (codeNum_lt hK hm hs') (by omega)
        rw [h2] at g3
        subst g3
        exact ⟨s', hs', bits_of_range (by omega) he1 hin⟩
      · have hl1 : lens.getD s 0 = 1 := by have := h1 _ (getD_mem hs); omega
        refine ⟨s, hs, ?_⟩
        have hb0 : b = 0 := by omega
        subst hb0
        have hc0 : code = 0 := by simpa using hcode
        have hn := codeNum_lt hK hm hs
        have hcn : codeNum lens s = 0 := by
          have hc1 : lens.count 1 = (lens.take s).count 1 + (lens.drop s).count 1 := by
            rw [← List.count_append, List.take_append_drop]
          have : 0 < (lens.drop s).count 1 := by
            rw [List.count_pos_iff]
            have e := getD_some hs
            rw [hl1] at e
            apply List.mem_of_getElem? (i := 0)
            rw [List.getElem?_drop, Nat.add_zero, e]
          unfold codeNum
          rw [hl1, firstCode]
          omega
        rw [codeBits, hcn, hl1, hc0]
        rfl
    obtain ⟨s', hs', hb'⟩ := hfound
    refine ⟨s', _, hit s' code hs' hb', ?_⟩
    by_contra hc
    -- then the code of s' would be a prefix of that of s
    have hval : bits (lens.getD s 0) (val (codeBits lens s)) = codeBits lens s := by
      have := bits_val (codeBits lens s)
      rwa [show (codeBits lens s).length = lens.getD s 0 by simp [codeBits]] at this
    have d1 := hit s _ hs hval
    have hpre : bits (lens.getD s' 0) (val (codeBits lens s)) = codeBits lens s' := by
      rw [← bits_take _ (lens.getD s 0) _ (by omega), hval, ← hb', ← bits_take _ b _ (by omega), hbits, List.take_take]
      congr 1
      omega
    have d2 := hit s' _ hs' hpre
    rw [d1] at d2
    simp only [Option.some.injEq, Prod.mk.injEq] at d2
    omega

end Verif.Flate
