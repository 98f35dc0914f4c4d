import Verif.Flate.EndBlockProofs

/-!
# `InsertString`, `LongestMatch` and the loop of `ProcessBuffer`
-/
namespace Verif.Flate

/-- zdeflate.cpp:385, on the input. -/
def hashIn (inp : List Byte) (log2 k : Nat) : Nat :=
  (((inp.getD k 0).toNat <<< 10) ^^^ ((inp.getD (k + 1) 0).toNat <<< 5) ^^^ (inp.getD (k + 2) 0).toNat) &&& (2 ^ log2 - 1)

theorem xor_left_cancel {a x y : Nat} (h : a ^^^ x = a ^^^ y) : x = y := by
  have := congrArg (a ^^^ ·) h
  simpa [← Nat.xor_assoc] using this

/-- The third byte of a string is determined by the hash and the other two. -/
theorem hash_third {inp : List Byte} {log2 j k : Nat} (hlog : 9 ≤ log2) (h : hashIn inp log2 j = hashIn inp log2 k)
    (h0 : inp.getD j 0 = inp.getD k 0) (h1 : inp.getD (j + 1) 0 = inp.getD (k + 1) 0) : inp.getD (j + 2) 0 = inp.getD (k + 2) 0 := by
  rw [hashIn, hashIn, Nat.and_two_pow_sub_one_eq_mod, Nat.and_two_pow_sub_one_eq_mod, h0, h1] at h
  simp only [Nat.xor_mod_two_pow] at h
  have h2 := xor_left_cancel h
  have hp : 2 ^ 9 ≤ 2 ^ log2 := Nat.pow_le_pow_right (by decide) hlog
  have a := (inp.getD (j + 2) 0).isLt
  have b := (inp.getD (k + 2) 0).isLt
  rw [Nat.mod_eq_of_lt (by omega), Nat.mod_eq_of_lt (by omega)] at h2
  exact BitVec.eq_of_toNat_eq h2

/-- The chains of earlier strings. -/
structure Dict (inp : List Byte) (off : Nat) (s : Deflator) : Prop where
  le : s.dictEnd ≤ s.start
  within : s.dictEnd = 0 ∨ s.dictEnd + 2 ≤ s.start + s.look
  head : ∀ h, s.head h = 0 ∨ (s.head h < s.dictEnd ∧ hashIn inp s.log2 (off + s.head h) = h)
  prev : ∀ c, c < s.dictEnd → s.dictEnd ≤ c + s.dsize → s.prev (c % s.dsize) = 0 ∨
    (s.prev (c % s.dsize) < c ∧ hashIn inp s.log2 (off + s.prev (c % s.dsize)) = hashIn inp s.log2 (off + c))

/-- All there is to know between two calls. -/
structure Inv (base inp : List Byte) (off : Nat) (bs : List Block) (s : Deflator) : Prop where
  core : Core base inp off bs s
  pos : s.blockStart + s.blockLen + s.avail.toNat = s.start
  dict : Dict inp off s
  mat : s.avail = true → Repeats inp (off + (s.start - 1)) ((s.start - 1 + 2 ^ 32 - s.prevMatch) % 2 ^ 32) s.prevLen
  small : s.prevMatch < 2 ^ 32

theorem Core.lt {base inp : List Byte} {off : Nat} {bs : List Block} {s : Deflator} (hc : Core base inp off bs s) : s.start + s.look ≤ 65535 := by
  have := hc.max
  rw [Deflator.maxBlock] at this
  omega

theorem hash_eq {base inp : List Byte} {off : Nat} {bs : List Block} {s : Deflator} (hc : Core base inp off bs s) {c : Nat}
    (h : c + 3 ≤ s.start + s.look) : s.hash c = hashIn inp s.log2 (off + c) := by
  rw [Deflator.hash, hashIn, hc.data c (by omega), hc.data (c + 1) (by omega), hc.data (c + 2) (by omega), Deflator.dsize]
  rfl

theorem agree_spec (s : Deflator) (k : Nat) : ∀ i j, s.agree k i j ≤ k ∧ ∀ t, t < s.agree k i j → s.buf (i + t) = s.buf (j + t) := by
  induction k with
  | zero => intro i j; exact ⟨Nat.le_refl _, fun t ht => by simp [Deflator.agree] at ht⟩
  | succ k ih =>
    intro i j
    rw [Deflator.agree]
    split
    · rename_i h
      obtain ⟨h1, h2⟩ := ih (i + 1) (j + 1)
      refine ⟨by omega, fun t ht => ?_⟩
      cases t with
      | zero => exact h
      | succ t =>
        have := h2 t (by omega)
        rw [show i + (t + 1) = i + 1 + t by omega, show j + (t + 1) = j + 1 + t by omega]
        exact this
    · exact ⟨by omega, fun t ht => by omega⟩

/-- A match that may be used. -/
structure Good (s : Deflator) (limit n m : Nat) : Prop where
  pos : limit < m
  lt : m < s.start
  min : 3 ≤ n
  max : n ≤ 258
  look : n ≤ s.look
  eq : ∀ i, i < n → s.buf (s.start + i) = s.buf (m + i)

section
variable {base inp : List Byte} {off : Nat} {bs : List Block} {s : Deflator}

theorem chain_spec (hc : Core base inp off bs s) (hd : Dict inp off s) {limit : Nat} (hlim : s.start ≤ limit + (s.dsize - 258))
    (hlook : 3 ≤ s.look) (fuel : Nat) : ∀ (current chainLength bestLength bestMatch : Nat), current < fuel →
    (current = 0 ∨ (current < s.dictEnd ∧ hashIn inp s.log2 (off + current) = hashIn inp s.log2 (off + s.start))) →
    2 ≤ bestLength → (bestMatch = 0 ∨ Good s limit bestLength bestMatch) →
    ∃ n m, s.chain limit fuel current chainLength bestLength bestMatch = some (n, m) ∧ (m = 0 ∨ Good s limit n m) := by
  induction fuel with
  | zero => intro c _ _ _ h; omega
  | succ fuel ih =>
    intro current chainLength bestLength bestMatch hf hcur hbl hbm
    rw [Deflator.chain]
    have hds := dsize_range hc.log
    by_cases hgo : limit < current ∧ (chainLength + 2 ^ 32 - 1) % 2 ^ 32 > 0
    · rw [if_pos hgo]
      simp only []
      have hcur : current < s.dictEnd ∧ hashIn inp s.log2 (off + current) = hashIn inp s.log2 (off + s.start) := by
        rcases hcur with h | h
        · omega
        · exact h
      have hle := hd.le
      have hw : s.dictEnd + 2 ≤ s.start + s.look := by rcases hd.within with h | h <;> omega
      have hnext : s.prev (current % s.dsize) < fuel ∧ (s.prev (current % s.dsize) = 0 ∨ (s.prev (current % s.dsize) < s.dictEnd ∧
          hashIn inp s.log2 (off + s.prev (current % s.dsize)) = hashIn inp s.log2 (off + s.start))) := by
        rcases hd.prev current hcur.1 (by omega) with h | ⟨h1, h2⟩
        · rw [h]; exact ⟨by omega, .inl rfl⟩
        · exact ⟨by omega, .inr ⟨by omega, by rw [h2, hcur.2]⟩⟩
      generalize s.prev (current % s.dsize) = nx at hnext
      by_cases heq : s.buf (s.start + (bestLength - 1)) = s.buf (current + (bestLength - 1)) ∧ s.buf (s.start + bestLength) = s.buf (current + bestLength) ∧
          s.buf s.start = s.buf current ∧ s.buf (s.start + 1) = s.buf (current + 1)
      · rw [if_pos heq]
        obtain ⟨a1, a2⟩ := agree_spec s (min 258 s.look - 3) (s.start + 3) (current + 3)
        generalize s.agree (min 258 s.look - 3) (s.start + 3) (current + 3) = ag at *
        have hgood : Good s limit (3 + ag) current := by
          refine ⟨hgo.1, by omega, by omega, by omega, by omega, fun i hi => ?_⟩
          by_cases h0 : i = 0
          · subst h0; exact heq.2.2.1
          by_cases h1 : i = 1
          · subst h1; exact heq.2.2.2
          by_cases h2 : i = 2
          · subst h2
            have e0 := heq.2.2.1
            have e1 := heq.2.2.2
            rw [hc.data s.start (by omega), hc.data current (by omega)] at e0
            rw [hc.data (s.start + 1) (by omega), hc.data (current + 1) (by omega)] at e1
            rw [hc.data (s.start + 2) (by omega), hc.data (current + 2) (by omega)]
            exact hash_third hc.log.1 hcur.2.symm e0 e1
          · have := a2 (i - 3) (by omega)
            rw [show s.start + 3 + (i - 3) = s.start + i by omega, show current + 3 + (i - 3) = current + i by omega] at this
            exact this
        by_cases hl : bestLength < 3 + ag
        · rw [if_pos hl]
          by_cases he : 3 + ag = min 258 s.look
          · rw [if_pos he]
            exact ⟨_, _, rfl, .inr hgood⟩
          · rw [if_neg he]
            exact ih _ _ _ _ hnext.1 hnext.2 (by omega) (.inr hgood)
        · rw [if_neg hl]
          exact ih _ _ _ _ hnext.1 hnext.2 hbl hbm
      · rw [if_neg heq]
        exact ih _ _ _ _ hnext.1 hnext.2 hbl hbm
    · rw [if_neg hgo]
      exact ⟨_, _, rfl, hbm⟩

theorem longestMatch_spec (hc : Core base inp off bs s) (hd : Dict inp off s) (pl : Nat) :
    ∃ n m, s.longestMatch pl = .ok (n, m) ∧ ((n = 0 ∧ m = 0) ∨ (m < s.start ∧ n ≠ 0 ∧ Repeats inp (off + s.start) (s.start - m) n)) := by
  have hds := dsize_range hc.log
  rw [Deflator.longestMatch]
  simp only []
  by_cases h : s.look ≤ max pl 2
  · rw [if_pos h]; exact ⟨0, 0, rfl, .inl ⟨rfl, rfl⟩⟩
  · rw [if_neg h]
    generalize hlim : (if s.dsize - 258 < s.start then s.start - (s.dsize - 258) else 0) = limit
    have hl : s.start ≤ limit + (s.dsize - 258) := by rw [← hlim]; split <;> omega
    have hh := hash_eq hc (c := s.start) (by omega)
    obtain ⟨n, m, e, hg⟩ := chain_spec hc hd hl (by omega) (s.head (s.hash s.start) + 1) (s.head (s.hash s.start))
      (if s.goodMatch ≤ pl then s.maxChain >>> 2 else s.maxChain) (max pl 2) 0 (by omega)
      (by
        rcases hd.head (s.hash s.start) with h | ⟨h1, h2⟩
        · exact .inl h
        · exact .inr ⟨h1, by rw [h2, hh]⟩) (by omega) (.inl rfl)
    rw [e]
    simp only []
    rcases hg with rfl | hg
    · exact ⟨0, 0, by rw [if_neg (by omega)], .inl ⟨rfl, rfl⟩⟩
    · have h1 := hg.pos
      have h2 := hg.lt
      have h3 := hg.min
      have h4 := hg.look
      refine ⟨n, m, by rw [if_pos (by omega)], .inr ⟨h2, by omega, ⟨by omega, ?_, by omega, h3, hg.max, by have := hc.len; omega, fun i hi => ?_⟩⟩⟩
      · omega
      · have := hg.eq i hi
        rw [hc.data _ (by omega), hc.data _ (by omega)] at this
        rw [show off + s.start + i = off + (s.start + i) by omega, this]
        congr 1
        omega

theorem insertStrings_spec (hc : Core base inp off bs s) (k : Nat) : ∀ (hd pv : Nat → Nat) (de : Nat),
    Dict inp off { s with head := hd, prev := pv, dictEnd := de } → ∃ (hd' pv' : Nat → Nat) (de' : Nat),
      Deflator.insertStrings k { s with head := hd, prev := pv, dictEnd := de } = { s with head := hd', prev := pv', dictEnd := de' } ∧
      Dict inp off { s with head := hd', prev := pv', dictEnd := de' } := by
  have hds := dsize_range hc.log
  have hlt := hc.lt
  induction k with
  | zero => intro hd pv de h; exact ⟨hd, pv, de, rfl, h⟩
  | succ k ih =>
    intro hd pv de h
    rw [Deflator.insertStrings]
    by_cases hgo : de < s.start ∧ de + 3 ≤ s.start + s.look
    · rw [if_pos hgo]
      have hh : Deflator.hash { s with head := hd, prev := pv, dictEnd := de } de = hashIn inp s.log2 (off + de) := hash_eq hc hgo.2
      refine ih _ _ _ ?_
      obtain ⟨d1, d2, d3, d4⟩ := h
      simp only [] at d1 d2 d3 d4
      have hde : de % 65536 = de := Nat.mod_eq_of_lt (by omega)
      refine ⟨?_, ?_, ?_, ?_⟩
      · show de + 1 ≤ s.start
        omega
      · right; show de + 1 + 2 ≤ s.start + s.look; omega
      · intro x
        show put hd _ (de % 65536) x = 0 ∨ (put hd _ (de % 65536) x < de + 1 ∧ hashIn inp s.log2 (off + put hd _ (de % 65536) x) = x)
        rw [hh, hde, put]
        split
        · rename_i hx
          exact .inr ⟨by omega, hx.symm⟩
        · rcases d3 x with h | ⟨h1, h2⟩
          · exact .inl h
          · exact .inr ⟨by omega, h2⟩
      · intro c hc1 hc2
        replace hc1 : c < de + 1 := hc1
        replace hc2 : de + 1 ≤ c + s.dsize := hc2
        show put pv (de % s.dsize) _ (c % s.dsize) = 0 ∨ (put pv (de % s.dsize) _ (c % s.dsize) < c ∧
          hashIn inp s.log2 (off + put pv (de % s.dsize) _ (c % s.dsize)) = hashIn inp s.log2 (off + c))
        simp only []
        rw [hh]
        by_cases hcd : c = de
        · subst hcd
          rw [put, if_pos rfl]
          rcases d3 (hashIn inp s.log2 (off + c)) with h | ⟨h1, h2⟩
          · exact .inl h
          · exact .inr ⟨h1, h2⟩
        · have hne : c % s.dsize ≠ de % s.dsize := by
            intro he
            have hsub : (de - c) % s.dsize = 0 := Nat.sub_mod_eq_zero_of_mod_eq he.symm
            rw [Nat.mod_eq_of_lt (by omega)] at hsub
            omega
          rw [put, if_neg hne]
          exact d4 c (by omega) (by show de ≤ c + s.dsize; omega)
    · rw [if_neg hgo]
      exact ⟨hd, pv, de, rfl, h⟩

end

section
variable {srt : List Leaf → List Leaf} (hs : IsSort srt) {base inp : List Byte} {off : Nat} {bs : List Block} {s : Deflator}
include hs

omit hs in
theorem Dict.win {s' : Deflator} (h : Dict inp off s) (w : Win s s') : Dict inp off s' := by
  obtain ⟨h1, h2, h3, h4⟩ := h
  refine ⟨by rw [w.dictEnd, w.start]; exact h1, by rw [w.dictEnd, w.start, w.look]; exact h2, by rw [w.head, w.dictEnd, w.log2]; exact h3, ?_⟩
  rw [w.prev, w.dictEnd, w.log2, w.dsize]; exact h4

omit hs in
/-- Only the position in the window moves. -/
theorem Core.moved (hc : Core base inp off bs s) {st lk : Nat} (av : Bool) (h : st + lk = s.start + s.look) :
    Core base inp off bs { s with start := st, look := lk, avail := av } :=
  { log := hc.log, wok := hc.wok, wstr := hc.wstr, prod := hc.prod, tok := ⟨hc.tok.ok, hc.tok.lit, hc.tok.dist⟩, few := hc.few, sum := hc.sum, run := hc.run
    bound := by show s.blockStart + s.blockLen ≤ st + lk; rw [h]; exact hc.bound
    data := fun i hi => hc.data i (by rw [← h]; exact hi)
    len := by show off + st + lk = _; have := hc.len; omega
    max := by show st + lk ≤ s.maxBlock; rw [h]; exact hc.max }

omit hs in
theorem Dict.moved (hd : Dict inp off s) {st lk : Nat} (av : Bool) (h : st + lk = s.start + s.look) (hst : s.start ≤ st) :
    Dict inp off { s with start := st, look := lk, avail := av } :=
  ⟨Nat.le_trans hd.le hst, by show s.dictEnd = 0 ∨ s.dictEnd + 2 ≤ st + lk; rw [h]; exact hd.within, hd.head, hd.prev⟩

theorem step_aux (hi : Inv base inp off bs s) (hlook : 0 < s.look) : ∃ s' bs', (if s.avail then s.stepLazy srt else s.stepFirst srt) = .ok s' ∧ Inv base inp off bs' s' ∧
    s'.minLook = s.minLook ∧ s'.log2 = s.log2 ∧ s'.start + s'.look = s.start + s.look ∧ s'.look < s.look ∧ (bs' ≠ [] → bs ≠ [] ∨ s.dsize / 2 < inp.length) := by
  have hc := hi.core
  have hd := hi.dict
  have hpos := hi.pos
  have hlen := hc.len
  have hlt := hc.lt
  have hbound := hc.bound
  cases hav : s.avail with
  | true =>
    rw [hav] at hpos
    have hpos' : s.blockStart + s.blockLen + 1 = s.start := hpos
    have hrep := hi.mat hav
    simp only [if_true]
    rw [Deflator.stepLazy]
    have hm : ∃ n m, s.lazyMatch = .ok (n, m) ∧
        ((n = 0 ∧ m = 0) ∨ (m < s.start ∧ n ≠ 0 ∧ Repeats inp (off + s.start) (s.start - m) n)) := by
      rw [Deflator.lazyMatch]
      by_cases h : s.maxLazy ≤ s.prevLen
      · exact ⟨0, 0, by rw [if_pos h], .inl ⟨rfl, rfl⟩⟩
      · rw [if_neg h]; exact longestMatch_spec hc hd _
    obtain ⟨n, m, em, hm⟩ := hm
    rw [em]
    simp only [bind, Except.bind]
    rcases hm with ⟨rfl, rfl⟩ | ⟨hm1, hm2, hm3⟩
    · rw [if_pos rfl]
      have hr' : Repeats inp (off + (s.blockStart + s.blockLen)) ((s.start - 1 + 2 ^ 32 - s.prevMatch) % 2 ^ 32) s.prevLen := by
        rw [show s.blockStart + s.blockLen = s.start - 1 by omega]; exact hrep
      obtain ⟨s1, bs', e1, c1, w1, p1, f1⟩ := matchFound_core hs hc hr'
      rw [e1]
      simp only []
      have hmin := hrep.min
      have hlen2 := hrep.len
      rw [if_neg (by rw [w1.look, w1.prevLen]; omega)]
      refine ⟨_, bs', rfl, ?_, w1.minLook, w1.log2, ?_, ?_, ?_⟩
      · refine ⟨c1.moved _ (by rw [w1.prevLen, w1.look]; omega), ?_, (hd.win w1).moved _ (by rw [w1.prevLen, w1.look]; omega) (by omega), (fun h => (nomatch h)), ?_⟩
        · show s1.blockStart + s1.blockLen + 0 = s1.start + (s1.prevLen - 1)
          rw [w1.start, w1.prevLen]; omega
        · show s1.prevMatch < _
          rw [w1.prevMatch]; exact hi.small
      · show s1.start + (s1.prevLen - 1) + (s1.look - (s1.prevLen - 1)) = _
        rw [w1.start, w1.prevLen, w1.look]; omega
      · show s1.look - (s1.prevLen - 1) < _
        rw [w1.prevLen, w1.look]; omega
      · intro hb
        rcases f1 hb with h | h
        · exact .inl h
        · exact .inr (by omega)
    · rw [if_neg hm2]
      have c0 : Core base inp off bs { s with prevLen := n, prevMatch := m } :=
        ⟨hc.log, hc.wok, hc.wstr, hc.prod, ⟨hc.tok.ok, hc.tok.lit, hc.tok.dist⟩, hc.few, hc.sum, hc.run, hc.bound, hc.data, hc.len, hc.max⟩
      obtain ⟨s1, bs', e1, c1, w1, p1, f1⟩ := literalByte_core hs c0 (b := s.buf (s.start - 1)) (by show s.blockStart + s.blockLen < s.start + s.look; omega)
        (by rw [hc.data _ (by omega)]; show _ = inp.getD (off + (s.blockStart + s.blockLen)) 0; congr 2; omega)
      rw [e1]
      simp only []
      have hd0 : Dict inp off { s with prevLen := n, prevMatch := m } := ⟨hd.le, hd.within, hd.head, hd.prev⟩
      have ws : s1.start = s.start := w1.start
      have wl : s1.look = s.look := w1.look
      have p1' : s1.blockStart + s1.blockLen = s.blockStart + s.blockLen + 1 := p1
      have wa : s1.avail = true := by rw [w1.avail]; exact hav
      refine ⟨_, bs', rfl, ?_, w1.minLook, w1.log2, ?_, ?_, ?_⟩
      · refine ⟨c1.moved s1.avail (by rw [wl]; omega), ?_, (hd0.win w1).moved s1.avail (by rw [wl]; omega) (by omega), ?_, ?_⟩
        · show s1.blockStart + s1.blockLen + s1.avail.toNat = s1.start + 1
          rw [wa]; show _ + 1 = _; omega
        · intro _
          show Repeats inp (off + (s1.start + 1 - 1)) ((s1.start + 1 - 1 + 2 ^ 32 - s1.prevMatch) % 2 ^ 32) s1.prevLen
          rw [w1.prevMatch, w1.prevLen, ws]
          show Repeats inp (off + (s.start + 1 - 1)) ((s.start + 1 - 1 + 2 ^ 32 - m) % 2 ^ 32) n
          rw [show (s.start + 1 - 1 + 2 ^ 32 - m) % 2 ^ 32 = s.start - m by omega]
          exact hm3
        · show s1.prevMatch < _
          rw [w1.prevMatch]; show m < _; omega
      · show s1.start + 1 + (s1.look - 1) = _
        rw [ws, wl]; omega
      · show s1.look - 1 < _
        rw [wl]; omega
      · intro hb
        rcases f1 hb with h | h
        · exact .inl h
        · exact .inr (by have h' : s.dsize / 2 ≤ s.blockLen := h; omega)
  | false =>
    rw [hav] at hpos
    have hpos' : s.blockStart + s.blockLen = s.start := hpos
    simp only [Bool.false_eq_true, if_false]
    rw [Deflator.stepFirst]
    obtain ⟨n, m, em, hm⟩ := longestMatch_spec hc hd 0
    rw [em]
    simp only [bind, Except.bind]
    rcases hm with ⟨rfl, rfl⟩ | ⟨hm1, hm2, hm3⟩
    · rw [if_neg (by simp)]
      have c0 : Core base inp off bs { s with prevLen := 0, prevMatch := 0 } :=
        ⟨hc.log, hc.wok, hc.wstr, hc.prod, ⟨hc.tok.ok, hc.tok.lit, hc.tok.dist⟩, hc.few, hc.sum, hc.run, hc.bound, hc.data, hc.len, hc.max⟩
      obtain ⟨s1, bs', e1, c1, w1, p1, f1⟩ := literalByte_core hs c0 (b := s.buf s.start) (by show s.blockStart + s.blockLen < s.start + s.look; omega)
        (by rw [hc.data _ (by omega)]; show _ = inp.getD (off + (s.blockStart + s.blockLen)) 0; congr 2; omega)
      rw [e1]
      simp only []
      have hd0 : Dict inp off { s with prevLen := 0, prevMatch := 0 } := ⟨hd.le, hd.within, hd.head, hd.prev⟩
      have ws : s1.start = s.start := w1.start
      have wl : s1.look = s.look := w1.look
      have p1' : s1.blockStart + s1.blockLen = s.blockStart + s.blockLen + 1 := p1
      have wa : s1.avail = false := by rw [w1.avail]; exact hav
      refine ⟨_, bs', rfl, ?_, w1.minLook, w1.log2, ?_, ?_, ?_⟩
      · refine ⟨c1.moved s1.avail (by rw [wl]; omega), ?_, (hd0.win w1).moved s1.avail (by rw [wl]; omega) (by omega), ?_, ?_⟩
        · show s1.blockStart + s1.blockLen + s1.avail.toNat = s1.start + 1
          rw [wa]; show _ + 0 = _; omega
        · intro h
          have h' : s1.avail = true := h
          rw [wa] at h'; cases h'
        · show s1.prevMatch < _
          rw [w1.prevMatch]; show 0 < _; omega
      · show s1.start + 1 + (s1.look - 1) = _
        rw [ws, wl]; omega
      · show s1.look - 1 < _
        rw [wl]; omega
      · intro hb
        rcases f1 hb with h | h
        · exact .inl h
        · exact .inr (by have h' : s.dsize / 2 ≤ s.blockLen := h; omega)
    · rw [if_pos hm2]
      refine ⟨_, bs, rfl, ?_, rfl, rfl, ?_, ?_, fun h => .inl h⟩
      · have c0 : Core base inp off bs { s with prevLen := n, prevMatch := m } :=
          ⟨hc.log, hc.wok, hc.wstr, hc.prod, ⟨hc.tok.ok, hc.tok.lit, hc.tok.dist⟩, hc.few, hc.sum, hc.run, hc.bound, hc.data, hc.len, hc.max⟩
        have hd0 : Dict inp off { s with prevLen := n, prevMatch := m } := ⟨hd.le, hd.within, hd.head, hd.prev⟩
        refine ⟨c0.moved true (show s.start + 1 + (s.look - 1) = s.start + s.look by omega), ?_,
          hd0.moved true (show s.start + 1 + (s.look - 1) = s.start + s.look by omega) (Nat.le_succ _), ?_, ?_⟩
        · show s.blockStart + s.blockLen + 1 = s.start + 1
          omega
        · intro _
          show Repeats inp (off + (s.start + 1 - 1)) ((s.start + 1 - 1 + 2 ^ 32 - m) % 2 ^ 32) n
          rw [show (s.start + 1 - 1 + 2 ^ 32 - m) % 2 ^ 32 = s.start - m by omega]
          exact hm3
        · show m < _
          omega
      · show s.start + 1 + (s.look - 1) = _
        omega
      · show s.look - 1 < _
        omega

theorem step_inv (hi : Inv base inp off bs s) (hlook : 0 < s.look) : ∃ s' bs', s.step srt = .ok s' ∧ Inv base inp off bs' s' ∧
    s'.minLook = s.minLook ∧ s'.log2 = s.log2 ∧ s'.start + s'.look = s.start + s.look ∧ s'.look < s.look ∧ (bs' ≠ [] → bs ≠ [] ∨ s.dsize / 2 < inp.length) := by
  rw [Deflator.step]
  obtain ⟨hd', pv', de', e, hdict⟩ := insertStrings_spec hi.core (s.start - s.dictEnd) s.head s.prev s.dictEnd hi.dict
  have e' : Deflator.insertStrings (s.start - s.dictEnd) s = { s with head := hd', prev := pv', dictEnd := de' } := e
  rw [e']
  have hcore : Core base inp off bs { s with head := hd', prev := pv', dictEnd := de' } :=
    ⟨hi.core.log, hi.core.wok, hi.core.wstr, hi.core.prod, ⟨hi.core.tok.ok, hi.core.tok.lit, hi.core.tok.dist⟩, hi.core.few, hi.core.sum, hi.core.run,
      hi.core.bound, hi.core.data, hi.core.len, hi.core.max⟩
  have hi2 : Inv base inp off bs { s with head := hd', prev := pv', dictEnd := de' } := ⟨hcore, hi.pos, hdict, hi.mat, hi.small⟩
  obtain ⟨s', bs', r⟩ := step_aux hs hi2 hlook
  exact ⟨s', bs', r⟩

theorem steps_inv (k : Nat) : ∀ {s : Deflator} {bs : List Block}, Inv base inp off bs s → s.look ≤ k → ∃ s' bs', Deflator.steps srt k s = .ok s' ∧
    Inv base inp off bs' s' ∧ s'.minLook = s.minLook ∧ s'.log2 = s.log2 ∧ s'.start + s'.look = s.start + s.look ∧ s'.look ≤ s'.minLook ∧
    (bs' ≠ [] → bs ≠ [] ∨ s.dsize / 2 < inp.length) := by
  induction k with
  | zero =>
    intro s bs hi hk
    refine ⟨s, bs, by rw [Deflator.steps, if_neg (by omega)], hi, rfl, rfl, rfl, by omega, fun h => .inl h⟩
  | succ k ih =>
    intro s bs hi hk
    rw [Deflator.steps]
    by_cases h : s.minLook < s.look
    · rw [if_pos h]
      obtain ⟨s1, bs1, e1, i1, m1, g1, t1, l1, f1⟩ := step_inv hs hi (by omega)
      rw [e1]
      simp only [bind, Except.bind]
      obtain ⟨s', bs', e', i', m', g', t', l', f'⟩ := ih i1 (by omega)
      refine ⟨s', bs', e', i', by rw [m', m1], by rw [g', g1], by rw [t', t1], l', fun hb => ?_⟩
      rcases f' hb with h | h
      · exact f1 h
      · exact .inr (by rw [Deflator.dsize, g1] at h; exact h)
    · rw [if_neg h]
      exact ⟨s, bs, rfl, hi, rfl, rfl, rfl, by omega, fun h => .inl h⟩

theorem processBuffer_inv (hi : Inv base inp off bs s) : ∃ s' bs', processBuffer srt s = .ok s' ∧ Inv base inp off bs' s' ∧
    s'.minLook = s.minLook ∧ s'.log2 = s.log2 ∧ s'.look ≤ s'.minLook ∧ (s'.minLook = 0 → s'.avail = false) ∧
    (bs' ≠ [] → bs ≠ [] ∨ s.dsize / 2 < inp.length) := by
  have hc := hi.core
  rw [processBuffer]
  by_cases hl : s.level = 0
  · rw [if_pos hl]
    refine ⟨_, bs, rfl, ?_, rfl, rfl, Nat.zero_le _, fun _ => rfl, fun h => .inl h⟩
    have hb := hc.bound
    refine ⟨?_, ?_, ⟨?_, ?_, hi.dict.head, hi.dict.prev⟩, (fun h => (nomatch h)), hi.small⟩
    · exact { log := hc.log, wok := hc.wok, wstr := hc.wstr, prod := hc.prod, tok := ⟨hc.tok.ok, hc.tok.lit, hc.tok.dist⟩, few := hc.few
              sum := by show s.toks.length ≤ s.start + s.look - s.blockStart; have := hc.sum; omega
              run := fun h => absurd hl h
              bound := by show s.blockStart + (s.start + s.look - s.blockStart) ≤ s.start + s.look + 0; omega
              data := hc.data
              len := by show off + (s.start + s.look) + 0 = _; have := hc.len; omega
              max := hc.max }
    · show s.blockStart + (s.start + s.look - s.blockStart) + 0 = s.start + s.look
      omega
    · show s.dictEnd ≤ s.start + s.look
      have := hi.dict.le; omega
    · exact hi.dict.within
  · rw [if_neg hl]
    obtain ⟨s1, bs1, e1, i1, m1, g1, t1, l1, f1⟩ := steps_inv hs s.look hi (Nat.le_refl _)
    rw [e1]
    simp only [bind, Except.bind]
    by_cases h : s1.minLook = 0 ∧ s1.avail = true
    · rw [if_pos h]
      have c1 := i1.core
      have hp := i1.pos
      rw [h.2] at hp
      have hp' : s1.blockStart + s1.blockLen + 1 = s1.start := hp
      obtain ⟨s2, bs2, e2, c2, w2, p2, f2⟩ := literalByte_core hs c1 (b := s1.buf (s1.start - 1)) (by omega)
        (by rw [c1.data _ (by omega)]; congr 2; omega)
      rw [e2]
      simp only []
      refine ⟨_, bs2, rfl, ?_, by show s2.minLook = _; rw [w2.minLook, m1], by show s2.log2 = _; rw [w2.log2, g1],
        by show s2.look ≤ s2.minLook; rw [w2.look, w2.minLook]; exact l1, fun _ => rfl, ?_⟩
      · refine ⟨c2.moved false rfl, ?_, (i1.dict.win w2).moved false rfl (Nat.le_refl _), (fun h => (nomatch h)), by show s2.prevMatch < _; rw [w2.prevMatch]; exact i1.small⟩
        show s2.blockStart + s2.blockLen + 0 = s2.start
        rw [w2.start]; omega
      · intro hb
        rcases f2 hb with h | h
        · exact f1 h
        · have := c1.len
          rw [Deflator.dsize, g1] at h
          exact .inr (by rw [Deflator.dsize]; omega)
    · rw [if_neg h]
      refine ⟨s1, bs1, rfl, i1, m1, g1, l1, fun h0 => ?_, f1⟩
      cases ha : s1.avail with
      | false => rfl
      | true => exact absurd ⟨h0, ha⟩ h

end
end Verif.Flate
