import Verif.Flate.MatchProofs
import Verif.Flate.InflatorProofs

/-!
# The window, and whole messages
-/
namespace Verif.Flate

theorem hashIn_append {inp : List Byte} (t : List Byte) {log2 k : Nat} (h : k + 3 ≤ inp.length) : hashIn (inp ++ t) log2 k = hashIn inp log2 k := by
  rw [hashIn, hashIn, List.getD_eq_getElem?_getD, List.getD_eq_getElem?_getD, List.getD_eq_getElem?_getD, List.getElem?_append_left (by omega),
    List.getElem?_append_left (by omega), List.getElem?_append_left (by omega)]
  simp only [List.getD_eq_getElem?_getD]

theorem getD_left {inp : List Byte} (t : List Byte) {k : Nat} (h : k < inp.length) : (inp ++ t).getD k 0 = inp.getD k 0 := by
  rw [List.getD_eq_getElem?_getD, List.getD_eq_getElem?_getD, List.getElem?_append_left h]

theorem getD_right {inp : List Byte} (t : List Byte) {k : Nat} (h : inp.length ≤ k) : (inp ++ t).getD k 0 = t.getD (k - inp.length) 0 := by
  rw [List.getD_eq_getElem?_getD, List.getD_eq_getElem?_getD, List.getElem?_append_right h]

theorem Repeats.append {inp : List Byte} {p d n : Nat} (h : Repeats inp p d n) (t : List Byte) : Repeats (inp ++ t) p d n := by
  have := h.len
  refine ⟨h.pos, h.le, h.back, h.min, h.max, by rw [List.length_append]; omega, fun i hi => ?_⟩
  rw [getD_left t (by omega), getD_left t (by omega)]
  exact h.eq i hi

section
variable {base inp : List Byte} {off : Nat} {bs : List Block} {s : Deflator}

/-- More data after the lookahead. -/
theorem Inv.append (hi : Inv base inp off bs s) (t : List Byte) (hm : s.start + s.look + t.length ≤ s.maxBlock) :
    Inv base (inp ++ t) off bs { s with
      buf := fun i => if s.start + s.look ≤ i ∧ i < s.start + s.look + t.length then t.getD (i - (s.start + s.look)) 0 else s.buf i
      look := s.look + t.length } := by
  have hc := hi.core
  have hlen := hc.len
  have hb := hc.bound
  have hd := hi.dict
  have hle := hd.le
  refine ⟨?_, hi.pos, ⟨hd.le, ?_, ?_, ?_⟩, fun h => (hi.mat h).append t, hi.small⟩
  · exact { log := hc.log, wok := hc.wok, wstr := hc.wstr
            prod := by
              show Produces 0 [] bs ((inp ++ t).take (off + s.blockStart))
              rw [List.take_append_of_le_length (by omega)]; exact hc.prod
            tok := ⟨hc.tok.ok, hc.tok.lit, hc.tok.dist⟩, few := hc.few, sum := hc.sum
            run := by
              intro h
              show runItems ((inp ++ t).take (off + s.blockStart)) (s.toks.map Tok.item) = some ((inp ++ t).take (off + s.blockStart + s.blockLen))
              rw [List.take_append_of_le_length (by omega), List.take_append_of_le_length (by omega)]
              exact hc.run h
            bound := by show s.blockStart + s.blockLen ≤ s.start + (s.look + t.length); omega
            data := by
              intro i hi'
              replace hi' : i < s.start + (s.look + t.length) := hi'
              show (if _ then _ else _) = _
              by_cases h : s.start + s.look ≤ i
              · rw [if_pos ⟨h, by omega⟩, getD_right t (by omega)]
                congr 1; omega
              · rw [if_neg (fun h' => h h'.1), getD_left t (by omega)]
                exact hc.data i (by omega)
            len := by show off + s.start + (s.look + t.length) = _; rw [List.length_append]; omega
            max := by show s.start + (s.look + t.length) ≤ s.maxBlock; omega }
  · show s.dictEnd = 0 ∨ s.dictEnd + 2 ≤ s.start + (s.look + t.length)
    rcases hd.within with h | h
    · exact .inl h
    · exact .inr (by omega)
  · intro h
    rcases hd.head h with h0 | ⟨h1, h2⟩
    · exact .inl h0
    · refine .inr ⟨h1, ?_⟩
      show hashIn (inp ++ t) s.log2 (off + s.head h) = h
      rw [hashIn_append t (by rcases hd.within with hw | hw <;> omega), h2]
  · intro c h1 h2
    have h1' : c < s.dictEnd := h1
    rcases hd.prev c h1' h2 with h0 | ⟨h3, h4⟩
    · exact .inl h0
    · refine .inr ⟨h3, ?_⟩
      show hashIn (inp ++ t) s.log2 (off + s.prev (c % s.dsize)) = hashIn (inp ++ t) s.log2 (off + c)
      rw [hashIn_append t (by rcases hd.within with hw | hw <;> omega), hashIn_append t (by rcases hd.within with hw | hw <;> omega)]
      exact h4

/-- The window is moved by its size. -/
theorem Inv.slide (hi : Inv base inp off bs s) (h1 : s.maxBlock - 258 ≤ s.start) (h2 : s.dsize ≤ s.blockStart) :
    ∃ s', s.slide = .ok s' ∧ Inv base inp (off + s.dsize) bs s' ∧ s'.minLook = s.minLook ∧ s'.log2 = s.log2 ∧ s'.look = s.look ∧
      s'.start + s.dsize = s.start ∧ s'.blockLen = s.blockLen := by
  have hc := hi.core
  have hlen := hc.len
  have hb := hc.bound
  have hmax := hc.max
  have hpos := hi.pos
  have hds := dsize_range hc.log
  have hd := hi.dict
  have hle := hd.le
  have hlt := hc.lt
  have hmb : s.maxBlock = min (2 * s.dsize) 65535 := rfl
  rw [Deflator.slide, if_neg (by omega)]
  refine ⟨_, rfl, ⟨?_, ?_, ⟨?_, ?_, ?_, ?_⟩, ?_, ?_⟩, rfl, rfl, rfl, by show s.start - s.dsize + s.dsize = _; omega, rfl⟩
  · exact { log := hc.log, wok := hc.wok, wstr := hc.wstr
            prod := by
              show Produces 0 [] bs (inp.take (off + s.dsize + (s.blockStart - s.dsize)))
              rw [show off + s.dsize + (s.blockStart - s.dsize) = off + s.blockStart by omega]; exact hc.prod
            tok := ⟨hc.tok.ok, hc.tok.lit, hc.tok.dist⟩, few := hc.few, sum := hc.sum
            run := by
              intro h
              show runItems (inp.take (off + s.dsize + (s.blockStart - s.dsize))) (s.toks.map Tok.item) = some (inp.take (off + s.dsize + (s.blockStart - s.dsize) + s.blockLen))
              rw [show off + s.dsize + (s.blockStart - s.dsize) = off + s.blockStart by omega]
              exact hc.run h
            bound := by show s.blockStart - s.dsize + s.blockLen ≤ s.start - s.dsize + s.look; omega
            data := by
              intro i hi'
              replace hi' : i < s.start - s.dsize + s.look := hi'
              show (if i < s.dsize then s.buf (i + s.dsize) else s.buf i) = _
              rw [if_pos (by omega), hc.data _ (by omega)]
              congr 1; omega
            len := by show off + s.dsize + (s.start - s.dsize) + s.look = _; omega
            max := by show s.start - s.dsize + s.look ≤ s.maxBlock; omega }
  · show s.blockStart - s.dsize + s.blockLen + s.avail.toNat = s.start - s.dsize
    omega
  · show (if s.dictEnd < s.dsize then 0 else s.dictEnd - s.dsize) ≤ s.start - s.dsize
    split <;> omega
  · show (if s.dictEnd < s.dsize then 0 else s.dictEnd - s.dsize) = 0 ∨ (if s.dictEnd < s.dsize then 0 else s.dictEnd - s.dsize) + 2 ≤ s.start - s.dsize + s.look
    rcases hd.within with hw | hw
    · left; rw [if_pos (by omega)]
    · split
      · exact .inl rfl
      · right; omega
  · intro h
    show s.head h - s.dsize = 0 ∨ (s.head h - s.dsize < (if s.dictEnd < s.dsize then 0 else s.dictEnd - s.dsize) ∧ hashIn inp s.log2 (off + s.dsize + (s.head h - s.dsize)) = h)
    by_cases h0 : s.head h - s.dsize = 0
    · exact .inl h0
    · rcases hd.head h with h3 | ⟨h3, h4⟩
      · omega
      · right
        rw [if_neg (by omega), show off + s.dsize + (s.head h - s.dsize) = off + s.head h by omega]
        exact ⟨by omega, h4⟩
  · intro c h3 h4
    replace h3 : c < (if s.dictEnd < s.dsize then 0 else s.dictEnd - s.dsize) := h3
    replace h4 : (if s.dictEnd < s.dsize then 0 else s.dictEnd - s.dsize) ≤ c + s.dsize := h4
    by_cases hde : s.dictEnd < s.dsize
    · rw [if_pos hde] at h3; omega
    rw [if_neg hde] at h3 h4
    show s.prev (c % s.dsize) - s.dsize = 0 ∨ (s.prev (c % s.dsize) - s.dsize < c ∧
      hashIn inp s.log2 (off + s.dsize + (s.prev (c % s.dsize) - s.dsize)) = hashIn inp s.log2 (off + s.dsize + c))
    have := hd.prev (c + s.dsize) (by omega) (by omega)
    rw [Nat.add_mod_right] at this
    by_cases h0 : s.prev (c % s.dsize) - s.dsize = 0
    · exact .inl h0
    · rcases this with h5 | ⟨h5, h6⟩
      · omega
      · right
        rw [show off + s.dsize + (s.prev (c % s.dsize) - s.dsize) = off + s.prev (c % s.dsize) by omega, show off + s.dsize + c = off + (c + s.dsize) by omega]
        exact ⟨by omega, h6⟩
  · intro ha
    have hm := hi.mat ha
    have hsm := hi.small
    show Repeats inp (off + s.dsize + (s.start - s.dsize - 1)) ((s.start - s.dsize - 1 + 2 ^ 32 - (s.prevMatch + 2 ^ 32 - s.dsize) % 2 ^ 32) % 2 ^ 32) s.prevLen
    have hp : 1 ≤ s.start - s.dsize := by
      have : s.avail = true := ha
      rw [this] at hpos
      have : s.blockStart + s.blockLen + 1 = s.start := hpos
      omega
    rw [show off + s.dsize + (s.start - s.dsize - 1) = off + (s.start - 1) by omega,
      show (s.start - s.dsize - 1 + 2 ^ 32 - (s.prevMatch + 2 ^ 32 - s.dsize) % 2 ^ 32) % 2 ^ 32 = (s.start - 1 + 2 ^ 32 - s.prevMatch) % 2 ^ 32 by omega]
    exact hm
  · show (s.prevMatch + 2 ^ 32 - s.dsize) % 2 ^ 32 < 2 ^ 32
    exact Nat.mod_lt _ (by decide)

end

section
variable {srt : List Leaf → List Leaf} (hs : IsSort srt) {base inp : List Byte} {off : Nat} {bs : List Block} {s : Deflator}
include hs

theorem endBlock_inv (hi : Inv base inp off bs s) : ∃ s' bs', endBlock srt s false = .ok s' ∧ Inv base inp off bs' s' ∧ Win s s' ∧
    s'.blockLen = 0 ∧ s'.blockStart = s.blockStart + s.blockLen ∧ s'.toks = [] ∧ (bs' ≠ [] → bs ≠ [] ∨ 0 < s.blockLen) := by
  obtain ⟨s', bs', e, c, w, h1, h2, h3, h4⟩ := endBlock_core hs hi.core
  refine ⟨s', bs', e, ⟨c, ?_, hi.dict.win w, ?_, by rw [w.prevMatch]; exact hi.small⟩, w, h1, h2, h3, h4⟩
  · rw [h1, h2, w.avail, w.start]; exact hi.pos
  · rw [w.avail, w.start, w.prevMatch, w.prevLen]; exact hi.mat

theorem fillWindow_inv (hi : Inv base inp off bs s) (hl : s.look ≤ 258) {str : List Byte} (hne : str ≠ []) :
    ∃ n s' off' bs', fillWindow srt s str = .ok (n, s') ∧ 1 ≤ n ∧ n ≤ str.length ∧ Inv base (inp ++ str.take n) off' bs' s' ∧
      s'.minLook = s.minLook ∧ s'.log2 = s.log2 ∧ (bs' ≠ [] → bs ≠ [] ∨ s.dsize / 2 < inp.length) := by
  have hds := dsize_range hi.core.log
  have hlen : 0 < str.length := List.length_pos_iff.2 hne
  rw [fillWindow]
  have first : ∃ s1 off1 bs1, makeRoom srt s = .ok s1 ∧ Inv base inp off1 bs1 s1 ∧ s1.minLook = s.minLook ∧ s1.log2 = s.log2 ∧
      s1.start + s1.look < s1.maxBlock ∧ (bs1 ≠ [] → bs ≠ [] ∨ s.dsize / 2 < inp.length) := by
    have hmb : s.maxBlock = min (2 * s.dsize) 65535 := rfl
    rw [makeRoom]
    by_cases h : s.maxBlock - 258 ≤ s.start
    · rw [if_pos h]
      have hcl := hi.core.len
      by_cases hb : s.blockStart < s.dsize
      · rw [if_pos hb]
        obtain ⟨s', bs', e, i', w, h1, h2, h3, h4⟩ := endBlock_inv hs hi
        have hp := hi.pos
        have ha : s.avail.toNat ≤ 1 := Bool.toNat_le _
        obtain ⟨s2, e2, i2, m2, g2, l2, t2, -⟩ := i'.slide (by rw [w.maxBlock, w.start]; exact h) (by rw [w.dsize, h2]; omega)
        rw [e]
        refine ⟨s2, _, bs', e2, i2, by rw [m2, w.minLook], by rw [g2, w.log2], ?_, fun hne => ?_⟩
        · have : s2.maxBlock = s.maxBlock := by rw [Deflator.maxBlock, Deflator.dsize, g2, w.log2]; rfl
          rw [w.dsize, w.start] at t2
          rw [this, l2, w.look]
          have := hi.core.max
          omega
        · rcases h4 hne with h | h
          · exact .inl h
          · exact .inr (by omega)
      · rw [if_neg hb]
        obtain ⟨s2, e2, i2, m2, g2, l2, t2, -⟩ := hi.slide h (by omega)
        refine ⟨s2, _, bs, e2, i2, m2, g2, ?_, fun h => .inl h⟩
        have : s2.maxBlock = s.maxBlock := by rw [Deflator.maxBlock, Deflator.dsize, g2]; rfl
        rw [this, l2]
        have := hi.core.max
        omega
    · rw [if_neg h]
      exact ⟨s, off, bs, rfl, hi, rfl, rfl, by omega, fun h => .inl h⟩
  obtain ⟨s1, off1, bs1, e1, i1, m1, g1, r1, f1⟩ := first
  rw [e1]
  simp only [bind, Except.bind]
  rw [if_neg (by omega)]
  refine ⟨_, _, off1, bs1, rfl, by omega, by omega, ?_, m1, g1, f1⟩
  generalize hn : min (s1.maxBlock - (s1.start + s1.look)) str.length = n
  have := i1.append (str.take n) (by rw [List.length_take]; omega)
  have hl : (str.take n).length = n := by rw [List.length_take]; omega
  rw [hl] at this
  have hbuf : (fun i => if s1.start + s1.look ≤ i ∧ i < s1.start + s1.look + n then (str.take n).getD (i - (s1.start + s1.look)) 0 else s1.buf i) =
      fun i => if s1.start + s1.look ≤ i ∧ i < s1.start + s1.look + n then str.getD (i - (s1.start + s1.look)) 0 else s1.buf i := by
    funext i
    split
    · rw [List.getD_eq_getElem?_getD, List.getD_eq_getElem?_getD, List.getElem?_take_of_lt (by omega)]
    · rfl
  rw [hbuf] at this
  exact this

theorem putLoop_inv (k : Nat) : ∀ {s : Deflator} {inp : List Byte} {off : Nat} {bs : List Block} {str : List Byte}, Inv base inp off bs s → s.look ≤ 258 → s.minLook = 258 →
    str.length ≤ k → ∃ s' off' bs', putLoop srt k s str = .ok s' ∧ Inv base (inp ++ str) off' bs' s' ∧ s'.look ≤ 258 ∧ s'.minLook = 258 ∧ s'.log2 = s.log2 ∧
      (str = [] → s' = s) ∧ (bs' ≠ [] → bs ≠ [] ∨ s.dsize / 2 < (inp ++ str).length) := by
  induction k with
  | zero =>
    intro s inp off bs str hi hl hm hk
    obtain rfl := List.length_eq_zero_iff.1 (Nat.le_zero.1 hk)
    exact ⟨s, off, bs, rfl, by simpa using hi, hl, hm, rfl, fun _ => rfl, fun h => .inl h⟩
  | succ k ih =>
    intro s inp off bs str hi hl hm hk
    cases str with
    | nil => exact ⟨s, off, bs, rfl, by simpa using hi, hl, hm, rfl, fun _ => rfl, fun h => .inl h⟩
    | cons b str =>
      rw [putLoop]
      obtain ⟨n, s1, off1, bs1, e1, n1, n2, i1, m1, g1, f1⟩ := fillWindow_inv hs hi hl (str := b :: str) (by simp)
      rw [e1]
      simp only [bind, Except.bind]
      obtain ⟨s2, bs2, e2, i2, m2, g2, l2, -, f2⟩ := processBuffer_inv hs i1
      rw [e2]
      simp only []
      have hm2 : s2.minLook = 258 := by rw [m2, m1, hm]
      obtain ⟨s3, off3, bs3, e3, i3, l3, m3, g3, -, f3⟩ := ih (str := (b :: str).drop n) i2 (by omega) hm2
        (by rw [List.length_drop]; omega)
      have happ : inp ++ (b :: str).take n ++ (b :: str).drop n = inp ++ (b :: str) := by rw [List.append_assoc, List.take_append_drop]
      rw [happ] at i3 f3
      refine ⟨s3, off3, bs3, e3, i3, l3, m3, by rw [g3, g2, g1], (fun h => (nomatch h)), fun hb => ?_⟩
      have hgl : ∀ x : Deflator, x.log2 = s.log2 → x.dsize = s.dsize := fun x hx => by rw [Deflator.dsize, hx]; rfl
      have hlen : ((inp ++ (b :: str)).length) = inp.length + (b :: str).length := List.length_append
      rcases f3 hb with h | h
      · rcases f2 h with h | h
        · rcases f1 h with h | h
          · exact .inl h
          · exact .inr (by omega)
        · rw [hgl s1 g1, List.length_append, List.length_take] at h
          exact .inr (by omega)
      · rw [hgl s2 (by rw [g2, g1])] at h
        exact .inr h

/-- Between two calls. -/
structure Live (base inp : List Byte) (off : Nat) (bs : List Block) (s : Deflator) : Prop where
  inv : Inv base inp off bs s
  look : s.look ≤ 258
  minLook : s.minLook = 258

theorem put_live (hl : Live base inp off bs s) (str : List Byte) : ∃ s' off' bs', s.put2 srt str false = .ok s' ∧ Live base (inp ++ str) off' bs' s' ∧
    s'.log2 = s.log2 ∧ (str = [] → s' = s) ∧ (bs' ≠ [] → bs ≠ [] ∨ s.dsize / 2 < (inp ++ str).length) := by
  obtain ⟨s', off', bs', e, i, l, m, g, z, f⟩ := putLoop_inv hs str.length hl.inv hl.look hl.minLook (Nat.le_refl _)
  refine ⟨s', off', bs', ?_, ⟨i, l, m⟩, g, z, f⟩
  rw [Deflator.put2, e]
  rfl

omit hs in
theorem Inv.minLook (hi : Inv base inp off bs s) (k : Nat) : Inv base inp off bs { s with minLook := k } :=
  ⟨⟨hi.core.log, hi.core.wok, hi.core.wstr, hi.core.prod, ⟨hi.core.tok.ok, hi.core.tok.lit, hi.core.tok.dist⟩, hi.core.few, hi.core.sum, hi.core.run,
    hi.core.bound, hi.core.data, hi.core.len, hi.core.max⟩, hi.pos, ⟨hi.dict.le, hi.dict.within, hi.dict.head, hi.dict.prev⟩, hi.mat, hi.small⟩

theorem flush_live (hl : Live base inp off bs s) (hard : Bool) : ∃ s' off' bs', s.isolatedFlush srt hard = .ok s' ∧ Live base inp off' bs' s' ∧ s'.log2 = s.log2 := by
  rw [Deflator.isolatedFlush]
  obtain ⟨s1, bs1, e1, i1, m1, g1, l1, a1, -⟩ := processBuffer_inv hs (hl.inv.minLook 0)
  rw [e1]
  simp only [bind, Except.bind]
  have hm1 : s1.minLook = 0 := m1
  obtain ⟨s2, bs2, e2, i2, w2, b2, p2, t2, -⟩ := endBlock_inv hs (i1.minLook 258)
  rw [e2]
  simp only []
  have hlook : s2.look ≤ 258 := by rw [w2.look]; show s1.look ≤ 258; omega
  have hml : s2.minLook = 258 := w2.minLook
  have hlog : s2.log2 = s.log2 := by rw [w2.log2]; exact g1
  cases hard with
  | false => exact ⟨s2, off, bs2, rfl, ⟨i2, hlook, hml⟩, hlog⟩
  | true =>
    rw [if_pos rfl]
    have hc := i2.core
    obtain ⟨w', b, e, h1, h2, h3, h4, -⟩ := encode_any hs hc hc.wok rfl false (t := 0) (by decide) (fun h => absurd rfl h)
    rw [e]
    simp only []
    refine ⟨_, off, bs2 ++ [b], rfl, ⟨⟨?_, i2.pos, ⟨i2.dict.le, i2.dict.within, i2.dict.head, i2.dict.prev⟩, i2.mat, i2.small⟩, hlook, hml⟩, hlog⟩
    have hp := produces_append h4 bs2 0 [] hc.prod (h3 _ (by rw [hc.wstr, List.length_append, byteBits_length]; omega))
    exact { log := hc.log, wok := h1
            wstr := by
              show w'.str = _
              rw [h2, hc.wstr, List.flatMap_append, List.append_assoc]; simp
            prod := by
              show Produces 0 [] (bs2 ++ [b]) (inp.take (off + s2.blockStart))
              rw [b2] at hp; exact hp
            tok := ⟨hc.tok.ok, hc.tok.lit, hc.tok.dist⟩, few := hc.few, sum := hc.sum, run := hc.run
            bound := hc.bound
            data := hc.data
            len := hc.len
            max := hc.max }

theorem setLevel_live (hl : Live base inp off bs s) {n : Int} (hn : 0 ≤ n ∧ n ≤ 9) : ∃ s' bs', s.setLevel srt n = .ok s' ∧ Live base inp off bs' s' ∧ s'.log2 = s.log2 := by
  rw [Deflator.setLevel, if_neg (fun h => h hn)]
  by_cases he : n = s.level
  · rw [if_pos he]
    exact ⟨s, bs, rfl, hl, rfl⟩
  · rw [if_neg he]
    obtain ⟨s2, bs2, e2, i2, w2, b2, p2, t2, -⟩ := endBlock_inv hs hl.inv
    rw [e2]
    simp only [bind, Except.bind]
    have hc := i2.core
    refine ⟨_, bs2, rfl, ⟨⟨?_, i2.pos, ⟨i2.dict.le, i2.dict.within, i2.dict.head, i2.dict.prev⟩, i2.mat, i2.small⟩, by show s2.look ≤ _; rw [w2.look]; exact hl.look,
      by show s2.minLook = _; rw [w2.minLook]; exact hl.minLook⟩, w2.log2⟩
    exact { log := hc.log, wok := hc.wok, wstr := hc.wstr, prod := hc.prod, tok := ⟨hc.tok.ok, hc.tok.lit, hc.tok.dist⟩, few := hc.few, sum := hc.sum
            run := by
              intro _
              show runItems (inp.take (off + s2.blockStart)) (s2.toks.map Tok.item) = some (inp.take (off + s2.blockStart + s2.blockLen))
              rw [t2, b2]; rfl
            bound := hc.bound, data := hc.data, len := hc.len, max := hc.max }

/-- Nothing has been put in since the last message. -/
structure Fresh (base : List Byte) (s : Deflator) : Prop where
  log : 9 ≤ s.log2 ∧ s.log2 ≤ 15
  w : s.w.Ok ∧ s.w.bits = 0 ∧ s.w.pend = [] ∧ s.w.out = base
  small : s.prevMatch < 2 ^ 32
  avail : s.avail = false
  dictEnd : s.dictEnd = 0
  start : s.start = 0
  look : s.look = 0
  minLook : s.minLook = 258
  toks : s.toks = []
  blockStart : s.blockStart = 0
  blockLen : s.blockLen = 0
  head : s.head = fun _ => 0
  lit : s.litCounts = fun _ => 0
  dist : s.distCounts = fun _ => 0

omit hs in
theorem Fresh.live (hf : Fresh base s) : Live base [] 0 [] s := by
  obtain ⟨w1, w2, w3, w4⟩ := hf.w
  refine ⟨⟨?_, by rw [hf.blockStart, hf.blockLen, hf.avail, hf.start]; rfl, ⟨by rw [hf.dictEnd]; exact Nat.zero_le _, .inl hf.dictEnd, fun h => .inl (by rw [hf.head]), ?_⟩,
    fun h => absurd h (by rw [hf.avail]; decide), hf.small⟩, by rw [hf.look]; decide, hf.minLook⟩
  · exact { log := hf.log, wok := w1
            wstr := by rw [Writer.str, w2, w3, w4]; simp [Flate.bits]
            prod := by rw [hf.blockStart]; rfl
            tok := ⟨fun t ht => (by rw [hf.toks] at ht; exact (nomatch ht)), fun c => by rw [hf.toks, hf.lit]; rfl, fun c => by rw [hf.toks, hf.dist]; rfl⟩
            few := by rw [hf.toks]; exact Nat.zero_le _
            sum := by rw [hf.toks]; exact Nat.zero_le _
            run := by intro _; rw [hf.toks, hf.blockStart, hf.blockLen]; rfl
            bound := by rw [hf.blockStart, hf.blockLen]; omega
            data := fun i hi => by rw [hf.start, hf.look] at hi; omega
            len := by rw [hf.start, hf.look]; rfl
            max := by rw [hf.start, hf.look]; exact Nat.zero_le _ }
  · intro c h; rw [hf.dictEnd] at h; omega

omit hs in
theorem bytes_after {out base : List Byte} {r : List Bool} (h : byteBits out = byteBits base ++ r) : ∃ x, out = base ++ x ∧ byteBits x = r := by
  have hl := congrArg List.length h
  rw [List.length_append, byteBits_length, byteBits_length] at hl
  have e : out.take base.length ++ out.drop base.length = out := List.take_append_drop _ _
  rw [← e, byteBits_append] at h
  obtain ⟨h1, h2⟩ := List.append_inj h (by rw [byteBits_length, byteBits_length, List.length_take]; omega)
  exact ⟨out.drop base.length, by conv_lhs => rw [← e, byteBits_inj h1], h2⟩

omit hs in
theorem put2_true (srt : List Leaf → List Leaf) (s : Deflator) (str : List Byte) : s.put2 srt str true = (s.put2 srt str false).bind fun s => s.put2 srt [] true := by
  rw [Deflator.put2, Deflator.put2]
  cases putLoop srt str.length s str with
  | error e => rfl
  | ok s => rfl

theorem end_live (hl : Live base inp off bs s) : ∃ s' x bs' b pad, s.put2 srt [] true = .ok s' ∧ Fresh (base ++ x) s' ∧ s'.log2 = s.log2 ∧ pad.length < 8 ∧
    byteBits x = blocksBits (bs' ++ [b]) ++ pad ∧ Produces 0 [] (bs' ++ [b]) inp ∧ (bs' ≠ [] → bs ≠ [] ∨ s.dsize / 2 < inp.length) ∧
    (s.level ≠ 0 → s.blockLen = 0 → s.look = 0 → s.avail = false → (∃ is, b = .fixed is) ∨ ∃ h is, b = .dynamic h is) := by
  have e0 : s.put2 srt [] true = (processBuffer srt { s with minLook := 0 }).bind fun s => (endBlock srt s true).bind fun s => .ok { s with w := s.w.flush }.reset := rfl
  rw [e0]
  obtain ⟨s1, bs1, e1, i1, m1, g1, l1, a1, f1⟩ := processBuffer_inv hs (hl.inv.minLook 0)
  have hm1 : s1.minLook = 0 := m1
  have hc := i1.core
  obtain ⟨w', b, lv, dc, ds, e, h1, h2, h3, h4, h5⟩ := endBlock_spec hs hc true (fun h => nomatch h.2)
  rw [e1]
  simp only [Except.bind]
  rw [e]
  have hp := produces_append h4 bs1 0 [] hc.prod (h3 _ (by rw [hc.wstr, List.length_append, byteBits_length]; omega))
  have hpos := i1.pos
  rw [a1 hm1] at hpos
  have hlen := hc.len
  have hall : inp.take (off + s1.blockStart + s1.blockLen) = inp := List.take_of_length_le (by
    have : s1.blockStart + s1.blockLen + 0 = s1.start := hpos
    omega)
  rw [hall] at hp
  obtain ⟨q1, q2, q3, z, q4, q5, q6⟩ := flush_spec h1
  rw [h2, hc.wstr, List.append_assoc, List.append_assoc, ← List.append_assoc (bs1.flatMap _), ← blocksBits_append] at q6
  obtain ⟨x, x1, x2⟩ := bytes_after q6
  refine ⟨_, x, bs1, b, List.replicate z false, rfl, ?_, g1, by simpa using q4, x2, hp, f1, fun v1 v2 v3 v4 => ?_⟩
  · exact { log := hc.log, w := ⟨q1, q2, q3, x1⟩, small := i1.small, avail := rfl, dictEnd := rfl, start := rfl, look := rfl, minLook := rfl, toks := rfl
            blockStart := rfl, blockLen := rfl, head := rfl, lit := rfl, dist := rfl }
  · have : processBuffer srt { s with minLook := 0 } = .ok { s with minLook := 0 } := by
      have st : ∀ k, k = 0 → Deflator.steps srt k { s with minLook := 0 } = .ok { s with minLook := 0 } := by
        rintro _ rfl
        rw [Deflator.steps, if_neg (show ¬ 0 < s.look by omega)]
      rw [processBuffer, if_neg v1, st _ v3]
      show (if _ ∧ s.avail = true then _ else _) = _
      rw [if_neg (fun h => by rw [v4] at h; exact (nomatch h.2))]
    rw [this] at e1
    obtain rfl := Except.ok.inj e1
    exact h5 v2 v1

end
end Verif.Flate
