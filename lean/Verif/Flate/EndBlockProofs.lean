import Verif.Flate.BlockProofs

/-!
# `EndBlock`, `LiteralByte`, `MatchFound`
-/
namespace Verif.Flate

theorem produces_append {m : List Byte} {b : Block} {m' : List Byte} (hr : b.run m = some m') (bs : List Block) : ∀ (pos : Nat) (o : List Byte),
    Produces pos o bs m → b.Valid (pos + (bs.flatMap (Block.bits false)).length) → Produces pos o (bs ++ [b]) m' := by
  induction bs with
  | nil => rintro pos o rfl hv; exact ⟨by simpa using hv, m', hr, rfl⟩
  | cons c bs ih =>
    rintro pos o ⟨h1, o', h2, h3⟩ hv
    refine ⟨h1, o', h2, ih _ _ h3 ?_⟩
    rw [List.flatMap_cons, List.length_append] at hv
    rwa [Nat.add_assoc]

theorem blocksBits_append (b : Block) (bs : List Block) : blocksBits (bs ++ [b]) = bs.flatMap (Block.bits false) ++ b.bits true := by
  induction bs with
  | nil => simp [blocksBits]
  | cons c bs ih =>
    cases bs with
    | nil => simp [blocksBits]
    | cons d bs => simp only [List.cons_append, blocksBits, List.flatMap_cons, List.append_assoc] at ih ⊢; rw [ih]

theorem runItems_append (i : Item) (is : List Item) : ∀ o : List Byte, runItems o (is ++ [i]) = (runItems o is).bind fun o => i.run o := by
  induction is with
  | nil =>
    intro o
    simp only [List.nil_append, runItems, Option.bind_some]
    cases i.run o <;> rfl
  | cons j is ih =>
    intro o
    simp only [List.cons_append, runItems]
    cases j.run o with
    | none => rfl
    | some o => simp only [Option.bind_some]; exact ih o

/-- What the blocks, the tokens and the window have to do with the input `inp`, of which `off` bytes have left the window.
`base` is what was written before this message, `bs` the blocks written since. -/
structure Core (base inp : List Byte) (off : Nat) (bs : List Block) (s : Deflator) : Prop where
  log : 9 ≤ s.log2 ∧ s.log2 ≤ 15
  wok : s.w.Ok
  wstr : s.w.str = byteBits base ++ bs.flatMap (Block.bits false)
  prod : Produces 0 [] bs (inp.take (off + s.blockStart))
  tok : TokInv s
  few : s.toks.length ≤ s.dsize / 2
  sum : s.toks.length ≤ s.blockLen
  run : s.level ≠ 0 → runItems (inp.take (off + s.blockStart)) (s.toks.map Tok.item) = some (inp.take (off + s.blockStart + s.blockLen))
  bound : s.blockStart + s.blockLen ≤ s.start + s.look
  data : ∀ i, i < s.start + s.look → s.buf i = inp.getD (off + i) 0
  len : off + s.start + s.look = inp.length
  max : s.start + s.look ≤ s.maxBlock

/-- The window and the search are the same. -/
structure Win (s s' : Deflator) : Prop where
  log2 : s'.log2 = s.log2
  goodMatch : s'.goodMatch = s.goodMatch
  maxLazy : s'.maxLazy = s.maxLazy
  maxChain : s'.maxChain = s.maxChain
  buf : s'.buf = s.buf
  head : s'.head = s.head
  prev : s'.prev = s.prev
  dictEnd : s'.dictEnd = s.dictEnd
  start : s'.start = s.start
  look : s'.look = s.look
  minLook : s'.minLook = s.minLook
  avail : s'.avail = s.avail
  prevLen : s'.prevLen = s.prevLen
  prevMatch : s'.prevMatch = s.prevMatch

theorem Win.refl (s : Deflator) : Win s s := ⟨rfl, rfl, rfl, rfl, rfl, rfl, rfl, rfl, rfl, rfl, rfl, rfl, rfl, rfl⟩

theorem Win.trans {s s' s'' : Deflator} (h : Win s s') (g : Win s' s'') : Win s s'' :=
  ⟨by rw [g.log2, h.log2], by rw [g.goodMatch, h.goodMatch], by rw [g.maxLazy, h.maxLazy], by rw [g.maxChain, h.maxChain],
    by rw [g.buf, h.buf], by rw [g.head, h.head], by rw [g.prev, h.prev], by rw [g.dictEnd, h.dictEnd], by rw [g.start, h.start],
    by rw [g.look, h.look], by rw [g.minLook, h.minLook], by rw [g.avail, h.avail], by rw [g.prevLen, h.prevLen], by rw [g.prevMatch, h.prevMatch]⟩

theorem Win.dsize {s s' : Deflator} (h : Win s s') : s'.dsize = s.dsize := by rw [Deflator.dsize, h.log2, Deflator.dsize]
theorem Win.maxBlock {s s' : Deflator} (h : Win s s') : s'.maxBlock = s.maxBlock := by rw [Deflator.maxBlock, h.dsize, Deflator.maxBlock]

theorem dsize_range {s : Deflator} (h : 9 ≤ s.log2 ∧ s.log2 ≤ 15) : 512 ≤ s.dsize ∧ s.dsize ≤ 32768 := by
  constructor
  · exact Nat.pow_le_pow_right (by decide : 0 < 2) h.1
  · exact Nat.pow_le_pow_right (by decide : 0 < 2) h.2

theorem take_slice (l : List Byte) (p n : Nat) (h : p + n ≤ l.length) : l.take p ++ (List.range n).map (fun i => l.getD (p + i) 0) = l.take (p + n) := by
  rw [List.take_add]
  congr 1
  apply List.ext_getElem?
  intro i
  rw [List.getElem?_map]
  by_cases hi : i < n
  · rw [List.getElem?_range hi, Option.map_some, List.getElem?_take_of_lt hi, List.getElem?_drop, List.getD_eq_getElem?_getD,
      List.getElem?_eq_getElem (by omega)]; rfl
  · rw [List.getElem?_eq_none (l := List.range n) (by simp; omega), List.getElem?_take_eq_none (by omega)]; rfl

/-- The writer after counting. -/
theorem counted {w w' : Writer} (hw : w.Ok) (h : w.startCounting.Same w') : w'.finishCounting.Ok ∧ w'.finishCounting.str = w.str ∧
    w'.finishCounting.bits = w.bits := by
  obtain ⟨h1, h2, h3, h4, h5⟩ := h
  refine ⟨⟨rfl, ?_, ?_⟩, ?_, h2⟩
  · show w'.bits < 8
    rw [h2]; exact hw.bits
  · show w'.buf < 2 ^ w'.bits
    rw [h1, h2]; exact hw.buf
  · show byteBits (w'.out ++ w'.pend) ++ Flate.bits w'.bits w'.buf = _
    rw [h1, h2, h3, h4]; rfl

section
variable {srt : List Leaf → List Leaf} (hs : IsSort srt) {base inp : List Byte} {off : Nat} {bs : List Block} {s : Deflator}
include hs

/-- The block that a call of `EncodeBlock` writes is one of the format, for the part of the input that it has to cover. -/
theorem encode_any (hc : Core base inp off bs s) {w : Writer} (hw : w.Ok) (hstr : w.str = s.w.str) (eof : Bool) {t : Nat} (ht : t < 3)
    (hl : t ≠ 0 → s.level ≠ 0) : ∃ (w' : Writer) (b : Block), encodeBlock srt s w eof t = .ok w' ∧ w'.Ok ∧ w'.str = s.w.str ++ b.bits eof ∧
      (∀ pos, pos % 8 = s.w.str.length % 8 → b.Valid pos) ∧
      b.run (inp.take (off + s.blockStart)) = some (inp.take (off + s.blockStart + s.blockLen)) ∧
      (t ≠ 0 → (∃ is, b = .fixed is) ∨ ∃ h is, b = .dynamic h is) := by
  have hd := dsize_range hc.log
  obtain rfl | rfl | rfl : t = 0 ∨ t = 1 ∨ t = 2 := by omega
  · have hm := hc.max
    have hb := hc.bound
    rw [Deflator.maxBlock] at hm
    obtain ⟨w', pad, e, h1, h2, h3, -, -, h4⟩ := encode_stored srt (s := s) hw eof (by omega) (by omega)
    refine ⟨w', _, e, h1, by rw [h4, hstr], ?_, ?_, fun h => absurd rfl h⟩
    · intro pos hp
      refine ⟨h2, ?_, ?_⟩
      · rw [hstr] at h3; omega
      · rw [List.length_map, List.length_range]; omega
    · rw [Block.run]
      congr 1
      have : (List.range s.blockLen).map (fun i => s.buf (s.blockStart + i)) =
          (List.range s.blockLen).map fun i => inp.getD (off + s.blockStart + i) 0 := by
        apply List.map_congr_left
        intro i hi
        have := List.mem_range.1 hi
        rw [hc.data _ (by omega), Nat.add_assoc]
      rw [this]
      exact take_slice _ _ _ (by have := hc.len; omega)
  · obtain ⟨w', e, r, v⟩ := encode_fixed srt hc.tok w eof
    obtain ⟨r1, r2⟩ := r.1 hw
    exact ⟨w', .fixed (s.toks.map Tok.item), e, r1, by rw [r2, hstr], fun pos _ => v, hc.run (hl (by decide)), fun _ => .inl ⟨_, rfl⟩⟩
  · obtain ⟨w', e, r, v1, v2⟩ := encode_dynamic hs hc.tok w eof
    obtain ⟨r1, r2⟩ := r.1 hw
    exact ⟨w', .dynamic (headerOf srt s) (s.toks.map Tok.item), e, r1, by rw [r2, hstr], fun pos _ => ⟨v1, v2⟩, hc.run (hl (by decide)), fun _ => .inr ⟨_, _, rfl⟩⟩

omit hs in
/-- An empty block takes ten bits with the fixed codes. -/
theorem static_count (srt : List Leaf → List Leaf) (hc : s.toks = []) (w : Writer) (hw : w.counting = true) (eof : Bool) :
    encodeBlock srt s w eof 1 = .ok { w with count := w.count + 10 } := by
  have h256 : staticLiteral[256]? = some ⟨0, 7⟩ := by decide +kernel
  rw [encodeBlock, if_neg (by decide), if_neg (by decide), hc]
  simp only [putBody, putToks, bind, Except.bind, encode, h256, Writer.putBits, hw, if_true]

theorem endBlock_spec (hc : Core base inp off bs s) (eof : Bool) (hne : ¬(s.blockLen = 0 ∧ eof = false)) :
    ∃ (w' : Writer) (b : Block) (lv dc ds : Nat), endBlock srt s eof = .ok ({ s with level := lv, detectCount := dc, detectSkip := ds }.nextBlock w') ∧ w'.Ok ∧
      w'.str = s.w.str ++ b.bits eof ∧ (∀ pos, pos % 8 = s.w.str.length % 8 → b.Valid pos) ∧
      b.run (inp.take (off + s.blockStart)) = some (inp.take (off + s.blockStart + s.blockLen)) ∧
      (s.blockLen = 0 → s.level ≠ 0 → (∃ is, b = .fixed is) ∨ ∃ h is, b = .dynamic h is) := by
  rw [endBlock, if_neg hne]
  by_cases hl : s.level = 0
  · rw [if_pos hl]
    obtain ⟨w', b, e, h1, h2, h3, h4, -⟩ := encode_any hs hc hc.wok rfl eof (t := 0) (by decide) (fun h => absurd rfl h)
    rw [e]
    simp only [bind, Except.bind]
    by_cases hk : 0 < s.compressible
    · rw [if_pos hk]
      by_cases hk2 : (s.detectCount + 1) % 2 ^ 32 = s.detectSkip
      · rw [if_pos hk2]
        exact ⟨w', b, _, _, s.detectSkip, rfl, h1, h2, h3, h4, fun _ h => absurd hl h⟩
      · rw [if_neg hk2]
        exact ⟨w', b, s.level, _, s.detectSkip, rfl, h1, h2, h3, h4, fun _ h => absurd hl h⟩
    · rw [if_neg hk]
      exact ⟨w', b, s.level, s.detectCount, s.detectSkip, rfl, h1, h2, h3, h4, fun _ h => absurd hl h⟩
  · rw [if_neg hl]
    obtain ⟨w1, e1, r1, -⟩ := encode_fixed srt hc.tok s.w.startCounting eof
    obtain ⟨c1, c2, c3⟩ := counted hc.wok (r1.2 rfl)
    have cnt : s.blockLen = 0 → w1.count = 10 := by
      intro h0
      have ht : s.toks = [] := List.length_eq_zero_iff.1 (by have := hc.sum; omega)
      have := static_count srt ht s.w.startCounting rfl eof
      rw [e1] at this
      have := Except.ok.inj this
      rw [this]; rfl
    rw [e1]
    simp only [bind, Except.bind]
    have dyn : ∃ dl w2, dynamicLength srt s w1.finishCounting eof = .ok (dl, w2) ∧ w2.Ok ∧ w2.str = s.w.str := by
      rw [dynamicLength]
      by_cases hsm : s.blockLen < 128 ∧ s.level < 8
      · exact ⟨_, _, by rw [if_pos hsm], c1, c2⟩
      · obtain ⟨w2, e2, r2, -⟩ := encode_dynamic hs hc.tok w1.finishCounting.startCounting eof
        obtain ⟨d1, d2, -⟩ := counted c1 (r2.2 rfl)
        exact ⟨_, _, by rw [if_neg hsm, e2]; rfl, d1, by rw [d2, c2]⟩
    obtain ⟨dl, w2, ed, k1, k2⟩ := dyn
    rw [ed]
    simp only []
    by_cases hst : 8 * (s.blockLen + 4) + (s.w.bits + 3 + 7) / 8 * 8 - s.w.bits ≤ w1.count ∧
        8 * (s.blockLen + 4) + (s.w.bits + 3 + 7) / 8 * 8 - s.w.bits ≤ dl
    · rw [if_pos hst]
      have hb0 : s.blockLen = 0 → False := by
        intro h0
        have := cnt h0
        have := hst.1
        have := hc.wok.bits
        omega
      obtain ⟨w', b, e, h1, h2, h3, h4, -⟩ := encode_any hs hc k1 k2 eof (t := 0) (by decide) (fun h => absurd rfl h)
      rw [e]
      simp only []
      by_cases hk : 0 < s.compressible
      · rw [if_pos hk]
        exact ⟨w', b, _, s.detectCount, _, rfl, h1, h2, h3, h4, fun h _ => absurd h hb0⟩
      · rw [if_neg hk]
        exact ⟨w', b, s.level, s.detectCount, s.detectSkip, rfl, h1, h2, h3, h4, fun h _ => absurd h hb0⟩
    · rw [if_neg hst]
      obtain ⟨w', b, e, h1, h2, h3, h4, h5⟩ := encode_any hs hc k1 k2 eof (t := if w1.count ≤ dl then 1 else 2) (by split <;> decide)
        (fun _ => hl)
      have h5' := h5 (by split <;> decide)
      rw [e]
      simp only []
      by_cases hk : 0 < s.compressible
      · rw [if_pos hk]
        exact ⟨w', b, s.level, s.detectCount, _, rfl, h1, h2, h3, h4, fun _ _ => h5'⟩
      · rw [if_neg hk]
        exact ⟨w', b, s.level, s.detectCount, s.detectSkip, rfl, h1, h2, h3, h4, fun _ _ => h5'⟩

theorem endBlock_core (hc : Core base inp off bs s) : ∃ s' bs', endBlock srt s false = .ok s' ∧ Core base inp off bs' s' ∧ Win s s' ∧
    s'.blockLen = 0 ∧ s'.blockStart = s.blockStart + s.blockLen ∧ s'.toks = [] ∧ (bs' ≠ [] → bs ≠ [] ∨ 0 < s.blockLen) := by
  by_cases h0 : s.blockLen = 0
  · refine ⟨s, bs, by rw [endBlock, if_pos ⟨h0, rfl⟩], hc, Win.refl s, h0, by omega, ?_, fun h => .inl h⟩
    exact List.length_eq_zero_iff.1 (by have := hc.sum; omega)
  · obtain ⟨w', b, lv, dc, ds, e, h1, h2, h3, h4, -⟩ := endBlock_spec hs hc false (fun h => h0 h.1)
    refine ⟨_, bs ++ [b], e, ?_, ⟨rfl, rfl, rfl, rfl, rfl, rfl, rfl, rfl, rfl, rfl, rfl, rfl, rfl, rfl⟩, rfl, rfl, rfl, fun _ => .inr (by omega)⟩
    have hp := produces_append h4 bs 0 [] hc.prod (h3 _ (by rw [hc.wstr, List.length_append, byteBits_length]; omega))
    exact { log := hc.log, wok := h1
            wstr := by
              show w'.str = _
              rw [h2, hc.wstr, List.flatMap_append, List.append_assoc]; simp
            prod := by
              show Produces 0 [] (bs ++ [b]) (inp.take (off + (s.blockStart + s.blockLen)))
              rw [← Nat.add_assoc]; exact hp
            tok := ⟨fun t ht => (nomatch ht), fun c => rfl, fun c => rfl⟩
            few := Nat.zero_le _
            sum := Nat.zero_le _
            run := fun _ => rfl
            bound := hc.bound
            data := hc.data
            len := hc.len
            max := hc.max }

theorem room_core (hc : Core base inp off bs s) : ∃ s' bs', s.room srt = .ok s' ∧ Core base inp off bs' s' ∧ Win s s' ∧
    s'.blockStart + s'.blockLen = s.blockStart + s.blockLen ∧ s'.toks.length < s'.dsize / 2 ∧
    (bs' ≠ [] → bs ≠ [] ∨ s.dsize / 2 ≤ s.blockLen) := by
  have hd := dsize_range hc.log
  by_cases h : s.toks.length = s.dsize / 2
  · obtain ⟨s', bs', e, c, w, h1, h2, h3, h4⟩ := endBlock_core hs hc
    refine ⟨s', bs', by rw [Deflator.room, if_pos h, e], c, w, by omega, ?_, fun hb => ?_⟩
    · rw [h3, w.dsize]; show 0 < _; omega
    · exact .inr (by have := hc.sum; omega)
  · refine ⟨s, bs, by rw [Deflator.room, if_neg h], hc, Win.refl s, rfl, ?_, fun h => .inl h⟩
    have := hc.few
    omega

theorem literalByte_core (hc : Core base inp off bs s) {b : Byte} (hlt : s.blockStart + s.blockLen < s.start + s.look)
    (hb : b = inp.getD (off + (s.blockStart + s.blockLen)) 0) : ∃ s' bs', literalByte srt s b = .ok s' ∧ Core base inp off bs' s' ∧ Win s s' ∧
    s'.blockStart + s'.blockLen = s.blockStart + s.blockLen + 1 ∧ (bs' ≠ [] → bs ≠ [] ∨ s.dsize / 2 ≤ s.blockLen) := by
  obtain ⟨s1, bs', e, c, w, h1, h2, h3⟩ := room_core hs hc
  rw [literalByte, e]
  simp only [bind, Except.bind]
  rw [if_neg (by omega)]
  refine ⟨_, bs', rfl, ?_, ?_, by show s1.blockStart + (s1.blockLen + 1) = _; omega, h3⟩
  · have hl := c.len
    exact { log := c.log, wok := c.wok, wstr := c.wstr, prod := c.prod
            tok := by
              refine ⟨fun t ht => ?_, fun x => ?_, fun x => ?_⟩
              · rcases List.mem_append.1 ht with h | h
                · exact c.tok.ok t h
                · rw [List.mem_singleton.1 h]; exact .inl b.isLt
              · show tick s1.litCounts b.toNat x = (s1.toks ++ _).countP _
                rw [List.countP_append, tick, c.tok.lit]
                by_cases hx : x = b.toNat
                · rw [if_pos hx]; simp [hx]
                · rw [if_neg hx]; simp; omega
              · show s1.distCounts x = (s1.toks ++ _).countP _
                rw [List.countP_append, c.tok.dist]
                have : ¬257 ≤ b.toNat := by have := b.isLt; omega
                simp [this]
            few := by
              show (s1.toks ++ _).length ≤ s1.dsize / 2
              rw [List.length_append, List.length_singleton]; omega
            sum := by
              show (s1.toks ++ _).length ≤ s1.blockLen + 1
              rw [List.length_append, List.length_singleton]; have := c.sum; omega
            run := by
              intro hlv
              show runItems _ ((s1.toks ++ _).map Tok.item) = some (inp.take (off + s1.blockStart + (s1.blockLen + 1)))
              rw [List.map_append, List.map_singleton, runItems_append, c.run hlv, Option.bind_some, Tok.item,
                if_neg (by have := b.isLt; show ¬257 ≤ b.toNat; omega), Item.run]
              congr 1
              have hlast := take_slice inp (off + s1.blockStart + s1.blockLen) 1 (by have := w.start; have := w.look; omega)
              rw [← Nat.add_assoc, ← hlast]
              simp only [List.range_one, List.map_singleton, Nat.add_zero]
              rw [hb, show off + (s.blockStart + s.blockLen) = off + s1.blockStart + s1.blockLen by omega]
              simp
            bound := by
              show s1.blockStart + (s1.blockLen + 1) ≤ s1.start + s1.look
              rw [w.start, w.look]; omega
            data := c.data, len := c.len, max := c.max }
  · exact ⟨w.log2, w.goodMatch, w.maxLazy, w.maxChain, w.buf, w.head, w.prev, w.dictEnd, w.start, w.look, w.minLook, w.avail, w.prevLen, w.prevMatch⟩

omit hs in
theorem copyBack_take (l : List Byte) (d : Nat) (hd : 1 ≤ d) : ∀ (n p : Nat), d ≤ p → p + n ≤ l.length →
    (∀ i, i < n → l.getD (p + i) 0 = l.getD (p + i - d) 0) → copyBack d n (l.take p) = l.take (p + n) := by
  intro n
  induction n with
  | zero => intro p _ _ _; rfl
  | succ n ih =>
    intro p hp hl h
    rw [copyBack]
    have h0 := h 0 (by omega)
    rw [Nat.add_zero] at h0
    have e : l.take p ++ [(l.take p).getD ((l.take p).length - d) 0] = l.take (p + 1) := by
      have := take_slice l p 1 (by omega)
      rw [← this, List.range_one, List.map_singleton, Nat.add_zero, h0, List.length_take, Nat.min_eq_left (by omega)]
      congr 2
      rw [List.getD_eq_getElem?_getD, List.getD_eq_getElem?_getD, List.getElem?_take_of_lt (by omega)]
    rw [e, ih (p + 1) (by omega) (by omega) (fun i hi => by
      have := h (i + 1) (by omega)
      rw [show p + 1 + i = p + (i + 1) by omega]; exact this)]
    congr 1
    omega

/-- What can be copied from `d` back. -/
structure Repeats (inp : List Byte) (p d n : Nat) : Prop where
  pos : 1 ≤ d
  le : d ≤ 32768
  back : d ≤ p
  min : 3 ≤ n
  max : n ≤ 258
  len : p + n ≤ inp.length
  eq : ∀ i, i < n → inp.getD (p + i) 0 = inp.getD (p + i - d) 0

omit hs in
theorem length_code : ∀ n < 256, 257 ≤ lengthCodes.getD n 0 ∧ lengthCodes.getD n 0 ≤ 285 ∧
    lengthBase.getD (lengthCodes.getD n 0 - 257) 0 ≤ n + 3 ∧
    n + 3 - lengthBase.getD (lengthCodes.getD n 0 - 257) 0 < 2 ^ lengthExtra.getD (lengthCodes.getD n 0 - 257) 0 ∧
    (lengthCodes.getD n 0 = 284 → n + 3 - lengthBase.getD (lengthCodes.getD n 0 - 257) 0 < 31) := by decide +kernel

omit hs in
theorem dist_code {d : Nat} (h1 : 1 ≤ d) (h2 : d ≤ 32768) : ∃ c, (distanceBases.takeWhile fun b => decide (b ≤ d)).length - 1 = c ∧ c < 30 ∧
    distBase.getD c 0 ≤ d ∧ d - distBase.getD c 0 < 2 ^ distExtra.getD c 0 := by
  refine ⟨_, rfl, ?_⟩
  have key : ∀ c : Nat, c < 30 → distBase.getD c 0 ≤ d → d < distBase.getD c 0 + 2 ^ distExtra.getD c 0 →
      (distanceBases.takeWhile fun b => decide (b ≤ d)).length - 1 = c := by
    intro c hc ha hb
    have hsplit : distanceBases = distanceBases.take (c + 1) ++ distanceBases.drop (c + 1) := (List.take_append_drop _ _).symm
    have hfront : ∀ c < 30, ∀ x ∈ distanceBases.take (c + 1), x ≤ distBase.getD c 0 := by decide
    have hback : ∀ c < 30, ∀ x ∈ distanceBases.drop (c + 1), distBase.getD c 0 + 2 ^ distExtra.getD c 0 ≤ x := by decide +kernel
    rw [hsplit, List.takeWhile_append_of_pos (by intro x hx; have := hfront c hc x hx; simp; omega)]
    have : (distanceBases.drop (c + 1)).takeWhile (fun b => decide (b ≤ d)) = [] := by
      cases hdr : distanceBases.drop (c + 1) with
      | nil => rfl
      | cons x l =>
        have := hback c hc x (by rw [hdr]; simp)
        rw [List.takeWhile_cons, if_neg (by simp; omega)]
    rw [this, List.append_nil, List.length_take]
    have : distanceBases.length = 30 := rfl
    omega
  have ex : ∃ c, c < 30 ∧ distBase.getD c 0 ≤ d ∧ d < distBase.getD c 0 + 2 ^ distExtra.getD c 0 := by
    by_contra hc
    have step : ∀ c : Nat, c < 30 → distBase.getD c 0 ≤ d → distBase.getD c 0 + 2 ^ distExtra.getD c 0 ≤ d := by
      intro c h3 h4
      by_contra h5
      exact hc ⟨c, h3, h4, by omega⟩
    have next : ∀ c < 29, distBase.getD (c + 1) 0 = distBase.getD c 0 + 2 ^ distExtra.getD c 0 := by decide +kernel
    have all : ∀ c : Nat, c < 30 → distBase.getD c 0 ≤ d := by
      intro c
      induction c with
      | zero => intro _; exact h1
      | succ c ih => intro h; rw [next c (by omega)]; exact step c (by omega) (ih (by omega))
    have := step 29 (by decide) (all 29 (by decide))
    have e : distBase.getD 29 0 + 2 ^ distExtra.getD 29 0 = 32769 := by decide +kernel
    omega
  obtain ⟨c, k1, k2, k3⟩ := ex
  rw [key c k1 k2 k3]
  exact ⟨k1, k2, by omega⟩

theorem matchFound_core (hc : Core base inp off bs s) {d n : Nat} (hr : Repeats inp (off + (s.blockStart + s.blockLen)) d n) :
    ∃ s' bs', matchFound srt s d n = .ok s' ∧ Core base inp off bs' s' ∧ Win s s' ∧
      s'.blockStart + s'.blockLen = s.blockStart + s.blockLen + n ∧ (bs' ≠ [] → bs ≠ [] ∨ s.dsize / 2 ≤ s.blockLen) := by
  obtain ⟨s1, bs', e, c, w, h1, h2, h3⟩ := room_core hs hc
  have hn1 := hr.min
  have hn2 := hr.max
  have hlen := hr.len
  have hl := c.len
  rw [matchFound, e]
  simp only [bind, Except.bind]
  rw [if_neg (by omega)]
  obtain ⟨l1, l2, l3, l4, l5⟩ := length_code (n - 3) (by omega)
  obtain ⟨dc, ed, d1, d2, d3⟩ := dist_code hr.pos hr.le
  rw [ed, show lengthBases = lengthBase from rfl, show distanceBases = distBase from rfl]
  generalize lengthCodes.getD (n - 3) 0 = lc at *
  rw [show n - 3 + 3 = n by omega] at l3 l4 l5
  refine ⟨_, bs', rfl, ?_, ?_, by show s1.blockStart + (s1.blockLen + n) = _; omega, h3⟩
  · exact { log := c.log, wok := c.wok, wstr := c.wstr, prod := c.prod
            tok := by
              refine ⟨fun t ht => ?_, fun x => ?_, fun x => ?_⟩
              · rcases List.mem_append.1 ht with h | h
                · exact c.tok.ok t h
                · rw [List.mem_singleton.1 h]; exact .inr ⟨l1, l2, l4, l5, d1, d3⟩
              · show tick s1.litCounts lc x = (s1.toks ++ _).countP _
                rw [List.countP_append, tick, c.tok.lit]
                by_cases hx : x = lc
                · rw [if_pos hx]; simp [hx]
                · rw [if_neg hx]; simp; omega
              · show tick s1.distCounts dc x = (s1.toks ++ _).countP _
                rw [List.countP_append, tick, c.tok.dist]
                by_cases hx : x = dc
                · rw [if_pos hx]; simp [hx, l1]
                · rw [if_neg hx]; simp [l1]; omega
            few := by
              show (s1.toks ++ _).length ≤ s1.dsize / 2
              rw [List.length_append, List.length_singleton]; omega
            sum := by
              show (s1.toks ++ _).length ≤ s1.blockLen + n
              rw [List.length_append, List.length_singleton]; have := c.sum; omega
            run := by
              intro hlv
              show runItems _ ((s1.toks ++ _).map Tok.item) = some (inp.take (off + s1.blockStart + (s1.blockLen + n)))
              rw [List.map_append, List.map_singleton, runItems_append, c.run hlv, Option.bind_some, Tok.item, if_pos l1, Item.run]
              simp only []
              have hb := hr.back
              rw [show distBase.getD dc 0 + (d - distBase.getD dc 0) = d by omega,
                show lengthBase.getD (lc - 257) 0 + (n - lengthBase.getD (lc - 257) 0) = n by omega,
                if_pos (by rw [List.length_take]; omega),
                copyBack_take _ _ hr.pos _ _ (by omega) (by omega) (fun i hi => by
                  have := hr.eq i hi
                  rw [show off + s1.blockStart + s1.blockLen = off + (s.blockStart + s.blockLen) by omega]; exact this), Nat.add_assoc]
            bound := by
              show s1.blockStart + (s1.blockLen + n) ≤ s1.start + s1.look
              omega
            data := c.data, len := c.len, max := c.max }
  · exact ⟨w.log2, w.goodMatch, w.maxLazy, w.maxChain, w.buf, w.head, w.prev, w.dictEnd, w.start, w.look, w.minLook, w.avail, w.prevLen, w.prevMatch⟩

end
end Verif.Flate
