import Verif.Flate.InflatorProofs
import Verif.Flate.TotalProofs

/-!
# The Inflator on arbitrary input
-/
namespace Verif.Flate

/-! ## The reader -/

/-- The buffer holds no more than the bits counted, or nothing but zeros: after `GetBits` has been called with too few
bits left the count has wrapped around. -/
def RSafe (r : Reader) : Prop := r.Ok ∨ (r.buf = 0 ∧ r.bits < 2 ^ 32)

/-- The number of bits left, by the count. -/
def Reader.left (r : Reader) : Nat := r.bits + 8 * r.queue.length

/-- Nothing but zeros. -/
def Zero (r : Reader) : Prop := r.buf = 0 ∧ r.bits < 2 ^ 32 ∧ ∀ b ∈ r.queue, b = 0#8

theorem Zero.safe {r : Reader} (h : Zero r) : RSafe r := .inr ⟨h.1, h.2.1⟩

theorem RSafe.cases {r : Reader} (h : RSafe r) : r.Ok ∨ (32 < r.bits ∧ r.buf = 0 ∧ r.bits < 2 ^ 32) := by
  rcases h with h | ⟨h1, h2⟩
  · exact .inl h
  · by_cases hb : r.bits ≤ 32
    · exact .inl ⟨by rw [h1]; exact Nat.two_pow_pos _, hb⟩
    · exact .inr ⟨by omega, h1, h2⟩

theorem RSafe.lt {r : Reader} (h : RSafe r) : r.bits < 2 ^ 32 := by
  rcases h with h | h
  · exact Nat.lt_of_le_of_lt h.2 (by decide)
  · exact h.2

theorem fillLoop_zero (len : Nat) (q : List Byte) : ∀ n, (∀ b ∈ q, b = 0#8) →
    (fillLoop len q 0 n).2.buf = 0 ∧ (∀ b ∈ (fillLoop len q 0 n).2.queue, b = 0#8) := by
  induction q with
  | nil => intro n _; rw [fillLoop]; split <;> exact ⟨rfl, nofun⟩
  | cons b q ih =>
    intro n h
    rw [fillLoop]
    split
    · rw [h b List.mem_cons_self]
      have : (0 ||| ((0#8).toNat <<< n) % 2 ^ 32) = 0 := by simp
      rw [this]
      exact ih _ (fun c hc => h c (List.mem_cons_of_mem _ hc))
    · exact ⟨rfl, h⟩

theorem fill_safe {r : Reader} (h : RSafe r) {len : Nat} (hlen : len ≤ 25 ∨ (len ≤ 32 ∧ r.bits % 8 = 0)) :
    RSafe (r.fill len).2 ∧ (r.fill len).2.left = r.left ∧ (Zero r → Zero (r.fill len).2) ∧ ((r.fill len).1 = true → len ≤ (r.fill len).2.bits) ∧
    ((r.fill len).1 = false → (r.fill len).2.Ok ∧ (r.fill len).2.queue = [] ∧ (r.fill len).2.bits < len) := by
  rcases h.cases with hr | ⟨h1, h2, h3⟩
  · obtain ⟨f1, f2, f3, f4, f5⟩ := fill_spec hr hlen
    have hl := congrArg List.length f2
    rw [Reader.str_length, Reader.str_length] at hl
    refine ⟨.inl f1, hl, fun hz => ?_, f3, fun he => ⟨f1, f4 he⟩⟩
    have hz' := fillLoop_zero len r.queue r.bits hz.2.2
    rw [← hz.1] at hz'
    rw [hz.1] at hz'
    refine ⟨?_, Nat.lt_of_le_of_lt f1.2 (by decide), ?_⟩
    · rw [Reader.fill, hz.1]; exact hz'.1
    · rw [Reader.fill, hz.1]; exact hz'.2
  · have : r.fill len = (true, r) := fill_full (by omega)
    rw [this]
    exact ⟨h, rfl, id, fun _ => by simp only []; omega, nofun⟩

theorem skip_safe {r : Reader} (h : RSafe r) {len : Nat} (hlen : len ≤ r.bits) :
    RSafe (r.skip len) ∧ (r.skip len).left + len = r.left ∧ (Zero r → Zero (r.skip len)) ∧ (r.skip len).bits = r.bits - len ∧ (r.skip len).queue = r.queue := by
  have hlt := h.lt
  have hb : (r.bits + 2 ^ 32 - len) % 2 ^ 32 = r.bits - len := by omega
  have hbits : (r.skip len).bits = r.bits - len := hb
  have hq : (r.skip len).queue = r.queue := rfl
  have hleft : (r.skip len).left + len = r.left := by rw [Reader.left, Reader.left, hbits, hq]; omega
  have hz : r.buf = 0 → (r.skip len).buf = 0 := fun e => by rw [Reader.skip, e]; simp
  refine ⟨?_, hleft, fun z => ⟨hz z.1, by omega, z.2.2⟩, hbits, hq⟩
  rcases h with h | ⟨h1, h2⟩
  · exact .inl (skip_spec h hlen).1
  · exact .inr ⟨hz h1, by omega⟩

/-- `GetBits` after `FillBuffer` has found enough bits. -/
theorem get_safe {r : Reader} (h : RSafe r) {len : Nat} (hl : len ≤ 25) (hlen : len ≤ r.left) :
    RSafe (r.get len).2 ∧ (r.get len).2.left + len = r.left ∧ (Zero r → Zero (r.get len).2) ∧ (r.get len).1 < 2 ^ len := by
  obtain ⟨f1, f2, f3, f4, f5⟩ := fill_safe h (len := len) (.inl hl)
  have hle : len ≤ (r.fill len).2.bits := by
    cases he : (r.fill len).1 with
    | true => exact f4 he
    | false =>
      obtain ⟨_, g1, g2⟩ := f5 he
      rw [Reader.left, g1, List.length_nil] at f2
      omega
  obtain ⟨s1, s2, s3, _⟩ := skip_safe f1 hle
  refine ⟨s1, by rw [Reader.get, s2, f2], fun z => s3 (f3 z), ?_⟩
  rw [Reader.get, Nat.and_two_pow_sub_one_eq_mod]
  exact Nat.mod_lt _ (Nat.two_pow_pos _)

/-- `GetBits` at any time. -/
theorem get_any {r : Reader} (h : RSafe r) {len : Nat} (hl : len ≤ 25) :
    RSafe (r.get len).2 ∧ ((r.get len).2.left ≤ r.left ∨ Zero (r.get len).2) ∧ (Zero r → Zero (r.get len).2) ∧ (r.get len).1 < 2 ^ len := by
  by_cases hle : len ≤ r.left
  · obtain ⟨g1, g2, g3, g4⟩ := get_safe h hl hle
    exact ⟨g1, .inl (by omega), g3, g4⟩
  · obtain ⟨f1, f2, f3, f4, f5⟩ := fill_safe h (len := len) (.inl hl)
    have he : (r.fill len).1 = false := by
      cases he : (r.fill len).1 with
      | false => rfl
      | true => have := f4 he; rw [Reader.left] at f2; omega
    obtain ⟨g1, g2, g3⟩ := f5 he
    have hz : Zero (r.get len).2 := by
      refine ⟨?_, ?_, ?_⟩
      · rw [Reader.get, Reader.skip]
        simp only []
        rw [Nat.shiftRight_eq_div_pow]
        apply Nat.div_eq_of_lt
        exact Nat.lt_of_lt_of_le g1.1 (Nat.pow_le_pow_right (by decide) (by omega))
      · rw [Reader.get, Reader.skip]
        exact Nat.mod_lt _ (by decide)
      · rw [Reader.get, Reader.skip]
        simp only []
        rw [g2]; exact nofun
    refine ⟨hz.safe, .inr hz, fun _ => hz, ?_⟩
    rw [Reader.get, Nat.and_two_pow_sub_one_eq_mod]
    exact Nat.mod_lt _ (Nat.two_pow_pos _)

theorem get_zero {r : Reader} (h : Zero r) {len : Nat} (hl : len ≤ 25) : (r.get len).1 = 0 := by
  obtain ⟨f1, f2, f3, f4, f5⟩ := fill_safe h.safe (len := len) (.inl hl)
  rw [Reader.get, (f3 h).1]
  simp

/-- `Decode` at any time. -/
theorem decodeSym_safe {d : Decoder} {n : Nat} (hd : DOk d n) {r : Reader} (h : RSafe r) :
    ∃ b v r', decodeSym d r = .ok (b, v, r') ∧ RSafe r' ∧ v < n ∧ (Zero r → Zero r') ∧ (b = true → r'.left + 1 ≤ r.left) ∧ (b = false → r'.left = r.left) := by
  have h15 := hd.max
  obtain ⟨f1, f2, f3, f4, f5⟩ := fill_safe h (len := d.maxBits) (.inl (by omega))
  obtain ⟨v, l, e1, e2, e3, e4⟩ := hd.total (r.fill d.maxBits).2.buf
  unfold decodeSym
  rw [e1]
  by_cases hb : l > (r.fill d.maxBits).2.bits
  · simp only [if_pos hb]
    exact ⟨_, _, _, rfl, f1, e4, f3, nofun, fun _ => f2⟩
  · simp only [if_neg hb]
    obtain ⟨s1, s2, s3, _⟩ := skip_safe f1 (len := l) (by omega)
    exact ⟨_, _, _, rfl, s1, e4, fun z => s3 (f3 z), fun _ => by omega, nofun⟩

/-! ## The header -/

/-- `r'` comes after `r`: less is left, or nothing but zeros. -/
structure After (r r' : Reader) : Prop where
  safe : RSafe r'
  left : r'.left ≤ r.left ∨ Zero r'
  zero : Zero r → Zero r'

theorem After.refl {r : Reader} (h : RSafe r) : After r r := ⟨h, .inl (Nat.le_refl _), id⟩

theorem After.trans {r s t : Reader} (h : After r s) (k : After s t) : After r t := by
  refine ⟨k.safe, ?_, fun z => k.zero (h.zero z)⟩
  rcases h.left with h1 | h1
  · rcases k.left with h2 | h2
    · exact .inl (by omega)
    · exact .inr h2
  · exact .inr (k.zero h1)

theorem readClens_safe (n : Nat) : ∀ (i : Nat) (r : Reader) (a : Nat → Nat), RSafe r → (∀ k, a k < 8) →
    After r (readClens n i r a).1 ∧ ∀ k, (readClens n i r a).2 k < 8 := by
  induction n with
  | zero => intro i r a h ha; exact ⟨.refl h, ha⟩
  | succ n ih =>
    intro i r a h ha
    obtain ⟨g1, g2, g3, g4⟩ := get_any h (len := 3) (by decide)
    rw [readClens]
    obtain ⟨i1, i2⟩ := ih (i + 1) (r.get 3).2 (put a (order.getD i 0) (r.get 3).1) g1 (by
      intro k; rw [put]; split
      · exact g4
      · exact ha k)
    exact ⟨.trans ⟨g1, g2, g3⟩ i1, i2⟩

/-- The only way to end is with the list complete, or with an exception. -/
theorem readLens_safe {d : Decoder} {n : Nat} (hd : DOk d n) (hn : n ≤ 19) {total cap : Nat} (hcap : total ≤ cap) (f : Nat) :
    ∀ (acc : List Nat) (r : Reader), RSafe r → acc.length ≤ total → total < f + acc.length → (∀ x ∈ acc, x ≤ 15) →
    readLens d total f acc r cap = .error .invalidDataFormat ∨
      ∃ lens r', readLens d total f acc r cap = .ok (lens, r') ∧ After r r' ∧ lens.length = total ∧ ∀ x ∈ lens, x ≤ 15 := by
  induction f with
  | zero => intro acc r _ h1 h2; omega
  | succ f ih =>
    intro acc r hr h1 h2 h3
    rw [readLens]
    by_cases hlt : acc.length < total
    · rw [if_pos hlt]
      obtain ⟨b, v, r', e1, e2, e3, e4, e5, e6⟩ := decodeSym_safe hd hr
      rw [e1]
      cases b with
      | false => exact .inl rfl
      | true =>
        simp only []
        have hafter : After r r' := ⟨e2, .inl (by have := e5 rfl; omega), e4⟩
        -- one entry of the list
        have key : ∀ (count rep : Nat) (r'' : Reader), 1 ≤ count → rep ≤ 15 → After r r'' →
            ((if acc.length + count > total then (.error .invalidDataFormat : Except Err (List Nat × Reader))
              else if acc.length + count > cap then .error .undefinedBehaviour
              else readLens d total f (acc ++ List.replicate count rep) r'' cap) = .error .invalidDataFormat ∨
            ∃ lens r', (if acc.length + count > total then (.error .invalidDataFormat : Except Err (List Nat × Reader))
              else if acc.length + count > cap then .error .undefinedBehaviour
              else readLens d total f (acc ++ List.replicate count rep) r'' cap) = .ok (lens, r') ∧ After r r' ∧ lens.length = total ∧ ∀ x ∈ lens, x ≤ 15) := by
          intro count rep r'' hc hrep ha
          by_cases c1 : acc.length + count > total
          · rw [if_pos c1]; exact .inl rfl
          · rw [if_neg c1, if_neg (by omega)]
            rcases ih (acc ++ List.replicate count rep) r'' ha.safe (by simp; omega) (by simp; omega) (by
              intro x hx
              rcases List.mem_append.1 hx with hx | hx
              · exact h3 x hx
              · rw [(List.mem_replicate.1 hx).2]; exact hrep) with h | ⟨lens, r3, a1, a2, a3⟩
            · exact .inl h
            · exact .inr ⟨lens, r3, a1, ha.trans a2, a3⟩
        have hget : ∀ m, m ≤ 25 → (r'.fill m).1 ≠ false → After r ((r'.fill m).2.get m).2 := by
          intro m hm hf
          obtain ⟨f1, f2, f3, f4, f5⟩ := fill_safe e2 (len := m) (.inl hm)
          have := f4 (by simpa using hf)
          obtain ⟨g1, g2, g3, g4⟩ := get_safe f1 hm (by rw [Reader.left]; omega)
          exact hafter.trans ⟨g1, .inl (by omega), fun z => g3 (f3 z)⟩
        by_cases c1 : v ≤ 15
        · rw [if_pos c1]; exact key 1 v r' (by omega) c1 hafter
        rw [if_neg c1]
        by_cases c2 : v = 16
        · rw [if_pos c2]
          by_cases c3 : (r'.fill 2).1 = false
          · rw [if_pos c3]; exact .inl rfl
          rw [if_neg c3]
          by_cases c4 : acc.length = 0
          · rw [if_pos c4]; exact .inl rfl
          rw [if_neg c4]
          refine key _ _ _ (by omega) ?_ (hget 2 (by decide) c3)
          refine h3 _ ?_
          rw [List.getD_eq_getElem?_getD, List.getElem?_eq_getElem (by omega)]
          exact List.getElem_mem _
        rw [if_neg c2]
        by_cases c3 : v = 17
        · rw [if_pos c3]
          by_cases c4 : (r'.fill 3).1 = false
          · rw [if_pos c4]; exact .inl rfl
          rw [if_neg c4]
          exact key _ _ _ (by omega) (by omega) (hget 3 (by decide) c4)
        rw [if_neg c3]
        have c4 : v = 18 := by omega
        rw [if_pos c4]
        by_cases c5 : (r'.fill 7).1 = false
        · rw [if_pos c5]; exact .inl rfl
        rw [if_neg c5]
        exact key _ _ _ (by omega) (by omega) (hget 7 (by decide) c5)
    · rw [if_neg hlt]
      exact .inr ⟨acc, r, rfl, .refl hr, by omega, h3⟩

/-- The lengths of the code length code are below 8. -/
theorem clens_ok {a : Nat → Nat} (h : ∀ k, a k < 8) : ∀ l ∈ (List.range 19).map a, l ≤ 15 := by
  intro l hl
  obtain ⟨k, _, rfl⟩ := List.mem_map.1 hl
  have := h k
  omega

theorem decoderInit_error {lens : List Nat} {e : Err} (hn : lens.length ≤ 2 ^ 16) (h15 : ∀ l ∈ lens, l ≤ 15) (h : decoderInit lens = .error e) :
    e = .invalidDataFormat := by
  have hm := maxLen_le h15
  obtain ⟨next, hs⟩ := startChecked_small hn (maxLen lens) hm
  unfold decoderInit at h
  rw [hs] at h
  simp only [] at h
  repeat' split at h
  all_goals cases h
  all_goals rfl

/-- The decoders for the body of a block. -/
def Decoders (l d : Decoder) : Prop := ∃ n, DOk l n ∧ (n ≤ 257 ∨ ∃ m, DOk d m)

/-- Nothing but the reader and the decoders has changed, and the body of a block comes next. -/
structure HeadOk (s t : Inf) : Prop where
  repeats : t.repeats = s.repeats
  phase : t.phase = .decodingBody
  current : t.current = s.current
  lastFlush : t.lastFlush = s.lastFlush
  next : t.blockType ≠ 0 → t.next = .literal
  type : t.blockType = 0 ∨ t.blockType = 1 ∨ t.blockType = 2 ∧ Decoders t.dynLit t.dynDist

theorem readDynamic_safe {s : Inf} (hr : RSafe s.rd) (hb : s.blockType = 2) {cap : Nat} (hcap : 320 ≤ cap) :
    s.readDynamic cap = .error .invalidDataFormat ∨ ∃ t, s.readDynamic cap = .ok t ∧ HeadOk s t ∧ After s.rd t.rd := by
  obtain ⟨f1, f2, f3, f4, f5⟩ := fill_safe hr (len := 14) (.inl (by decide))
  unfold Inf.readDynamic
  by_cases hf : (s.rd.fill 14).1 = false
  · rw [if_pos hf]; exact .inl rfl
  rw [if_neg hf]
  have h14 := f4 (by simpa using hf)
  have hl14 : 14 ≤ (s.rd.fill 14).2.left := by rw [Reader.left]; omega
  obtain ⟨a1, a2, a3, a4⟩ := get_safe f1 (len := 5) (by decide) (by omega)
  rcases hg1 : (s.rd.fill 14).2.get 5 with ⟨hlit, r1⟩
  rw [hg1] at a1 a2 a3 a4
  obtain ⟨b1, b2, b3, b4⟩ := get_safe a1 (len := 5) (by decide) (by simp only [] at a2 ⊢; omega)
  rcases hg2 : r1.get 5 with ⟨hdist, r2⟩
  rw [hg2] at b1 b2 b3 b4
  obtain ⟨c1, c2, c3, c4⟩ := get_safe b1 (len := 4) (by decide) (by simp only [] at a2 b2 ⊢; omega)
  rcases hg3 : r2.get 4 with ⟨hclen, r3⟩
  rw [hg3] at c1 c2 c3 c4
  obtain ⟨d1, d2⟩ := readClens_safe (hclen + 4) 0 r3 (fun _ => 0) c1 (fun _ => by decide)
  rcases hg4 : readClens (hclen + 4) 0 r3 (fun _ => 0) with ⟨r4, a⟩
  rw [hg4] at d1 d2
  simp only [] at a1 a2 a3 a4 b1 b2 b3 b4 c1 c2 c3 c4 d1 d2
  simp only [hg2, hg3, hg4]
  have hAfter4 : After s.rd r4 := After.trans ⟨c1, .inl (by omega), fun z => c3 (b3 (a3 (f3 z)))⟩ d1
  cases hd : decoderInit ((List.range 19).map a) with
  | error e =>
    have := decoderInit_error (by simp) (clens_ok d2) hd
    subst this
    exact .inl rfl
  | ok d =>
    simp only []
    have hdo := decoder_total (by simp) (clens_ok d2) hd
    rcases readLens_safe hdo (by simp) (total := hlit + 257 + hdist + 1) (cap := cap) (by omega) (hlit + 257 + hdist + 2) [] r4 d1.safe (by simp)
      (by simp) (by simp) with hx | ⟨lens, r5, e1, e2, e3, e4⟩
    · rw [hx]; exact .inl rfl
    · rw [e1]
      simp only []
      have hAfter5 := hAfter4.trans e2
      have ht : ∀ l ∈ lens.take (hlit + 257), l ≤ 15 := fun l hl => e4 l (List.mem_of_mem_take hl)
      have hdr : ∀ l ∈ lens.drop (hlit + 257), l ≤ 15 := fun l hl => e4 l (List.mem_of_mem_drop hl)
      cases hdl : decoderInit (lens.take (hlit + 257)) with
      | error e =>
        have := decoderInit_error (by simp; omega) ht hdl
        subst this
        exact .inl rfl
      | ok dl =>
        simp only []
        have hdlo := decoder_total (by simp; omega) ht hdl
        rw [List.length_take_of_le (by omega)] at hdlo
        by_cases hz : hdist = 0 ∧ lens.getD (hlit + 257) 0 = 0
        · rw [if_pos hz]
          by_cases hl0 : hlit ≠ 0
          · rw [if_pos hl0]; exact .inl rfl
          · rw [if_neg hl0]
            refine .inr ⟨_, rfl, ⟨rfl, rfl, rfl, rfl, fun _ => rfl, .inr (.inr ⟨hb, _, hdlo, .inl (by omega)⟩)⟩, hAfter5⟩
        · rw [if_neg hz]
          cases hdd : decoderInit (lens.drop (hlit + 257)) with
          | error e =>
            have := decoderInit_error (by simp; omega) hdr hdd
            subst this
            exact .inl rfl
          | ok dd =>
            have hddo := decoder_total (by simp; omega) hdr hdd
            refine .inr ⟨_, rfl, ⟨rfl, rfl, rfl, rfl, fun _ => rfl, .inr (.inr ⟨hb, _, hdlo, .inr ⟨_, hddo⟩⟩)⟩, hAfter5⟩

theorem readStored_safe {s : Inf} (hr : RSafe s.rd) (hb : s.blockType = 0) :
    s.readStored = .error .invalidDataFormat ∨ ∃ t, s.readStored = .ok t ∧ HeadOk s t ∧ RSafe t.rd ∧ t.rd.left ≤ s.rd.left ∧ ¬ Zero s.rd := by
  obtain ⟨s1, s2, s3, s4, s5⟩ := skip_safe hr (len := s.rd.bits % 8) (Nat.mod_le _ _)
  have hal : (s.rd.skip (s.rd.bits % 8)).bits % 8 = 0 := by rw [s4]; omega
  obtain ⟨f1, f2, f3, f4, f5⟩ := fill_safe s1 (len := 32) (.inr ⟨by decide, hal⟩)
  unfold Inf.readStored
  by_cases hf : ((s.rd.skip (s.rd.bits % 8)).fill 32).1 = false
  · rw [if_pos hf]; exact .inl rfl
  rw [if_neg hf]
  have h32 := f4 (by simpa using hf)
  have hl32 : 32 ≤ ((s.rd.skip (s.rd.bits % 8)).fill 32).2.left := by rw [Reader.left]; omega
  generalize ((s.rd.skip (s.rd.bits % 8)).fill 32).2 = r at *
  obtain ⟨a1, a2, a3, a4⟩ := get_safe f1 (len := 16) (by decide) (by omega)
  have hz1 := fun z => get_zero (r := r) z (len := 16) (by decide)
  rcases hg1 : r.get 16 with ⟨len, r1⟩
  rw [hg1] at a1 a2 a3 a4 hz1
  obtain ⟨b1, b2, b3, b4⟩ := get_safe a1 (len := 16) (by decide) (by simp only [] at a2 ⊢; omega)
  have hz2 := fun z => get_zero (r := r1) z (len := 16) (by decide)
  rcases hg2 : r1.get 16 with ⟨nlen, r2⟩
  rw [hg2] at b1 b2 b3 b4 hz2
  simp only [] at a1 a2 a3 a4 b1 b2 b3 b4 hz1 hz2
  simp only [hg2]
  by_cases hc : nlen ≠ 65535 - len
  · rw [if_pos hc]; exact .inl rfl
  · rw [if_neg hc]
    refine .inr ⟨_, rfl, ⟨rfl, rfl, rfl, rfl, fun h => absurd hb h, .inl hb⟩, b1, by simp only []; omega, fun z => hc ?_⟩
    have z1 := f3 (s3 z)
    rw [hz1 z1, hz2 (a3 z1)]
    decide

/-- `DecodeHeader` on any input, with an array that is long enough. -/
theorem decodeHeader_safe {s : Inf} (hr : RSafe s.rd) {cap : Nat} (hcap : 320 ≤ cap) :
    s.decodeHeader cap = .error .invalidDataFormat ∨
      ∃ t, s.decodeHeader cap = .ok t ∧ HeadOk s t ∧ RSafe t.rd ∧ (t.rd.left + 3 ≤ s.rd.left ∨ Zero t.rd) ∧ ¬ Zero s.rd ∧ 3 ≤ s.rd.left := by
  obtain ⟨f1, f2, f3, f4, f5⟩ := fill_safe hr (len := 3) (.inl (by decide))
  unfold Inf.decodeHeader
  by_cases hf : (s.rd.fill 3).1 = false
  · rw [if_pos hf]; exact .inl rfl
  rw [if_neg hf]
  have h3 := f4 (by simpa using hf)
  have hl3 : 3 ≤ (s.rd.fill 3).2.left := by rw [Reader.left]; omega
  obtain ⟨a1, a2, a3, a4⟩ := get_safe f1 (len := 1) (by decide) (by omega)
  rcases hg1 : (s.rd.fill 3).2.get 1 with ⟨eof, r1⟩
  rw [hg1] at a1 a2 a3 a4
  obtain ⟨b1, b2, b3, b4⟩ := get_safe a1 (len := 2) (by decide) (by simp only [] at a2 ⊢; omega)
  have hz2 := fun z => get_zero (r := r1) z (len := 2) (by decide)
  rcases hg2 : r1.get 2 with ⟨type, r2⟩
  rw [hg2] at b1 b2 b3 b4 hz2
  simp only [] at a1 a2 a3 a4 b1 b2 b3 b4 hz2
  simp only [hg2]
  have hz : Zero s.rd → type = 0 ∧ Zero r2 := fun z => ⟨hz2 (a3 (f3 z)), b3 (a3 (f3 z))⟩
  have hleft : r2.left + 3 = s.rd.left := by omega
  by_cases t0 : type = 0
  · rw [if_pos t0]
    rcases readStored_safe (s := { s with rd := r2, eof := eof != 0, blockType := type }) b1 t0 with h | ⟨t, h1, h2, h3, h4, h5⟩
    · exact .inl h
    · exact .inr ⟨t, h1, ⟨h2.1, h2.2, h2.3, h2.4, h2.5, h2.6⟩, h3, .inl (by simp only [] at h4; omega), fun z => h5 (hz z).2, by omega⟩
  rw [if_neg t0]
  have hnz : ¬ Zero s.rd := fun z => t0 (hz z).1
  by_cases t1 : type = 1
  · rw [if_pos t1]
    exact .inr ⟨_, rfl, ⟨rfl, rfl, rfl, rfl, fun _ => rfl, .inr (.inl t1)⟩, b1, .inl (by simp only []; omega), hnz, by omega⟩
  rw [if_neg t1]
  by_cases t2 : type = 2
  · rw [if_pos t2]
    rcases readDynamic_safe (s := { s with rd := r2, eof := eof != 0, blockType := type }) b1 t2 hcap with h | ⟨t, h1, h2, h3⟩
    · exact .inl h
    · refine .inr ⟨t, h1, ⟨h2.1, h2.2, h2.3, h2.4, h2.5, h2.6⟩, h3.safe, ?_, hnz, by omega⟩
      rcases h3.left with h | h
      · exact .inl (by simp only [] at h; omega)
      · exact .inr h
  · rw [if_neg t2]; exact .inl rfl

end Verif.Flate
