import Verif.Flate.SafetyBody
import Verif.Flate.InflatorProps

/-!
# C58: `Inflator` on arbitrary input

Whatever bytes it is given, in whatever calls, the object either carries on or throws the documented exception: no
call runs forever, no table is read and no window written outside its bounds.  With the array of code lengths as it is in
`DecodeHeader` there is one exception, a header announcing more than 318 code lengths; with an array of 320 entries
there is none.  How much comes out is not bounded by what goes in: a header cut short makes the object read four
billion bits that are not there.
-/
namespace Verif.Flate

/-- A call: `Put` of some bytes, with the message end or without, or `Flush`. -/
inductive InflateCall where
  | put (data : List Byte) (messageEnd : Bool)
  | flush (hard : Bool)
deriving DecidableEq, Repr

/-- The calls one after the other.  `cap` is the size of the array `codeLengths`. -/
def Inf.run (spy : List Byte → Nat) (cap : Nat) : Inf → List InflateCall → Except Err Inf
  | s, [] => .ok s
  | s, .put data me :: ops => match s.put spy data me cap with
    | .error e => .error e
    | .ok s => Inf.run spy cap s ops
  | s, .flush hard :: ops => match s.flush spy hard cap with
    | .error e => .error e
    | .ok s => Inf.run spy cap s ops

theorem put_safe {spy : List Byte → Nat} (hspy : SpyOk spy) {cap : Nat} (hcap : 320 ≤ cap) {s : Inf} (h : PInv s) (data : List Byte) (me : Bool) :
    s.put spy data me cap = .error .invalidDataFormat ∨ ∃ t, s.put spy data me cap = .ok t ∧ PInv t := by
  have h' : PInv { s with rd := { s.rd with queue := s.rd.queue ++ data } } := by
    refine ⟨h.rd, h.win, fun hp => ?_⟩
    rcases h.body hp with h0 | ⟨l, d, h1, h2, h3⟩
    · exact .inl h0
    · exact .inr ⟨l, d, h1, h2, h3.rd, h3.win, h3.dec, h3.dist, h3.len, h3.past⟩
  have hlater : s.phase.later ≤ 5 := by cases s.phase <;> decide
  unfold Inf.put
  simp only []
  rcases processInput_safe hspy me hcap (2 * (s.rd.bits + 8 * (s.rd.queue ++ data).length) + 10) _ h' (.inl (by rw [Reader.left]; simp only []; omega)) with
    e | ⟨t, e1, e2⟩
  · rw [e]; exact .inl rfl
  · rw [e1]
    simp only []
    by_cases hm : me = true ∧ ¬ (t.phase = .preStream ∨ t.phase = .afterEnd)
    · rw [if_pos hm]; exact .inl rfl
    · rw [if_neg hm]; exact .inr ⟨t, rfl, e2⟩

theorem flushed_inv {s : Inf} (h : PInv s) : PInv s.flushOutput := by
  obtain ⟨w1, w2⟩ := flushOutput_safe h.win
  obtain ⟨q1, q2, q3, q4⟩ := w2.rest
  have k := w2.keeps
  refine ⟨by rw [q1]; exact h.rd, w1, fun hp => ?_⟩
  rw [k.phase] at hp
  rcases h.body hp with h0 | ⟨l, d, h1, h2, h3⟩
  · exact .inl (k.blockType.trans h0)
  · refine .inr ⟨l, d, ?_, ?_, by rw [q1]; exact h3.rd, w1, h3.dec, by rw [q2]; exact h3.dist, by rw [q2, q3]; exact h3.len, by rw [q2, q3]; exact h3.past⟩
    · rw [← h1]; unfold Inf.litDecoder; rw [k.blockType, k.dynLit]
    · rw [← h2]; unfold Inf.distDecoder; rw [k.blockType, k.dynDist]

theorem flush_safe {spy : List Byte → Nat} (hspy : SpyOk spy) {cap : Nat} (hcap : 320 ≤ cap) {s : Inf} (h : PInv s) (hard : Bool) :
    s.flush spy hard cap = .error .invalidDataFormat ∨ ∃ t, s.flush spy hard cap = .ok t ∧ PInv t := by
  have hlater : s.phase.later ≤ 5 := by cases s.phase <;> decide
  unfold Inf.flush
  cases hard with
  | false => exact .inr ⟨_, rfl, flushed_inv h⟩
  | true =>
    rw [if_pos rfl]
    rcases processInput_safe hspy true hcap (2 * (s.rd.bits + 8 * s.rd.queue.length) + 10) s h (.inl (by rw [Reader.left]; omega)) with e | ⟨t, e1, e2⟩
    · rw [e]; exact .inl rfl
    · rw [e1]; exact .inr ⟨_, rfl, flushed_inv e2⟩

theorem run_safe {spy : List Byte → Nat} (hspy : SpyOk spy) {cap : Nat} (hcap : 320 ≤ cap) (ops : List InflateCall) : ∀ s, PInv s →
    Inf.run spy cap s ops = .error .invalidDataFormat ∨ ∃ t, Inf.run spy cap s ops = .ok t ∧ PInv t := by
  induction ops with
  | nil => intro s h; exact .inr ⟨s, rfl, h⟩
  | cons op ops ih =>
    intro s h
    cases op with
    | put data me =>
      rw [Inf.run]
      rcases put_safe hspy hcap h data me with e | ⟨t, e1, e2⟩
      · rw [e]; exact .inl rfl
      · rw [e1]; exact ih t e2
    | flush hard =>
      rw [Inf.run]
      rcases flush_safe hspy hcap h hard with e | ⟨t, e1, e2⟩
      · rw [e]; exact .inl rfl
      · rw [e1]; exact ih t e2

theorem new_inv (rep : Bool) : PInv { repeats := rep } := ⟨.inl ⟨show 0 < 2 ^ 0 by decide, show 0 ≤ 32 by decide⟩, ⟨show 0 < windowSize by decide, Nat.le_refl _⟩, nofun⟩

/-- With an array of 320 entries or more: any bytes in any calls. -/
theorem inflator_any_input {spy : List Byte → Nat} (hspy : SpyOk spy) {cap : Nat} (hcap : 320 ≤ cap) (rep : Bool) (ops : List InflateCall) :
    Inf.run spy cap { repeats := rep } ops = .error .invalidDataFormat ∨ ∃ t, Inf.run spy cap { repeats := rep } ops = .ok t :=
  (run_safe hspy hcap ops _ (new_inv rep)).imp id fun ⟨t, h, _⟩ => ⟨t, h⟩

/-! ## The array as it is -/

/-- The same, or undefined. -/
def SameOrUndefined {α : Type} (x y : Except Err α) : Prop := x = y ∨ x = .error .undefinedBehaviour

theorem readLens_same (d : Decoder) (total : Nat) {c cap : Nat} (hcap : c ≤ cap) (f : Nat) : ∀ (acc : List Nat) (r : Reader),
    SameOrUndefined (readLens d total f acc r c) (readLens d total f acc r cap) := by
  induction f with
  | zero => intro acc r; exact .inl rfl
  | succ f ih =>
    intro acc r
    rw [readLens, readLens]
    by_cases h : acc.length < total
    · rw [if_pos h, if_pos h]
      cases decodeSym d r with
      | error e => exact .inl rfl
      | ok x =>
        obtain ⟨b, k, r⟩ := x
        cases b with
        | false => exact .inl rfl
        | true =>
          simp only []
          have key : ∀ (count rep : Nat) (r : Reader), SameOrUndefined
              (if acc.length + count > total then (.error .invalidDataFormat : Except Err (List Nat × Reader))
                else if acc.length + count > c then .error .undefinedBehaviour else readLens d total f (acc ++ List.replicate count rep) r c)
              (if acc.length + count > total then .error .invalidDataFormat
                else if acc.length + count > cap then .error .undefinedBehaviour else readLens d total f (acc ++ List.replicate count rep) r cap) := by
            intro count rep r
            by_cases c1 : acc.length + count > total
            · rw [if_pos c1, if_pos c1]; exact .inl rfl
            · rw [if_neg c1, if_neg c1]
              by_cases c2 : acc.length + count > c
              · rw [if_pos c2]; exact .inr rfl
              · rw [if_neg c2, if_neg (by omega)]; exact ih _ _
          by_cases k15 : k ≤ 15
          · rw [if_pos k15, if_pos k15]; exact key _ _ _
          rw [if_neg k15, if_neg k15]
          by_cases k16 : k = 16
          · rw [if_pos k16, if_pos k16]
            by_cases c1 : (r.fill 2).1 = false
            · rw [if_pos c1, if_pos c1]; exact .inl rfl
            rw [if_neg c1, if_neg c1]
            by_cases c2 : acc.length = 0
            · rw [if_pos c2, if_pos c2]; exact .inl rfl
            rw [if_neg c2, if_neg c2]; exact key _ _ _
          rw [if_neg k16, if_neg k16]
          by_cases k17 : k = 17
          · rw [if_pos k17, if_pos k17]
            by_cases c1 : (r.fill 3).1 = false
            · rw [if_pos c1, if_pos c1]; exact .inl rfl
            rw [if_neg c1, if_neg c1]; exact key _ _ _
          rw [if_neg k17, if_neg k17]
          by_cases k18 : k = 18
          · rw [if_pos k18, if_pos k18]
            by_cases c1 : (r.fill 7).1 = false
            · rw [if_pos c1, if_pos c1]; exact .inl rfl
            rw [if_neg c1, if_neg c1]; exact key _ _ _
          rw [if_neg k18, if_neg k18]; exact key _ _ _
    · rw [if_neg h, if_neg h]; exact .inl rfl

theorem readDynamic_same (s : Inf) {c cap : Nat} (hcap : c ≤ cap) : SameOrUndefined (s.readDynamic c) (s.readDynamic cap) := by
  unfold Inf.readDynamic
  by_cases hf : (s.rd.fill 14).1 = false
  · rw [if_pos hf, if_pos hf]; exact .inl rfl
  · rw [if_neg hf, if_neg hf]
    rcases (s.rd.fill 14).2.get 5 with ⟨hlit, r1⟩
    simp only []
    rcases r1.get 5 with ⟨hdist, r2⟩
    simp only []
    rcases r2.get 4 with ⟨hclen, r3⟩
    simp only []
    rcases readClens (hclen + 4) 0 r3 fun _ => 0 with ⟨r4, a⟩
    simp only []
    cases decoderInit ((List.range 19).map a) with
    | error e => exact .inl rfl
    | ok d =>
      simp only []
      rcases readLens_same d (hlit + 257 + hdist + 1) hcap (hlit + 257 + hdist + 2) [] r4 with h | h
      · rw [h]; exact .inl rfl
      · rw [h]; exact .inr rfl

theorem decodeHeader_same (s : Inf) {c cap : Nat} (hcap : c ≤ cap) : SameOrUndefined (s.decodeHeader c) (s.decodeHeader cap) := by
  unfold Inf.decodeHeader
  by_cases hf : (s.rd.fill 3).1 = false
  · rw [if_pos hf, if_pos hf]; exact .inl rfl
  · rw [if_neg hf, if_neg hf]
    rcases (s.rd.fill 3).2.get 1 with ⟨eof, r1⟩
    simp only []
    rcases r1.get 2 with ⟨type, r2⟩
    simp only []
    by_cases t0 : type = 0
    · rw [if_pos t0, if_pos t0]; exact .inl rfl
    rw [if_neg t0, if_neg t0]
    by_cases t1 : type = 1
    · rw [if_pos t1, if_pos t1]; exact .inl rfl
    rw [if_neg t1, if_neg t1]
    by_cases t2 : type = 2
    · rw [if_pos t2, if_pos t2]; exact readDynamic_same _ hcap
    rw [if_neg t2, if_neg t2]; exact .inl rfl

theorem processInput_same {spy : List Byte → Nat} {flush : Bool} {c cap : Nat} (hcap : c ≤ cap) (f : Nat) : ∀ s : Inf,
    SameOrUndefined (Inf.processInput spy flush f s c) (Inf.processInput spy flush f s cap) := by
  induction f with
  | zero => intro s; exact .inl rfl
  | succ f ih =>
    intro s
    rw [Inf.processInput, Inf.processInput]
    cases s.phase with
    | preStream => exact ih _
    | waitHeader =>
      simp only []
      by_cases hq : s.rd.queue.length < (if flush = true then 1 else maxHeaderSize)
      · rw [if_pos hq, if_pos hq]; exact .inl rfl
      · rw [if_neg hq, if_neg hq]
        rcases decodeHeader_same s hcap with h | h
        · rw [h]
          cases s.decodeHeader cap with
          | error e => exact .inl rfl
          | ok t => exact ih t
        · rw [h]; exact .inr rfl
    | decodingBody =>
      simp only []
      cases s.decodeBody spy with
      | error e => exact .inl rfl
      | ok x =>
        obtain ⟨b, t⟩ := x
        cases b with
        | false => exact .inl rfl
        | true => exact ih t
    | postStream =>
      simp only []
      by_cases hq : s.rd.queue.length = 0
      · rw [if_pos hq, if_pos hq]; exact .inl rfl
      · rw [if_neg hq, if_neg hq]; exact ih _
    | afterEnd => exact .inl rfl

theorem run_same {spy : List Byte → Nat} {c cap : Nat} (hcap : c ≤ cap) (ops : List InflateCall) : ∀ s : Inf,
    SameOrUndefined (Inf.run spy c s ops) (Inf.run spy cap s ops) := by
  induction ops with
  | nil => intro s; exact .inl rfl
  | cons op ops ih =>
    intro s
    cases op with
    | put data me =>
      rw [Inf.run, Inf.run]
      have key : SameOrUndefined (s.put spy data me c) (s.put spy data me cap) := by
        unfold Inf.put
        simp only []
        rcases processInput_same (spy := spy) (flush := me) hcap (2 * (s.rd.bits + 8 * (s.rd.queue ++ data).length) + 10)
          { s with rd := { s.rd with queue := s.rd.queue ++ data } } with h | h
        · rw [h]; exact .inl rfl
        · rw [h]; exact .inr rfl
      rcases key with h | h
      · rw [h]
        cases s.put spy data me cap with
        | error e => exact .inl rfl
        | ok t => exact ih t
      · rw [h]; exact .inr rfl
    | flush hard =>
      rw [Inf.run, Inf.run]
      have key : SameOrUndefined (s.flush spy hard c) (s.flush spy hard cap) := by
        unfold Inf.flush
        cases hard with
        | false => rw [if_neg (by decide), if_neg (by decide)]; exact .inl rfl
        | true =>
          generalize 2 * (s.rd.bits + 8 * s.rd.queue.length) + 10 = f
          rw [if_pos (rfl : true = true), if_pos (rfl : true = true)]
          rcases processInput_same (spy := spy) (flush := true) hcap f s with h | h
          · rw [h]; exact .inl rfl
          · rw [h]; exact .inr rfl
      rcases key with h | h
      · rw [h]
        cases s.flush spy hard cap with
        | error e => exact .inl rfl
        | ok t => exact ih t
      · rw [h]; exact .inr rfl

/-- The object as it is.  What is missing: the last case happens (`inflate_header_overflow`); it is the overflow of
`codeLengths`, because with a longer array the same calls have a defined outcome. -/
theorem inflator_any_input_partial {spy : List Byte → Nat} (hspy : SpyOk spy) (rep : Bool) (ops : List InflateCall) :
    Inf.run spy 318 { repeats := rep } ops = .error .invalidDataFormat ∨ (∃ t, Inf.run spy 318 { repeats := rep } ops = .ok t) ∨
    (Inf.run spy 318 { repeats := rep } ops = .error .undefinedBehaviour ∧
      (Inf.run spy 320 { repeats := rep } ops = .error .invalidDataFormat ∨ ∃ t, Inf.run spy 320 { repeats := rep } ops = .ok t)) := by
  have h := inflator_any_input hspy (Nat.le_refl 320) rep ops
  rcases run_same (spy := spy) (c := 318) (cap := 320) (by decide) ops { repeats := rep } with e | e
  · rw [e]
    rcases h with h | h
    · exact .inl h
    · exact .inr (.inl h)
  · exact .inr (.inr ⟨e, h⟩)

/-- Copies from the window stay within it: with every index checked the result is the same.  `BInv` holds whenever the
body of a block is decoded. -/
theorem copy_in_bounds {lit dist : Decoder} {s : Inf} (h : BInv lit dist s) (hn : s.next = .distanceBits) {d : Nat} (hd : 1 ≤ d) :
    s.outputPastC s.literal d = some (s.outputPast s.literal d) :=
  outputPastC_eq h.win (Nat.le_trans (h.past (.inr hn)) (by decide)) hd

/-! ## A header cut short -/

/-- How much has been produced. -/
def Inf.produced (s : Inf) : Nat := s.out.length + (s.current - s.lastFlush)

theorem outputByte_produced {s : Inf} (h : WinSafe s) (b : Byte) : (s.outputByte b).produced = s.produced + 1 := by
  obtain ⟨h1, h2⟩ := h
  unfold Inf.outputByte Inf.wrap
  simp only []
  by_cases hc : s.current + 1 = windowSize
  · rw [if_pos hc]
    simp only [Inf.produced, List.length_append, windowPart, List.length_map, List.length_range']
    omega
  · rw [if_neg hc]
    simp only [Inf.produced]
    omega

/-- Nothing but zeros, each of them the code of the byte 0. -/
theorem zero_flood {lit dist : Decoder} (hm : lit.maxBits = 1) (hc : decodeCode lit 0 = some (0, 1)) (n : Nat) : ∀ (f : Nat) (s : Inf), n < 2 ^ 32 → n < f →
    s.next = .literal → s.rd = ⟨0, n, []⟩ → WinSafe s →
    ∃ t, Inf.bodyLoop lit dist f s = .ok (false, t) ∧ WinSafe t ∧ t.phase = s.phase ∧ t.produced = s.produced + n := by
  induction n with
  | zero =>
    intro f s _ hf hn hr hw
    obtain ⟨f, rfl⟩ : ∃ g, f = g + 1 := ⟨f - 1, by omega⟩
    rw [Inf.bodyLoop, Inf.bodyStep, hn, hr]
    have : decodeSym lit ⟨0, 0, []⟩ = .ok (false, 0, ⟨0, 0, []⟩) := by
      unfold decodeSym
      rw [hm]
      change (match decodeCode lit 0 with | none => _ | some (v, l) => _) = _
      rw [hc]
      rfl
    simp only [this]
    exact ⟨_, rfl, hw, rfl, rfl⟩
  | succ n ih =>
    intro f s hlt hf hn hr hw
    obtain ⟨f, rfl⟩ : ∃ g, f = g + 1 := ⟨f - 1, by omega⟩
    rw [Inf.bodyLoop, Inf.bodyStep, hn, hr]
    have : decodeSym lit ⟨0, n + 1, []⟩ = .ok (true, 0, ⟨0, n, []⟩) := by
      unfold decodeSym
      rw [hm, fill_full (by simp)]
      simp only [hc]
      rw [if_neg (by omega), Reader.skip]
      have : (n + 1 + 2 ^ 32 - 1) % 2 ^ 32 = n := by omega
      simp only [this]
      rfl
    simp only [this]
    rw [if_pos (by decide)]
    obtain ⟨w1, w2⟩ := outputByte_safe (s := { s with rd := ⟨0, n, []⟩, literal := 0, next := .literal }) hw (BitVec.ofNat 8 0)
    have w3 := outputByte_produced (s := { s with rd := ⟨0, n, []⟩, literal := 0, next := .literal }) hw (BitVec.ofNat 8 0)
    obtain ⟨q1, q2, -, -⟩ := w2.rest
    have q3 := w2.keeps.phase
    simp only []
    generalize Inf.outputByte { s with rd := ⟨0, n, []⟩, literal := 0, next := .literal } (BitVec.ofNat 8 0) = u at *
    obtain ⟨t, i1, i2, i3, i4⟩ := ih f u (by omega) (by omega) q2 q1 w1
    refine ⟨t, i1, i2, i3.trans q3, ?_⟩
    rw [i4, w3]
    show s.produced + 1 + n = _
    omega

/-- Nine bytes: a dynamic header that ends in the last of its 19 three-bit lengths. -/
def cutHeader : List Byte := [4, 0xe0, 1, 0, 0, 0, 0, 0, 0x10]

/-- The state after the header has been decoded, as far as it matters. -/
theorem cutHeader_decoded : ∃ l d t, Inf.decodeHeader { phase := .waitHeader, rd := { queue := cutHeader } } 318 = .ok t ∧
    t.litDecoder = .ok l ∧ t.distDecoder = .ok d ∧ l.maxBits = 1 ∧ decodeCode l 0 = some (0, 1) ∧ t.blockType ≠ 0 ∧ t.next = .literal ∧
    t.rd = ⟨0, 4294967036, []⟩ ∧ WinSafe t ∧ t.phase = .decodingBody ∧ t.produced = 0 := by
  have h : (match Inf.decodeHeader { phase := .waitHeader, rd := { queue := cutHeader } } 318 with
    | .error _ => false
    | .ok t => match t.litDecoder, t.distDecoder with
      | .ok l, .ok _ => decide (l.maxBits = 1 ∧ decodeCode l 0 = some (0, 1) ∧ t.blockType ≠ 0 ∧ t.next = .literal ∧
        t.rd = ⟨0, 4294967036, []⟩ ∧ t.current = 0 ∧ t.lastFlush = 0 ∧ t.phase = .decodingBody ∧ t.out = [])
      | _, _ => false) = true := by decide +kernel
  revert h
  generalize Inf.decodeHeader { phase := .waitHeader, rd := { queue := cutHeader } } 318 = x
  intro h
  cases x with
  | error e => exact absurd h nofun
  | ok t =>
    revert h
    simp only []
    rcases hl : t.litDecoder with _ | l
    · exact nofun
    rcases hd : t.distDecoder with _ | d
    · exact nofun
    intro h
    obtain ⟨h1, h2, h3, h4, h5, h6, h7, h8, h9⟩ := of_decide_eq_true h
    refine ⟨l, d, t, rfl, hl, hd, h1, h2, h3, h4, h5, ⟨by rw [h6]; decide, by omega⟩, h8, ?_⟩
    rw [Inf.produced, h6, h7, h9]; rfl

theorem flood_body {spy : List Byte → Nat} {l d : Decoder} {t : Inf} {n : Nat} (h2 : t.litDecoder = .ok l) (h3 : t.distDecoder = .ok d) (h4 : l.maxBits = 1)
    (h5 : decodeCode l 0 = some (0, 1)) (h6 : t.blockType ≠ 0) (h7 : t.next = .literal) (hn : n < 2 ^ 32) (h8 : t.rd = ⟨0, n, []⟩) (h9 : WinSafe t) :
    ∃ u, t.decodeBody spy = .ok (false, u) ∧ u.phase = t.phase ∧ u.produced = t.produced + n := by
  obtain ⟨u, g1, g2, g3, g4⟩ := zero_flood (lit := l) (dist := d) h4 h5 n (4 * (t.rd.bits + 8 * t.rd.queue.length) + 4) t hn
    (by rw [h8]; simp only []; omega) h7 h8 h9
  refine ⟨u, ?_, g3, g4⟩
  unfold Inf.decodeBody
  rw [if_neg h6, h2, h3]
  simp only []
  rw [g1]

/-- Two calls of the loop: the header, and then the body, which is not finished. -/
theorem flush_unfinished {spy : List Byte → Nat} {s t u : Inf} {cap : Nat} (h1 : s.phase = .waitHeader) (h2 : s.rd.queue ≠ []) (h3 : s.decodeHeader cap = .ok t)
    (h4 : t.phase = .decodingBody) (h5 : t.decodeBody spy = .ok (false, u)) : s.flush spy true cap = .ok u.flushOutput := by
  have : ∃ f, 2 * (s.rd.bits + 8 * s.rd.queue.length) + 10 = f + 2 := ⟨2 * (s.rd.bits + 8 * s.rd.queue.length) + 8, rfl⟩
  unfold Inf.flush
  obtain ⟨f, hf⟩ := this
  rw [hf, if_pos rfl, Inf.processInput, h1]
  simp only []
  rw [if_neg (by have := List.length_pos_iff.2 h2; simp only [if_true]; omega), h3]
  simp only []
  rw [Inf.processInput, h4]
  simp only []
  rw [h5]

/-- Four gigabytes out of nine bytes, and no exception.  (For 257 codes of the same length, what the code `0` stands
for is up to `std::sort`; this is for the order in `sortInfos`.) -/
theorem cut_header_flood : ∃ t, Inf.run List.length 318 {} [.put cutHeader false, .flush true] = .ok t ∧ t.out.length = 4294967036 := by
  obtain ⟨l, d, t, h1, h2, h3, h4, h5, h6, h7, h8, h9, h10, h11⟩ := cutHeader_decoded
  obtain ⟨u, g1, g3, g4⟩ := flood_body (spy := List.length) h2 h3 h4 h5 h6 h7 (by decide) h8 h9
  have hput : Inf.put List.length {} cutHeader false 318 = .ok { phase := .waitHeader, rd := { queue := cutHeader } } := rfl
  have hflush := flush_unfinished (spy := List.length) (s := { phase := .waitHeader, rd := { queue := cutHeader } }) (cap := 318) rfl (by decide) h1 h10 g1
  refine ⟨u.flushOutput, ?_, ?_⟩
  · rw [Inf.run, hput]
    show Inf.run List.length 318 { phase := .waitHeader, rd := { queue := cutHeader } } [.flush true] = _
    rw [Inf.run, hflush]
    rfl
  · unfold Inf.flushOutput
    rw [if_pos (by rw [g3, h10]; decide)]
    rw [h11] at g4
    show (u.out ++ windowPart u.window u.lastFlush u.current).length = _
    rw [Inf.produced] at g4
    simp only [List.length_append, windowPart, List.length_map, List.length_range']
    omega

/-- `HuffmanDecoder::Initialize` refuses codes that are not codes, but for three or more codes of length one: `0`, `1`
and again `0`. -/
theorem initialize_accepts_oversubscribed : (∃ d, decoderInit [1, 1, 1] = .ok d) ∧ ¬ ValidCode 15 [1, 1, 1] := by
  constructor
  · exact ⟨_, rfl⟩
  · unfold ValidCode; decide

/-! ## Examples -/

/-- What a sequence of calls makes of it. -/
def outcome (r : Except Err Inf) : Except Err (List Byte) := r.map (·.out)

example : outcome (Inf.run List.length 318 {} [.put (abcStream.take 2) false, .flush true, .put (abcStream.drop 2) false, .flush false, .put [] true]) =
    .ok (("abcabcabcabc".toList.map fun c => BitVec.ofNat 8 c.toNat)) := by decide +kernel

/-- Garbage. -/
example : outcome (Inf.run List.length 318 {} [.put [7, 7, 7] true]) = .error .invalidDataFormat := by decide +kernel

/-- The same calls with the two arrays. -/
example : outcome (Inf.run List.length 318 {} [.put [253, 31, 128, 228, 255, 127, 8] true]) = .error .undefinedBehaviour ∧
    outcome (Inf.run List.length 320 {} [.put [253, 31, 128, 228, 255, 127, 8] true]) = .error .invalidDataFormat := by decide +kernel

/-- A copy that is longer than its distance, from the start of the window. -/
example : ∃ (lit dist : Decoder) (s : Inf), BInv lit dist s ∧ s.next = .distanceBits ∧ s.literal = 9 ∧ s.current = 3 := by
  obtain ⟨l, d, -, hd, hld⟩ := fixed_decoders
  refine ⟨l, d, { next := .distanceBits, literal := 9, current := 3 }, ⟨.inl ⟨show 0 < 2 ^ 0 by decide, show 0 ≤ 32 by decide⟩,
    ⟨show 3 < windowSize by decide, Nat.zero_le _⟩, hld, .inr ⟨_, decoder_total ?_ ?_ hd⟩, nofun, fun _ => show 9 ≤ 258 by decide⟩, rfl, rfl, rfl⟩
  all_goals decide +kernel

end Verif.Flate
