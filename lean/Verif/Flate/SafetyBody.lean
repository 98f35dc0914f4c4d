import Verif.Flate.SafetyProofs

/-!
# The Inflator on arbitrary input: bodies of blocks, and the whole object
-/
namespace Verif.Flate

/-! ## The window -/

/-- There is room in the window. -/
def WinSafe (s : Inf) : Prop := s.current < windowSize ∧ s.lastFlush ≤ s.current

theorem wrap_safe {s : Inf} (h : s.current ≤ windowSize) (h2 : s.lastFlush ≤ s.current) : WinSafe s.wrap ∧ s.Frame s.wrap := by
  unfold Inf.wrap
  by_cases hc : s.current = windowSize
  · rw [if_pos hc]; exact ⟨⟨show 0 < windowSize by decide, Nat.le_refl _⟩, rfl⟩
  · rw [if_neg hc]; exact ⟨⟨by omega, h2⟩, Inf.Frame.refl _⟩

theorem outputByte_safe {s : Inf} (h : WinSafe s) (b : Byte) : WinSafe (s.outputByte b) ∧ s.Frame (s.outputByte b) := by
  obtain ⟨h1, h2⟩ := wrap_safe (s := { s with window := fun i => if i = s.current then b else s.window i, current := s.current + 1 })
    (by have := h.1; simp only []; omega) (by have := h.2; simp only []; omega)
  refine ⟨h1, ?_⟩
  exact Inf.Frame.trans (t := { s with window := fun i => if i = s.current then b else s.window i, current := s.current + 1 }) rfl h2

theorem outputString_safe (f : Nat) : ∀ (s : Inf) (l : List Byte), WinSafe s → WinSafe (Inf.outputString f s l) ∧ s.Frame (Inf.outputString f s l) := by
  induction f with
  | zero => intro s l h; exact ⟨h, Inf.Frame.refl _⟩
  | succ f ih =>
    intro s l h
    rw [Inf.outputString]
    by_cases hl : l.length = 0
    · rw [if_pos hl]; exact ⟨h, Inf.Frame.refl _⟩
    · rw [if_neg hl]
      simp only []
      generalize hlen : min l.length (windowSize - s.current) = len
      have hw := h.1
      obtain ⟨h1, h2⟩ := wrap_safe (s := { s with window := writeWindow s.window s.current (l.take len), current := s.current + len })
        (by simp only []; omega) (by have := h.2; simp only []; omega)
      obtain ⟨i1, i2⟩ := ih _ (l.drop len) h1
      refine ⟨i1, ?_⟩
      exact Inf.Frame.trans (Inf.Frame.trans (t := { s with window := writeWindow s.window s.current (l.take len), current := s.current + len }) rfl h2) i2

theorem copyLoop_safe (n : Nat) : ∀ (start : Nat) (s : Inf), WinSafe s → WinSafe (Inf.copyLoop n start s) ∧ s.Frame (Inf.copyLoop n start s) := by
  induction n with
  | zero => intro start s h; exact ⟨h, Inf.Frame.refl _⟩
  | succ n ih =>
    intro start s h
    rw [Inf.copyLoop]
    obtain ⟨h1, h2⟩ := outputByte_safe h (s.window start)
    obtain ⟨i1, i2⟩ := ih (start + 1) _ h1
    exact ⟨i1, h2.trans i2⟩

theorem copyRest_safe {s : Inf} (h : WinSafe s) (start length : Nat) : WinSafe (s.copyRest start length) ∧ s.Frame (s.copyRest start length) := by
  unfold Inf.copyRest
  by_cases hc : start + length > s.current ∨ s.current + length ≥ windowSize
  · rw [if_pos hc]; exact copyLoop_safe length start s h
  · rw [if_neg hc]
    refine ⟨⟨?_, ?_⟩, rfl⟩
    · show s.current + length < windowSize
      omega
    · have := h.2
      show s.lastFlush ≤ s.current + length
      omega

theorem outputPast_safe {s : Inf} (h : WinSafe s) (length distance : Nat) :
    s.outputPast length distance = .error .invalidDataFormat ∨ ∃ t, s.outputPast length distance = .ok t ∧ WinSafe t ∧ s.Frame t := by
  have go : ∀ start, ∃ t, (if start + length > windowSize then
      .ok ((Inf.copyLoop (windowSize - start) start s).copyRest 0 (length - (windowSize - start)))
    else (.ok (s.copyRest start length) : Except Err Inf)) = .ok t ∧ WinSafe t ∧ s.Frame t := by
    intro start
    by_cases hc : start + length > windowSize
    · rw [if_pos hc]
      obtain ⟨c1, c2⟩ := copyLoop_safe (windowSize - start) start s h
      obtain ⟨d1, d2⟩ := copyRest_safe c1 0 (length - (windowSize - start))
      exact ⟨_, rfl, d1, c2.trans d2⟩
    · rw [if_neg hc]
      obtain ⟨d1, d2⟩ := copyRest_safe h start length
      exact ⟨_, rfl, d1, d2⟩
  unfold Inf.outputPast
  simp only []
  by_cases c1 : distance ≤ s.current
  · rw [if_pos c1]; exact .inr (go _)
  · rw [if_neg c1]
    by_cases c2 : s.wrapped = true ∧ distance ≤ windowSize
    · rw [if_pos c2]; exact .inr (go _)
    · rw [if_neg c2]; exact .inl rfl

/-! ## The same with every index checked -/

/-- `Inf.copyLoop` with the indices checked. -/
def Inf.copyLoopC : Nat → Nat → Inf → Option Inf
  | 0, _, s => some s
  | n + 1, start, s =>
    if start < windowSize ∧ s.current < windowSize then Inf.copyLoopC n (start + 1) (s.outputByte (s.window start)) else none

/-- `Inf.copyRest` with the indices checked; `memcpy` is only for parts that do not overlap. -/
def Inf.copyRestC (s : Inf) (start length : Nat) : Option Inf :=
  if start + length > s.current ∨ s.current + length ≥ windowSize then Inf.copyLoopC length start s
  else if start + length ≤ windowSize ∧ s.current + length ≤ windowSize ∧ (length = 0 ∨ start + length ≤ s.current) then some (s.copyRest start length)
  else none

/-- `Inf.outputPast` with the indices checked. -/
def Inf.outputPastC (s : Inf) (length distance : Nat) : Option (Except Err Inf) :=
  let go (start : Nat) : Option (Except Err Inf) :=
    if start + length > windowSize then
      (Inf.copyLoopC (windowSize - start) start s).bind fun t => (t.copyRestC 0 (length - (windowSize - start))).map .ok
    else (s.copyRestC start length).map .ok
  if distance ≤ s.current then go (s.current - distance)
  else if s.wrapped ∧ distance ≤ windowSize then go (s.current + windowSize - distance)
  else some (.error .invalidDataFormat)

theorem copyLoopC_eq (n : Nat) : ∀ (start : Nat) (s : Inf), WinSafe s → start + n ≤ windowSize → Inf.copyLoopC n start s = some (Inf.copyLoop n start s) := by
  induction n with
  | zero => intro start s _ _; rfl
  | succ n ih =>
    intro start s h hs
    rw [Inf.copyLoopC, if_pos ⟨by omega, h.1⟩, ih _ _ (outputByte_safe h _).1 (by omega)]
    rfl

theorem copyRestC_eq {s : Inf} (h : WinSafe s) {start length : Nat} (hs : start + length ≤ windowSize) : s.copyRestC start length = some (s.copyRest start length) := by
  unfold Inf.copyRestC
  by_cases hc : start + length > s.current ∨ s.current + length ≥ windowSize
  · rw [if_pos hc, copyLoopC_eq _ _ _ h hs]
    unfold Inf.copyRest
    rw [if_pos hc]
  · rw [if_neg hc, if_pos ⟨hs, by omega, by omega⟩]

theorem outputPastC_eq {s : Inf} (h : WinSafe s) {length distance : Nat} (hl : length ≤ windowSize) (hd : 1 ≤ distance) :
    s.outputPastC length distance = some (s.outputPast length distance) := by
  have go : ∀ start, start < windowSize → (if start + length > windowSize then
      (Inf.copyLoopC (windowSize - start) start s).bind fun t => (t.copyRestC 0 (length - (windowSize - start))).map Except.ok
    else (s.copyRestC start length).map Except.ok) = some (if start + length > windowSize then
      (.ok ((Inf.copyLoop (windowSize - start) start s).copyRest 0 (length - (windowSize - start))) : Except Err Inf)
    else .ok (s.copyRest start length)) := by
    intro start hst
    by_cases hc : start + length > windowSize
    · rw [if_pos hc, if_pos hc, copyLoopC_eq _ _ _ h (by omega)]
      rw [Option.bind_some, copyRestC_eq (copyLoop_safe _ _ _ h).1 (by omega)]
      rfl
    · rw [if_neg hc, if_neg hc, copyRestC_eq h (by omega)]
      rfl
  have hw := h.1
  unfold Inf.outputPastC Inf.outputPast
  simp only []
  by_cases c1 : distance ≤ s.current
  · rw [if_pos c1, if_pos c1]; exact go _ (by omega)
  · rw [if_neg c1, if_neg c1]
    by_cases c2 : s.wrapped = true ∧ distance ≤ windowSize
    · rw [if_pos c2, if_pos c2]; exact go _ (by omega)
    · rw [if_neg c2, if_neg c2]

/-! ## The body -/

/-- In the body of a block with codes. -/
structure BInv (lit dist : Decoder) (s : Inf) : Prop where
  rd : RSafe s.rd
  win : WinSafe s
  dec : ∃ n, DOk lit n ∧ (n ≤ 257 ∨ ∃ m, DOk dist m)
  dist : s.next = .literal ∨ ∃ m, DOk dist m
  len : s.next = .lengthBits → 257 ≤ s.literal ∧ s.literal ≤ 285
  past : s.next = .distance ∨ s.next = .distanceBits → s.literal ≤ 258

/-- What a step leaves alone. -/
structure Keeps (s t : Inf) : Prop where
  repeats : t.repeats = s.repeats
  phase : t.phase = s.phase
  eof : t.eof = s.eof
  blockType : t.blockType = s.blockType
  dynLit : t.dynLit = s.dynLit
  dynDist : t.dynDist = s.dynDist

theorem Keeps.refl (s : Inf) : Keeps s s := ⟨rfl, rfl, rfl, rfl, rfl, rfl⟩

theorem Keeps.trans {s t u : Inf} (h : Keeps s t) (k : Keeps t u) : Keeps s u :=
  ⟨k.1.trans h.1, k.2.trans h.2, k.3.trans h.3, k.4.trans h.4, k.5.trans h.5, k.6.trans h.6⟩

theorem Inf.Frame.keeps {s t : Inf} (h : s.Frame t) : Keeps s t := by
  unfold Inf.Frame at h
  rw [h]
  exact ⟨rfl, rfl, rfl, rfl, rfl, rfl⟩

theorem Inf.Frame.rest {s t : Inf} (h : s.Frame t) : t.rd = s.rd ∧ t.next = s.next ∧ t.literal = s.literal ∧ t.storedLen = s.storedLen := by
  unfold Inf.Frame at h
  rw [h]
  exact ⟨rfl, rfl, rfl, rfl⟩

theorem lengthTables : ∀ i, i < 29 → lengthExtra.getD i 0 ≤ 5 ∧ lengthBase.getD i 0 + 2 ^ lengthExtra.getD i 0 ≤ 259 := by decide
theorem distTables : ∀ i, i < 30 → distExtra.getD i 0 ≤ 13 ∧ 1 ≤ distBase.getD i 0 := by decide

theorem bodyStep_safe {lit dist : Decoder} {s : Inf} (h : BInv lit dist s) :
    s.bodyStep lit dist = .error .invalidDataFormat ∨
    ∃ g t, s.bodyStep lit dist = .ok (g, t) ∧ BInv lit dist t ∧ Keeps s t ∧ (Zero s.rd → Zero t.rd) ∧ t.rd.left ≤ s.rd.left ∧
      (g = .go → 4 * t.rd.left + t.next.rank < 4 * s.rd.left + s.next.rank) := by
  obtain ⟨n, hn, hnd⟩ := h.dec
  unfold Inf.bodyStep
  cases hnext : s.next with
  | literal =>
    simp only []
    obtain ⟨b, v, r', e1, e2, e3, e4, e5, e6⟩ := decodeSym_safe hn h.rd
    rw [e1]
    cases b with
    | false =>
      simp only []
      exact .inr ⟨_, _, rfl, ⟨e2, h.win, h.dec, .inl rfl, nofun, nofun⟩, ⟨rfl, rfl, rfl, rfl, rfl, rfl⟩, e4, Nat.le_of_eq (e6 rfl), nofun⟩
    | true =>
      simp only []
      have hl := e5 rfl
      by_cases c1 : v < 256
      · rw [if_pos c1]
        obtain ⟨w1, w2⟩ := outputByte_safe (s := { s with rd := r', literal := v, next := .literal }) h.win (BitVec.ofNat 8 v)
        obtain ⟨q1, q2, q3, q4⟩ := w2.rest
        generalize hu : Inf.outputByte { s with rd := r', literal := v, next := .literal } (BitVec.ofNat 8 v) = u at *
        have hnx : u.next = .literal := q2
        refine .inr ⟨_, u, rfl, ⟨by rw [q1]; exact e2, w1, h.dec, .inl hnx, ?_, ?_⟩, ⟨w2.keeps.1, w2.keeps.2, w2.keeps.3, w2.keeps.4, w2.keeps.5, w2.keeps.6⟩, ?_, ?_, ?_⟩
        · intro hc; rw [hnx] at hc; cases hc
        · intro hc; rw [hnx] at hc; rcases hc with hc | hc <;> cases hc
        · rw [q1]; exact e4
        · rw [q1]; simp only []; omega
        · intro _; rw [q1, hnx]; simp only []; omega
      · rw [if_neg c1]
        by_cases c2 : v = 256
        · rw [if_pos c2]
          exact .inr ⟨_, _, rfl, ⟨e2, h.win, h.dec, .inl rfl, nofun, nofun⟩, ⟨rfl, rfl, rfl, rfl, rfl, rfl⟩, e4, by simp only []; omega, nofun⟩
        · rw [if_neg c2]
          by_cases c3 : v > 285
          · rw [if_pos c3]; exact .inl rfl
          · rw [if_neg c3]
            have hd : ∃ m, DOk dist m := hnd.resolve_left (by omega)
            refine .inr ⟨_, _, rfl, ⟨e2, h.win, h.dec, .inr hd, fun _ => ⟨by simp only []; omega, by simp only []; omega⟩, ?_⟩, ⟨rfl, rfl, rfl, rfl, rfl, rfl⟩, e4, by simp only []; omega, ?_⟩
            · intro hc; rcases hc with hc | hc <;> cases hc
            · intro _; simp only [Next.rank]; omega
  | lengthBits =>
    simp only []
    obtain ⟨l1, l2⟩ := h.len hnext
    obtain ⟨t1, t2⟩ := lengthTables (s.literal - 257) (by omega)
    generalize lengthExtra.getD (s.literal - 257) 0 = k at *
    obtain ⟨f1, f2, f3, f4, f5⟩ := fill_safe h.rd (len := k) (.inl (by omega))
    by_cases hf : (s.rd.fill k).1 = false
    · rw [if_pos hf]
      exact .inr ⟨_, _, rfl, ⟨f1, h.win, h.dec, .inr (h.dist.resolve_left (by rw [hnext]; nofun)), fun _ => ⟨l1, l2⟩, nofun⟩, ⟨rfl, rfl, rfl, rfl, rfl, rfl⟩, f3, Nat.le_of_eq f2, nofun⟩
    · rw [if_neg hf]
      have hk := f4 (by simpa using hf)
      obtain ⟨g1, g2, g3, g4⟩ := get_safe f1 (len := k) (by omega) (by rw [Reader.left]; omega)
      have hd : ∃ m, DOk dist m := h.dist.resolve_left (by rw [hnext]; nofun)
      refine .inr ⟨_, _, rfl, ⟨g1, h.win, h.dec, .inr hd, nofun, fun _ => ?_⟩, ⟨rfl, rfl, rfl, rfl, rfl, rfl⟩, fun z => g3 (f3 z), by simp only []; omega, ?_⟩
      · show _ + _ ≤ 258
        omega
      · intro _; simp only [Next.rank]; omega
  | distance =>
    simp only []
    obtain ⟨m, hm⟩ : ∃ m, DOk dist m := h.dist.resolve_left (by rw [hnext]; nofun)
    have hp := h.past (.inl hnext)
    obtain ⟨b, v, r', e1, e2, e3, e4, e5, e6⟩ := decodeSym_safe hm h.rd
    rw [e1]
    cases b with
    | false => exact .inr ⟨_, _, rfl, ⟨e2, h.win, h.dec, .inr ⟨m, hm⟩, nofun, fun _ => hp⟩, ⟨rfl, rfl, rfl, rfl, rfl, rfl⟩, e4, Nat.le_of_eq (e6 rfl), nofun⟩
    | true =>
      have hl := e5 rfl
      exact .inr ⟨_, _, rfl, ⟨e2, h.win, h.dec, .inr ⟨m, hm⟩, nofun, fun _ => hp⟩, ⟨rfl, rfl, rfl, rfl, rfl, rfl⟩, e4, by simp only []; omega,
        fun _ => by simp only [Next.rank]; omega⟩
  | distanceBits =>
    simp only []
    have hp := h.past (.inr hnext)
    by_cases c1 : s.distance ≥ 30
    · rw [if_pos c1]; exact .inl rfl
    · rw [if_neg c1]
      obtain ⟨t1, t2⟩ := distTables s.distance (by omega)
      generalize distExtra.getD s.distance 0 = k at *
      obtain ⟨f1, f2, f3, f4, f5⟩ := fill_safe h.rd (len := k) (.inl (by omega))
      by_cases hf : (s.rd.fill k).1 = false
      · rw [if_pos hf]
        exact .inr ⟨_, _, rfl, ⟨f1, h.win, h.dec, .inr (h.dist.resolve_left (by rw [hnext]; nofun)), nofun, fun _ => hp⟩, ⟨rfl, rfl, rfl, rfl, rfl, rfl⟩, f3, Nat.le_of_eq f2, nofun⟩
      · rw [if_neg hf]
        have hk := f4 (by simpa using hf)
        obtain ⟨g1, g2, g3, g4⟩ := get_safe f1 (len := k) (by omega) (by rw [Reader.left]; omega)
        generalize hd : ((s.rd.fill k).2.get k).1 + distBase.getD s.distance 0 = d
        rcases outputPast_safe (s := { s with rd := ((s.rd.fill k).2.get k).2, distance := d, next := .literal }) h.win s.literal d with ho | ⟨u, o1, o2, o3⟩
        · rw [ho]; exact .inl rfl
        · rw [o1]
          obtain ⟨q1, q2, q3, q4⟩ := o3.rest
          have hnx : u.next = .literal := q2
          refine .inr ⟨_, u, rfl, ⟨by rw [q1]; exact g1, o2, h.dec, .inl hnx, ?_, ?_⟩, ⟨o3.keeps.1, o3.keeps.2, o3.keeps.3, o3.keeps.4, o3.keeps.5, o3.keeps.6⟩, ?_, ?_, ?_⟩
          · intro hc; rw [hnx] at hc; cases hc
          · intro hc; rw [hnx] at hc; rcases hc with hc | hc <;> cases hc
          · rw [q1]; exact fun z => g3 (f3 z)
          · rw [q1]; simp only []; omega
          · intro _; rw [q1, hnx]; simp only [Next.rank]; omega

theorem bodyLoop_safe {lit dist : Decoder} (f : Nat) : ∀ s, BInv lit dist s → 4 * s.rd.left + s.next.rank < f →
    Inf.bodyLoop lit dist f s = .error .invalidDataFormat ∨
    ∃ b t, Inf.bodyLoop lit dist f s = .ok (b, t) ∧ BInv lit dist t ∧ Keeps s t ∧ (Zero s.rd → Zero t.rd) ∧ t.rd.left ≤ s.rd.left := by
  induction f with
  | zero => intro s _ h; omega
  | succ f ih =>
    intro s h hf
    rw [Inf.bodyLoop]
    rcases bodyStep_safe h with e | ⟨g, t, e1, e2, e3, e4, e5, e6⟩
    · rw [e]; exact .inl rfl
    · rw [e1]
      cases g with
      | go =>
        have := e6 rfl
        rcases ih t e2 (by omega) with i | ⟨b, u, i1, i2, i3, i4, i5⟩
        · exact .inl i
        · exact .inr ⟨b, u, i1, i2, e3.trans i3, fun z => i4 (e4 z), by omega⟩
      | wait => exact .inr ⟨_, _, rfl, e2, e3, e4, e5⟩
      | stop => exact .inr ⟨_, _, rfl, e2, e3, e4, e5⟩

theorem storedLoop_safe {spy : List Byte → Nat} (hspy : ∀ q, q ≠ [] → 1 ≤ spy q ∧ spy q ≤ q.length) (f : Nat) : ∀ s : Inf, RSafe s.rd → WinSafe s → s.rd.queue.length < f →
    ∃ b t, Inf.storedLoop spy f s = .ok (b, t) ∧ RSafe t.rd ∧ WinSafe t ∧ Keeps s t ∧ (Zero s.rd → Zero t.rd) ∧ t.rd.left ≤ s.rd.left := by
  induction f with
  | zero => intro s _ _ h; omega
  | succ f ih =>
    intro s hr hw hf
    rw [Inf.storedLoop]
    by_cases hq : s.rd.queue.length = 0
    · rw [if_pos hq]; exact ⟨_, _, rfl, hr, hw, Keeps.refl _, id, Nat.le_refl _⟩
    · rw [if_neg hq]
      simp only []
      have hsp := hspy s.rd.queue (fun e => hq (by rw [e]; rfl))
      generalize hsz : min s.storedLen (spy s.rd.queue) = size
      obtain ⟨o1, o2⟩ := outputString_safe (size + 1) s (s.rd.queue.take size) hw
      obtain ⟨q1, q2, q3, q4⟩ := o2.rest
      have k2 := o2.keeps
      generalize Inf.outputString (size + 1) s (s.rd.queue.take size) = u at *
      have hr' : RSafe { u.rd with queue := s.rd.queue.drop size } := by rw [q1]; exact hr
      have hz' : Zero s.rd → Zero { u.rd with queue := s.rd.queue.drop size } := by
        intro z; rw [q1]; exact ⟨z.1, z.2.1, fun b hb => z.2.2 b (List.mem_of_mem_drop hb)⟩
      have hleft : Reader.left { u.rd with queue := s.rd.queue.drop size } ≤ s.rd.left := by
        rw [q1, Reader.left, Reader.left]; simp only [List.length_drop]; omega
      have hk : Keeps s { u with rd := { u.rd with queue := s.rd.queue.drop size }, storedLen := s.storedLen - size } :=
        ⟨k2.1, k2.2, k2.3, k2.4, k2.5, k2.6⟩
      by_cases h0 : s.storedLen - size = 0
      · rw [if_pos h0]
        exact ⟨_, _, rfl, hr', o1, hk, hz', hleft⟩
      · rw [if_neg h0]
        obtain ⟨b, t, i1, i2, i3, i4, i5, i6⟩ := ih { u with rd := { u.rd with queue := s.rd.queue.drop size }, storedLen := s.storedLen - size } hr' o1
          (by simp only [List.length_drop]; omega)
        exact ⟨b, t, i1, i2, i3, hk.trans i4, fun z => i5 (hz' z), Nat.le_trans i6 hleft⟩

theorem takeBytes_safe (n : Nat) : ∀ r : Reader, RSafe r → 8 * n ≤ r.bits →
    RSafe (takeBytes n r).2 ∧ (takeBytes n r).2.left + 8 * n = r.left ∧ (takeBytes n r).1.length = n ∧
    (Zero r → Zero (takeBytes n r).2 ∧ ∀ b ∈ (takeBytes n r).1, b = 0#8) := by
  induction n with
  | zero => intro r hr _; exact ⟨hr, rfl, rfl, fun z => ⟨z, nofun⟩⟩
  | succ n ih =>
    intro r hr hb
    obtain ⟨s1, s2, s3, s4, s5⟩ := skip_safe hr (len := 8) (by omega)
    have hf : r.fill 8 = (true, r) := fill_full (by omega)
    have hg : r.get 8 = (r.buf &&& (2 ^ 8 - 1), r.skip 8) := by rw [Reader.get, hf]
    obtain ⟨i1, i2, i3, i4⟩ := ih (r.skip 8) s1 (by rw [s4]; omega)
    rw [takeBytes, hg]
    refine ⟨i1, show (takeBytes n (r.skip 8)).2.left + 8 * (n + 1) = r.left by omega, by simp only [List.length_cons, i3], fun z => ⟨(i4 (s3 z)).1, ?_⟩⟩
    intro b hbm
    rcases List.mem_cons.1 hbm with rfl | hbm
    · show BitVec.ofNat 8 (r.buf &&& (2 ^ 8 - 1)) = 0#8
      rw [z.1]; decide
    · exact (i4 (s3 z)).2 b hbm

theorem flushOutput_safe {s : Inf} (h : WinSafe s) : WinSafe s.flushOutput ∧ s.Frame s.flushOutput := by
  unfold Inf.flushOutput
  by_cases hp : s.phase ≠ .preStream
  · rw [if_pos hp]; exact ⟨⟨h.1, Nat.le_refl _⟩, rfl⟩
  · rw [if_neg hp]; exact ⟨h, Inf.Frame.refl _⟩

/-- zinflate.cpp:586-594: what is left in the buffer goes back to the queue. -/
def undo (r : Reader) : Reader :=
  if r.bits ≠ 0 then { (takeBytes (r.bits / 8) r).2 with queue := (takeBytes (r.bits / 8) r).1 ++ (takeBytes (r.bits / 8) r).2.queue } else r

theorem undo_safe {r : Reader} (h : RSafe r) : RSafe (undo r) ∧ (undo r).left ≤ r.left ∧ (Zero r → Zero (undo r)) := by
  unfold undo
  by_cases hz : r.bits ≠ 0
  · rw [if_pos hz]
    obtain ⟨t1, t2, t3, t4⟩ := takeBytes_safe (r.bits / 8) r h (by omega)
    generalize takeBytes (r.bits / 8) r = x at *
    refine ⟨t1, ?_, fun z => ?_⟩
    · rw [Reader.left] at t2
      show x.2.bits + 8 * (x.1 ++ x.2.queue).length ≤ _
      rw [List.length_append, t3]
      omega
    · obtain ⟨z1, z2⟩ := t4 z
      refine ⟨z1.1, z1.2.1, fun b hb => ?_⟩
      rcases List.mem_append.1 hb with hb | hb
      · exact z2 b hb
      · exact z1.2.2 b hb
  · rw [if_neg hz]
    exact ⟨h, Nat.le_refl _, id⟩

theorem endBlock_eq (s : Inf) : s.endBlock = if s.eof then { s.flushOutput with rd := undo (s.flushOutput.rd.skip (s.flushOutput.rd.bits % 8)), phase := .postStream }
    else { s with phase := .waitHeader } := rfl

theorem endBlock_safe {s : Inf} (hr : RSafe s.rd) (hw : WinSafe s) :
    RSafe s.endBlock.rd ∧ WinSafe s.endBlock ∧ (s.endBlock.phase = .postStream ∨ s.endBlock.phase = .waitHeader) ∧
    (Zero s.rd → Zero s.endBlock.rd) ∧ s.endBlock.rd.left ≤ s.rd.left := by
  rw [endBlock_eq]
  by_cases he : s.eof = true
  · rw [if_pos he]
    obtain ⟨w1, w2⟩ := flushOutput_safe hw
    obtain ⟨q1, -, -, -⟩ := w2.rest
    generalize s.flushOutput = u at *
    rw [← q1] at hr ⊢
    obtain ⟨s1, s2, s3, s4, s5⟩ := skip_safe hr (len := u.rd.bits % 8) (Nat.mod_le _ _)
    obtain ⟨u1, u2, u3⟩ := undo_safe s1
    exact ⟨u1, w1, .inl rfl, fun z => u3 (s3 z), Nat.le_trans u2 (by omega)⟩
  · rw [if_neg he]
    exact ⟨hr, hw, .inr rfl, id, Nat.le_refl _⟩

/-! ## The whole object -/

/-- What holds between two calls, and between two phases. -/
structure PInv (s : Inf) : Prop where
  rd : RSafe s.rd
  win : WinSafe s
  body : s.phase = .decodingBody → s.blockType = 0 ∨
    ∃ l d, s.litDecoder = .ok l ∧ s.distDecoder = .ok d ∧ BInv l d s

theorem decodeBody_safe {spy : List Byte → Nat} (hspy : ∀ q, q ≠ [] → 1 ≤ spy q ∧ spy q ≤ q.length) {s : Inf} (h : PInv s) (hp : s.phase = .decodingBody) :
    s.decodeBody spy = .error .invalidDataFormat ∨
    ∃ b t, s.decodeBody spy = .ok (b, t) ∧ PInv t ∧ (Zero s.rd → Zero t.rd) ∧ t.rd.left ≤ s.rd.left ∧
      (b = true → t.phase = .postStream ∨ t.phase = .waitHeader) := by
  -- the end of a block
  have fin : ∀ (b : Bool) (u : Inf), RSafe u.rd → WinSafe u → (Zero s.rd → Zero u.rd) → u.rd.left ≤ s.rd.left → (b = false → PInv u) →
      ∃ b' t, (match (.ok (b, u) : Except Err (Bool × Inf)) with
        | .error e => .error e
        | .ok (true, s) => .ok (true, s.endBlock)
        | .ok (false, s) => .ok (false, s)) = (.ok (b', t) : Except Err (Bool × Inf)) ∧ PInv t ∧ (Zero s.rd → Zero t.rd) ∧ t.rd.left ≤ s.rd.left ∧
      (b' = true → t.phase = .postStream ∨ t.phase = .waitHeader) := by
    intro b u u1 u2 u3 u4 u5
    cases b with
    | false => exact ⟨false, u, rfl, u5 rfl, u3, u4, nofun⟩
    | true =>
      obtain ⟨e1, e2, e3, e4, e5⟩ := endBlock_safe u1 u2
      refine ⟨true, u.endBlock, rfl, ⟨e1, e2, fun hc => ?_⟩, fun z => e4 (u3 z), by omega, fun _ => e3⟩
      rw [hc] at e3
      rcases e3 with e3 | e3 <;> cases e3
  unfold Inf.decodeBody
  by_cases hb : s.blockType = 0
  · simp only [if_pos hb]
    obtain ⟨b, t, i1, i2, i3, i4, i5, i6⟩ := storedLoop_safe hspy (s.rd.queue.length + 1) s h.rd h.win (by omega)
    rw [i1]
    exact .inr (fin b t i2 i3 i5 i6 fun _ => ⟨i2, i3, fun _ => .inl (i4.4.trans hb)⟩)
  · simp only [if_neg hb]
    obtain ⟨l, d, h1, h2, h3⟩ := (h.body hp).resolve_left hb
    rw [h1, h2]
    simp only []
    have hrank : s.next.rank ≤ 3 := by cases s.next <;> decide
    rcases bodyLoop_safe (4 * (s.rd.bits + 8 * s.rd.queue.length) + 4) s h3 (by rw [Reader.left]; omega) with e | ⟨b, t, i1, i2, i3, i4, i5⟩
    · rw [e]; exact .inl rfl
    · rw [i1]
      refine .inr (fin b t i2.rd i2.win i4 i5 fun _ => ⟨i2.rd, i2.win, fun _ => .inr ⟨l, d, ?_, ?_, i2⟩⟩)
      · rw [← h1]; unfold Inf.litDecoder; rw [i3.blockType, i3.dynLit]
      · rw [← h2]; unfold Inf.distDecoder; rw [i3.blockType, i3.dynDist]

theorem fixed_decoders : ∃ l d, fixedLitDecoder = .ok l ∧ fixedDistDecoder = .ok d ∧ Decoders l d := by
  obtain ⟨l, l1, -⟩ := fixedLit_decoder
  obtain ⟨d, d1, -⟩ := fixedDist_decoder
  refine ⟨l, d, l1, d1, _, decoder_total ?_ ?_ l1, .inr ⟨_, decoder_total ?_ ?_ d1⟩⟩
  all_goals decide +kernel

theorem HeadOk.inv {s t : Inf} (h : HeadOk s t) (hw : WinSafe s) (hr : RSafe t.rd) : PInv t := by
  have hwt : WinSafe t := ⟨by rw [h.current]; exact hw.1, by rw [h.current, h.lastFlush]; exact hw.2⟩
  refine ⟨hr, hwt, fun _ => ?_⟩
  rcases h.type with h0 | h1 | ⟨h2, hd⟩
  · exact .inl h0
  · have hn := h.next (by omega)
    obtain ⟨l, d, e1, e2, e3⟩ := fixed_decoders
    refine .inr ⟨l, d, by unfold Inf.litDecoder; rw [if_pos h1, e1], by unfold Inf.distDecoder; rw [if_pos h1, e2], hr, hwt, e3, .inl hn, ?_, ?_⟩
    · intro hc; rw [hn] at hc; cases hc
    · intro hc; rw [hn] at hc; rcases hc with hc | hc <;> cases hc
  · have hn := h.next (by omega)
    refine .inr ⟨t.dynLit, t.dynDist, by unfold Inf.litDecoder; rw [if_neg (by omega)], by unfold Inf.distDecoder; rw [if_neg (by omega)], hr, hwt, hd, .inl hn, ?_, ?_⟩
    · intro hc; rw [hn] at hc; cases hc
    · intro hc; rw [hn] at hc; rcases hc with hc | hc <;> cases hc

/-- How many phases may follow, with nothing more read. -/
def Phase.later : Phase → Nat
  | .decodingBody => 5
  | .postStream => 4
  | .preStream => 3
  | .waitHeader => 2
  | .afterEnd => 1

theorem processInput_safe {spy : List Byte → Nat} (hspy : ∀ q, q ≠ [] → 1 ≤ spy q ∧ spy q ≤ q.length) (flush : Bool) {cap : Nat} (hcap : 320 ≤ cap) (f : Nat) :
    ∀ s, PInv s → (2 * s.rd.left + s.phase.later ≤ f ∨ (Zero s.rd ∧ s.phase.later ≤ f)) →
    Inf.processInput spy flush f s cap = .error .invalidDataFormat ∨ ∃ t, Inf.processInput spy flush f s cap = .ok t ∧ PInv t := by
  induction f with
  | zero =>
    intro s _ h
    have : 1 ≤ s.phase.later := by cases s.phase <;> decide
    omega
  | succ f ih =>
    intro s h hf
    rw [Inf.processInput]
    cases hp : s.phase with
    | preStream =>
      simp only []
      refine ih _ ⟨h.rd, ⟨show 0 < windowSize by decide, Nat.le_refl _⟩, nofun⟩ ?_
      rw [hp] at hf
      simp only [Phase.later] at hf ⊢
      rcases hf with hf | hf
      · exact .inl (by omega)
      · exact .inr ⟨hf.1, by omega⟩
    | waitHeader =>
      simp only []
      by_cases hq : s.rd.queue.length < (if flush = true then 1 else maxHeaderSize)
      · rw [if_pos hq]; exact .inr ⟨s, rfl, h⟩
      · rw [if_neg hq]
        rcases decodeHeader_safe h.rd hcap with e | ⟨t, e1, e2, e3, e4, e5, e6⟩
        · rw [e]; exact .inl rfl
        · rw [e1]
          simp only []
          refine ih t (e2.inv h.win e3) ?_
          rw [e2.phase]
          rw [hp] at hf
          simp only [Phase.later] at hf ⊢
          rcases hf with hf | hf
          · rcases e4 with e4 | e4
            · exact .inl (by omega)
            · exact .inr ⟨e4, by omega⟩
          · exact absurd hf.1 e5
    | decodingBody =>
      simp only []
      rcases decodeBody_safe hspy h hp with e | ⟨b, t, e1, e2, e3, e4, e5⟩
      · rw [e]; exact .inl rfl
      · rw [e1]
        cases b with
        | false => exact .inr ⟨t, rfl, e2⟩
        | true =>
          simp only []
          refine ih t e2 ?_
          have hl : t.phase.later ≤ 4 := by rcases e5 rfl with h | h <;> rw [h] <;> decide
          rw [hp] at hf
          simp only [Phase.later] at hf
          rcases hf with hf | hf
          · exact .inl (by omega)
          · exact .inr ⟨e3 hf.1, by omega⟩
    | postStream =>
      simp only []
      rw [hp] at hf
      have hinv : PInv { s with phase := if s.repeats = true then .preStream else .afterEnd } :=
        ⟨h.rd, h.win, fun hc => by
          change (if s.repeats = true then Phase.preStream else Phase.afterEnd) = .decodingBody at hc
          split at hc <;> cases hc⟩
      by_cases hq : s.rd.queue.length = 0
      · rw [if_pos hq]; exact .inr ⟨_, rfl, hinv⟩
      · rw [if_neg hq]
        refine ih _ hinv ?_
        have hl : (if s.repeats = true then Phase.preStream else Phase.afterEnd).later ≤ 3 := by split <;> decide
        simp only [Phase.later] at hf
        rcases hf with hf | hf
        · exact .inl (by simp only []; omega)
        · exact .inr ⟨hf.1, by simp only []; omega⟩
    | afterEnd =>
      simp only []
      refine .inr ⟨_, rfl, ⟨?_, h.win, nofun⟩⟩
      rcases h.rd with h | h
      · exact .inl h
      · exact .inr h

end Verif.Flate
