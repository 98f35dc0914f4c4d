import Verif.Flate.Inflator

/-!
# The window of the Inflator holds the last 32768 bytes of the output
-/
namespace Verif.Flate

/-- Only the window and the output differ. -/
def Inf.Frame (s t : Inf) : Prop :=
  t = { s with window := t.window, current := t.current, lastFlush := t.lastFlush, wrapped := t.wrapped, out := t.out }

theorem Inf.Frame.refl (s : Inf) : s.Frame s := rfl

theorem Inf.Frame.trans {s t u : Inf} (h : s.Frame t) (k : t.Frame u) : s.Frame u := by
  unfold Inf.Frame at *
  rw [h] at k
  exact k

/-- All of `o` has been produced, and is in the window or delivered. -/
structure WinOk (s : Inf) (o : List Byte) : Prop where
  cur : s.current = o.length % 32768
  wr : s.wrapped = true ↔ 32768 ≤ o.length
  win : ∀ k, k < o.length → o.length ≤ k + 32768 → s.window (k % 32768) = o.getD k 0
  flush : s.lastFlush ≤ s.current
  out : s.out = o.take (o.length - s.current + s.lastFlush)

theorem windowPart_eq {w : Nat → Byte} {o : List Byte} {a b base : Nat} (hab : a ≤ b) (hb : base + b ≤ o.length)
    (h : ∀ i, a ≤ i → i < b → w i = o.getD (base + i) 0) : windowPart w a b = (o.drop (base + a)).take (b - a) := by
  apply List.ext_getElem
  · simp [windowPart]; omega
  · intro i h1 h2
    simp [windowPart] at h1
    simp only [windowPart, List.getElem_map, List.getElem_range', List.getElem_take, List.getElem_drop]
    rw [h _ (by omega) (by omega), List.getD_eq_getElem?_getD, List.getElem?_eq_getElem (by omega), Option.getD_some]
    congr 1
    omega

theorem WinOk.append {s : Inf} {o : List Byte} (h : WinOk s o) {l : List Byte} (hl : s.current + l.length ≤ 32768) :
    WinOk (Inf.wrap { s with window := writeWindow s.window s.current l, current := s.current + l.length }) (o ++ l) ∧
    s.Frame (Inf.wrap { s with window := writeWindow s.window s.current l, current := s.current + l.length }) := by
  obtain ⟨h1, h2, h3, h4, h5⟩ := h
  have hwin : ∀ k, k < (o ++ l).length → (o ++ l).length ≤ k + 32768 → writeWindow s.window s.current l (k % 32768) = (o ++ l).getD k 0 := by
    intro k k1 k2
    rw [List.length_append] at k1 k2
    unfold writeWindow
    rw [h1] at hl ⊢
    by_cases hk : o.length ≤ k
    · have e : k % 32768 = o.length % 32768 + (k - o.length) := by omega
      rw [if_pos (by omega), List.getD_eq_getElem?_getD, List.getD_eq_getElem?_getD, List.getElem?_append_right hk]
      congr 2
      omega
    · rw [if_neg (by omega), h3 k (by omega) (by omega), List.getD_eq_getElem?_getD, List.getD_eq_getElem?_getD, List.getElem?_append_left (by omega)]
  unfold Inf.wrap
  have hw : windowSize = 32768 := rfl
  by_cases hc : s.current + l.length = windowSize
  · rw [if_pos hc]
    refine ⟨⟨?_, ?_, hwin, Nat.le_refl _, ?_⟩, rfl⟩
    · simp only []; rw [List.length_append]; omega
    · rw [List.length_append]; exact ⟨fun _ => by omega, fun _ => rfl⟩
    · have hlen : (o ++ l).length = o.length + l.length := List.length_append
      simp only []
      rw [hw] at hc ⊢
      rw [windowPart_eq (o := o ++ l) (base := (o ++ l).length - 32768) (by omega) (by omega) (by
        intro i i1 i2
        have := hwin ((o ++ l).length - 32768 + i) (by omega) (by omega)
        rw [show ((o ++ l).length - 32768 + i) % 32768 = i by omega] at this
        exact this)]
      rw [h5, Nat.sub_zero, Nat.add_zero, List.take_of_length_le (Nat.le_refl _)]
      have e1 : o.take (o.length - s.current + s.lastFlush) = (o ++ l).take (o.length - s.current + s.lastFlush) := by
        rw [List.take_append_of_le_length (by omega)]
      have e2 : (o ++ l).length - 32768 + s.lastFlush = o.length - s.current + s.lastFlush := by omega
      rw [e1, e2, List.take_of_length_le (l := (o ++ l).drop _) (by rw [List.length_drop]; omega), List.take_append_drop]
  · rw [if_neg hc]
    refine ⟨⟨?_, ?_, hwin, ?_, ?_⟩, rfl⟩
    · simp only []; rw [List.length_append]; omega
    · simp only []; rw [h2, List.length_append]; omega
    · simp only []; omega
    · simp only []
      rw [h5, List.length_append, show o.length + l.length - (s.current + l.length) = o.length - s.current by omega,
        List.take_append_of_le_length (by omega)]

theorem outputByte_eq (s : Inf) (b : Byte) :
    s.outputByte b = Inf.wrap { s with window := writeWindow s.window s.current [b], current := s.current + [b].length } := by
  unfold Inf.outputByte
  congr 2
  funext i
  unfold writeWindow
  by_cases h : i = s.current
  · rw [if_pos h, if_pos (by simp; omega), h, Nat.sub_self]; rfl
  · rw [if_neg h, if_neg (by simp; omega)]

theorem WinOk.byte {s : Inf} {o : List Byte} (h : WinOk s o) (b : Byte) : WinOk (s.outputByte b) (o ++ [b]) ∧ s.Frame (s.outputByte b) := by
  rw [outputByte_eq]
  apply h.append
  have := h.cur
  simp only [List.length_cons, List.length_nil]
  omega

theorem WinOk.string (f : Nat) : ∀ (s : Inf) (o l : List Byte), WinOk s o → l.length < f →
    WinOk (Inf.outputString f s l) (o ++ l) ∧ s.Frame (Inf.outputString f s l) := by
  induction f with
  | zero => intro s o l _ h; omega
  | succ f ih =>
    intro s o l h hf
    rw [Inf.outputString]
    split
    · rename_i hl
      rw [List.eq_nil_of_length_eq_zero hl, List.append_nil]
      exact ⟨h, Inf.Frame.refl _⟩
    · rename_i hl
      have hc := h.cur
      have hw : windowSize = 32768 := rfl
      have hlen : (l.take (min l.length (windowSize - s.current))).length = min l.length (windowSize - s.current) := by
        rw [List.length_take]; omega
      obtain ⟨a1, a2⟩ := h.append (l := l.take (min l.length (windowSize - s.current))) (by rw [hlen]; omega)
      rw [hlen] at a1 a2
      obtain ⟨b1, b2⟩ := ih _ _ (l.drop (min l.length (windowSize - s.current))) a1 (by rw [List.length_drop]; omega)
      rw [List.append_assoc, List.take_append_drop] at b1
      exact ⟨b1, a2.trans b2⟩

theorem copyBack_length (d n : Nat) (o : List Byte) : (copyBack d n o).length = o.length + n := by
  induction n generalizing o with
  | zero => rfl
  | succ n ih => rw [copyBack, ih, List.length_append]; simp; omega

theorem copyBack_add (d n m : Nat) (o : List Byte) : copyBack d (n + m) o = copyBack d m (copyBack d n o) := by
  induction n generalizing o with
  | zero => rw [Nat.zero_add]; rfl
  | succ n ih => rw [Nat.add_right_comm, copyBack, ih]; rfl

theorem copyBack_short {d n : Nat} {o : List Byte} (hd : d ≤ o.length) (hn : n ≤ d) : copyBack d n o = o ++ (o.drop (o.length - d)).take n := by
  induction n generalizing o with
  | zero => simp [copyBack]
  | succ n ih =>
    have e : copyBack d (n + 1) o = copyBack d 1 (copyBack d n o) := copyBack_add d n 1 o
    rw [e, ih hd (by omega), copyBack, copyBack]
    have hlen : (o ++ (o.drop (o.length - d)).take n).length = o.length + n := by
      rw [List.length_append, List.length_take, List.length_drop]; omega
    rw [hlen, List.append_assoc]
    congr 1
    rw [List.take_add_one, List.getElem?_drop, List.getD_eq_getElem?_getD, List.getElem?_append_left (by omega),
      show o.length + n - d = o.length - d + n by omega, List.getElem?_eq_getElem (by omega)]
    rfl

theorem WinOk.copy {d : Nat} (hd : 1 ≤ d) (hd2 : d ≤ 32768) (n : Nat) : ∀ (start : Nat) (s : Inf) (o : List Byte), WinOk s o → d ≤ o.length →
    start + n ≤ 32768 → (n = 0 ∨ start = (o.length - d) % 32768) →
    WinOk (Inf.copyLoop n start s) (copyBack d n o) ∧ s.Frame (Inf.copyLoop n start s) := by
  induction n with
  | zero => intro start s o h _ _ _; exact ⟨h, Inf.Frame.refl _⟩
  | succ n ih =>
    intro start s o h ho hn hs
    have hst : start = (o.length - d) % 32768 := by rcases hs with h | h <;> omega
    have hwin := h.win (o.length - d) (by omega) (by omega)
    rw [← hst] at hwin
    rw [Inf.copyLoop, copyBack, ← hwin]
    obtain ⟨b1, b2⟩ := h.byte (s.window start)
    obtain ⟨c1, c2⟩ := ih (start + 1) _ _ b1 (by rw [List.length_append]; omega) (by omega) (by
      rw [List.length_append, List.length_singleton]; omega)
    exact ⟨c1, b2.trans c2⟩

theorem WinOk.rest {s : Inf} {o : List Byte} (h : WinOk s o) {d n start : Nat} (hd : 1 ≤ d) (hd2 : d ≤ 32768) (ho : d ≤ o.length)
    (hn : start + n ≤ 32768) (hs : n = 0 ∨ start = (o.length - d) % 32768) :
    WinOk (s.copyRest start n) (copyBack d n o) ∧ s.Frame (s.copyRest start n) := by
  unfold Inf.copyRest
  split
  · exact h.copy hd hd2 n start s o ho hn hs
  · rename_i hc
    rw [not_or] at hc
    obtain ⟨c1, c2⟩ := hc
    simp only [windowSize] at c2
    have hcur := h.cur
    have hpl : (windowPart s.window start (start + n)).length = n := by simp [windowPart]
    obtain ⟨a1, a2⟩ := h.append (l := windowPart s.window start (start + n)) (by omega)
    rw [hpl] at a1 a2
    unfold Inf.wrap at a1 a2
    rw [if_neg (by simp only [windowSize]; omega)] at a1 a2
    refine ⟨?_, a2⟩
    have e : copyBack d n o = o ++ windowPart s.window start (start + n) := by
      by_cases hn0 : n = 0
      · subst hn0; simp [copyBack, windowPart]
      · have hst : start = (o.length - d) % 32768 := by rcases hs with h | h <;> omega
        have hdc : d ≤ s.current := by omega
        rw [copyBack_short ho (by omega), windowPart_eq (o := o) (base := o.length - s.current) (by omega) (by omega) (by
          intro i i1 i2
          have := h.win (o.length - s.current + i) (by omega) (by omega)
          rw [show (o.length - s.current + i) % 32768 = i by omega] at this
          exact this)]
        congr 2
        · omega
        · congr 1; omega
    rw [e]
    exact a1

/-- `OutputPast` appends what the specification says. -/
theorem WinOk.past {s : Inf} {o : List Byte} (h : WinOk s o) {d n : Nat} (hd : 1 ≤ d) (hd2 : d ≤ 32768) (ho : d ≤ o.length) (hn : n ≤ 32768) :
    ∃ t, s.outputPast n d = .ok t ∧ WinOk t (copyBack d n o) ∧ s.Frame t := by
  have hcur := h.cur
  have go : ∀ start, start < 32768 → start = (o.length - d) % 32768 →
      ∃ t, (if start + n > windowSize then
          (.ok ((Inf.copyLoop (windowSize - start) start s).copyRest 0 (n - (windowSize - start))) : Except Err Inf)
        else .ok (s.copyRest start n)) = .ok t ∧ WinOk t (copyBack d n o) ∧ s.Frame t := by
    intro start s1 s2
    have hw : windowSize = 32768 := rfl
    by_cases hgt : start + n > windowSize
    · rw [if_pos hgt]
      rw [hw] at hgt ⊢
      obtain ⟨a1, a2⟩ := h.copy hd hd2 (32768 - start) start s o ho (by omega) (.inr s2)
      obtain ⟨b1, b2⟩ := a1.rest (n := n - (32768 - start)) (start := 0) hd hd2 (by rw [copyBack_length]; omega) (by omega)
        (.inr (by rw [copyBack_length]; omega))
      rw [← copyBack_add, show 32768 - start + (n - (32768 - start)) = n by omega] at b1
      exact ⟨_, rfl, b1, a2.trans b2⟩
    · rw [if_neg hgt]
      obtain ⟨a1, a2⟩ := h.rest (n := n) (start := start) hd hd2 ho (by omega) (.inr s2)
      exact ⟨_, rfl, a1, a2⟩
  unfold Inf.outputPast
  simp only []
  by_cases hdc : d ≤ s.current
  · rw [if_pos hdc]
    exact go _ (by omega) (by omega)
  · rw [if_neg hdc, if_pos ⟨h.wr.2 (by omega), by simp only [windowSize]; exact hd2⟩]
    exact go _ (by simp only [windowSize]; omega) (by simp only [windowSize]; omega)

theorem WinOk.flushed {s : Inf} {o : List Byte} (h : WinOk s o) :
    WinOk s.flushOutput o ∧ s.Frame s.flushOutput ∧ (s.phase ≠ .preStream → s.flushOutput.out = o) := by
  unfold Inf.flushOutput
  by_cases hp : s.phase ≠ .preStream
  · rw [if_pos hp]
    obtain ⟨h1, h2, h3, h4, h5⟩ := h
    have e : s.out ++ windowPart s.window s.lastFlush s.current = o := by
      rw [h5, windowPart_eq (o := o) (base := o.length - s.current) h4 (by omega) (by
        intro i i1 i2
        have := h3 (o.length - s.current + i) (by omega) (by omega)
        rw [show (o.length - s.current + i) % 32768 = i by omega] at this
        exact this)]
      rw [List.take_of_length_le (l := o.drop _) (by rw [List.length_drop]; omega), List.take_append_drop]
    refine ⟨⟨h1, h2, h3, Nat.le_refl _, ?_⟩, rfl, fun _ => e⟩
    simp only []
    rw [e, List.take_of_length_le (by omega)]
  · rw [if_neg hp]
    exact ⟨h, Inf.Frame.refl _, fun h => absurd h hp⟩

end Verif.Flate
