import Verif.MQueue.Spec
import Mathlib.Tactic.ByContra

namespace Verif.MQueue

/-- The queue holds the abstract state. -/
structure Rep (q : MQ) (s : Abs) : Prop where
  content : q.content = s.done.flatten ++ s.cur
  lengths : q.lengths = s.done.map List.length ++ [s.cur.length]

theorem modLast_concat (f : Nat → Nat) (l : List Nat) (x : Nat) : modLast f (l ++ [x]) = l ++ [f x] := by
  induction l with
  | nil => rfl
  | cons a l ih =>
    cases l with
    | nil => rfl
    | cons b l => simp only [List.cons_append, modLast] at ih ⊢; rw [ih]

theorem rep_init : Rep MQ.init ⟨[], []⟩ := ⟨rfl, rfl⟩

theorem rep_put {q : MQ} {s : Abs} (h : Rep q s) (bs : List Byte) (e : Bool) : Rep (q.put2 bs e) (specStep s (.put bs e)).2 := by
  cases e
  · refine ⟨?_, ?_⟩
    · simp [MQ.put2, specStep, h.content, List.append_assoc]
    · simp [MQ.put2, specStep, h.lengths, modLast_concat]
  · refine ⟨?_, ?_⟩
    · simp [MQ.put2, specStep, h.content, List.append_assoc]
    · simp [MQ.put2, specStep, h.lengths, modLast_concat]

theorem rep_max {q : MQ} {s : Abs} (h : Rep q s) : q.maxRetrievable = s.front.length := by
  unfold MQ.maxRetrievable Abs.front
  rw [h.lengths]
  cases s.done <;> rfl

theorem rep_any {q : MQ} {s : Abs} (h : Rep q s) : q.anyRetrievable = decide (s.front ≠ []) := by
  unfold MQ.anyRetrievable
  rw [rep_max h, decide_eq_decide]
  cases s.front <;> simp

/-- The oldest message is at the head of the content. -/
theorem rep_front {q : MQ} {s : Abs} (h : Rep q s) : ∃ rest, q.content = s.front ++ rest ∧
    (∀ m, Rep ⟨m ++ rest, modHead (fun _ => m.length) q.lengths, q.counts⟩ (s.setFront m)) := by
  obtain ⟨done, cur⟩ := s
  cases done with
  | nil =>
    refine ⟨[], by simp [h.content, Abs.front], fun m => ⟨by simp [Abs.setFront], by simp [Abs.setFront, h.lengths, modHead]⟩⟩
  | cons d done =>
    refine ⟨done.flatten ++ cur, by simp [h.content, Abs.front], fun m => ⟨by simp [Abs.setFront], by simp [Abs.setFront, h.lengths, modHead]⟩⟩

theorem modHead_sub (l : List Nat) (n : Nat) : modHead (fun x => x - n) l = modHead (fun _ => l.headD 0 - n) l := by cases l <;> rfl

theorem rep_transfer {q : MQ} {s : Abs} (h : Rep q s) (n : Nat) :
    (q.transferTo n).1 = s.front.take n ∧ Rep (q.transferTo n).2 (s.setFront (s.front.drop n)) := by
  obtain ⟨rest, e, hr⟩ := rep_front h
  have hm := rep_max h
  unfold MQ.transferTo
  simp only
  rw [hm]
  refine ⟨?_, ?_⟩
  · rw [e, List.take_append_of_le_length (by omega)]
    by_cases hn : n ≤ s.front.length
    · rw [Nat.min_eq_right hn]
    · rw [Nat.min_eq_left (by omega), List.take_length, List.take_of_length_le (by omega)]
  · have hd : q.content.drop (min s.front.length n) = s.front.drop n ++ rest := by
      rw [e, List.drop_append_of_le_length (by omega)]
      by_cases hn : n ≤ s.front.length
      · rw [Nat.min_eq_right hn]
      · rw [Nat.min_eq_left (by omega), List.drop_length, List.drop_of_length_le (by omega)]
    have hl : modHead (fun x => x - min s.front.length n) q.lengths = modHead (fun _ => (s.front.drop n).length) q.lengths := by
      rw [modHead_sub]
      have : q.lengths.headD 0 = s.front.length := hm
      rw [this, List.length_drop]
      congr 1
      funext _
      omega
    rw [hd, hl]
    exact hr _

theorem rep_copyRange {q : MQ} {s : Abs} (h : Rep q s) (b e : Nat) : q.copyRange b e = (s.front.take e).drop b := by
  obtain ⟨rest, he, _⟩ := rep_front h
  unfold MQ.copyRange
  rw [rep_max h]
  split
  · rw [List.drop_of_length_le]; rw [List.length_take]; omega
  · rw [he, List.drop_append_of_le_length (by omega), List.drop_take]
    rw [List.take_append_of_le_length (by rw [List.length_drop]; omega)]
    by_cases hn : e ≤ s.front.length
    · rw [Nat.min_eq_right hn]
    · rw [Nat.min_eq_left (by omega), List.take_of_length_le (by rw [List.length_drop]; exact Nat.le_refl _), List.take_of_length_le (by rw [List.length_drop]; omega)]

theorem rep_number {q : MQ} {s : Abs} (h : Rep q s) (hw : s.done.length < 2 ^ 32) : q.numberOfMessages = s.done.length := by
  unfold MQ.numberOfMessages
  rw [h.lengths, BitVec.toNat_sub, BitVec.toNat_ofNat, BitVec.toNat_ofNat, List.length_append, List.length_map, List.length_singleton]
  omega

theorem rep_anyMessages {q : MQ} {s : Abs} (h : Rep q s) (hw : s.done.length < 2 ^ 32) : q.anyMessages = decide (s.done ≠ []) := by
  unfold MQ.anyMessages
  rw [rep_number h hw]
  cases s.done <;> simp

theorem rep_counts {q : MQ} {s : Abs} (h : Rep q s) (c : List Nat) : Rep { q with counts := c } s := ⟨h.content, h.lengths⟩

theorem rep_next {q : MQ} {s : Abs} (h : Rep q s) (hw : s.done.length < 2 ^ 32) :
    (specStep s .nextMessage).1 = .bool q.getNextMessage.1 ∧ Rep q.getNextMessage.2 (specStep s .nextMessage).2 := by
  unfold MQ.getNextMessage
  rw [rep_number h hw, rep_any h]
  obtain ⟨done, cur⟩ := s
  cases done with
  | nil => simpa [specStep] using h
  | cons d done =>
    cases d with
    | nil =>
      have hr : Rep ⟨q.content, q.lengths.tail, q.counts⟩ ⟨done, cur⟩ := ⟨by simpa using h.content, by simp [h.lengths]⟩
      simp only [Abs.front, List.length_cons, specStep]
      rw [if_pos (by simp)]
      refine ⟨rfl, ?_⟩
      simp only
      split
      · exact rep_counts hr _
      · exact hr
    | cons b d =>
      simp only [Abs.front, List.length_cons, specStep]
      rw [if_neg (by simp)]
      exact ⟨rfl, h⟩

theorem drain {q : MQ} {s : Abs} (h : Rep q s) (fuel : Nat) (hf : 2 ≤ fuel) :
    ∃ q', drainLoop fuel q = .ok (s.front.map some, q') ∧ Rep q' (s.setFront []) ∧ q'.content.length ≤ q.content.length := by
  obtain ⟨f, rfl⟩ : ∃ f, fuel = f + 2 := ⟨fuel - 2, by omega⟩
  by_cases hz : s.front = []
  · refine ⟨q, ?_, ?_, Nat.le_refl _⟩
    · rw [drainLoop, if_neg (by rw [rep_any h, hz]; simp), hz]; rfl
    · have : s.setFront [] = s := by
        obtain ⟨done, cur⟩ := s
        cases done <;> simp_all [Abs.front, Abs.setFront]
      rw [this]; exact h
  · obtain ⟨e1, e2⟩ := rep_transfer h s.front.length
    rw [List.drop_length] at e2
    have hfr : (s.setFront []).front = [] := by
      obtain ⟨done, cur⟩ := s
      cases done <;> rfl
    refine ⟨(q.transferTo s.front.length).2, ?_, e2, by simp [MQ.transferTo]⟩
    rw [drainLoop, if_pos (by rw [rep_any h]; simpa using hz), rep_max h]
    simp only
    rw [drainLoop, if_neg (by rw [rep_any e2, hfr]; simp), e1, List.take_length]
    simp

theorem transferMessages_spec (fuel : Nat) (hf : 2 ≤ fuel) (n : Nat) : ∀ {q : MQ} {s : Abs}, Rep q s → s.done.length < 2 ^ 32 →
    ∃ q', transferMessages fuel n q = .ok (((s.done.take n).map msgToks).flatten, (s.done.take n).length, q') ∧ Rep q' ⟨s.done.drop n, s.cur⟩ ∧
      q'.content.length ≤ q.content.length := by
  induction n with
  | zero => intro q s h _; exact ⟨q, by simp [transferMessages], by simpa using h, Nat.le_refl _⟩
  | succ n ih =>
    intro q s h hw
    obtain ⟨done, cur⟩ := s
    cases done with
    | nil =>
      refine ⟨q, ?_, by simpa using h, Nat.le_refl _⟩
      rw [transferMessages, if_neg (by rw [rep_anyMessages h hw]; simp)]; simp
    | cons d done =>
      obtain ⟨q1, e1, h1, l1⟩ := drain h fuel hf
      simp only [Abs.setFront] at h1
      obtain ⟨_, h2⟩ := rep_next h1 hw
      simp only [specStep] at h2
      have l2 : q1.getNextMessage.2.content = q1.content := by
        unfold MQ.getNextMessage
        split
        · simp only; split <;> rfl
        · rfl
      obtain ⟨q3, e3, h3, l3⟩ := ih h2 (by simp at hw; simp; omega)
      refine ⟨q3, ?_, by simpa using h3, by rw [l2] at l3; omega⟩
      rw [transferMessages, if_pos (by rw [rep_anyMessages h hw]; simp), e1]
      simp only [e3]
      simp [Abs.front, msgToks]

theorem copyLoop_spec (n : Nat) (done : List (List Byte)) (cur : List Byte) :
    copyLoop n (done.map List.length) (done.flatten ++ cur) = (((done.take n).map msgToks).flatten, (done.take n).length) := by
  induction n generalizing done with
  | zero => simp [copyLoop]
  | succ n ih =>
    cases done with
    | nil => rfl
    | cons d done =>
      simp only [List.map_cons, copyLoop, List.flatten_cons, List.append_assoc]
      rw [List.drop_left, List.take_left, ih done]
      simp [msgToks]

theorem copyMessages_spec {q : MQ} {s : Abs} (h : Rep q s) (n : Nat) :
    q.copyMessagesTo n = (((s.done.take n).map msgToks).flatten, (s.done.take n).length) := by
  unfold MQ.copyMessagesTo
  rw [h.lengths, h.content, List.dropLast_concat, copyLoop_spec]

theorem allBytes (um : Nat) (hum : 0 < um) (n : Nat) : ∀ {q : MQ} {c : List Byte} (f : Nat), Rep q ⟨[], c⟩ → c.length ≤ n → n < f →
    ∃ q', allBytesLoop um f q = .ok (c.map some, q') ∧ Rep q' ⟨[], []⟩ := by
  induction n with
  | zero =>
    intro q c f h hc hf
    obtain ⟨f, rfl⟩ : ∃ k, f = k + 1 := ⟨f - 1, by omega⟩
    have : c = [] := List.eq_nil_of_length_eq_zero (by omega)
    subst this
    obtain ⟨e1, e2⟩ := rep_transfer h um
    simp [Abs.front, Abs.setFront] at e1 e2
    refine ⟨_, ?_, e2⟩
    rw [allBytesLoop]
    simp [e1]
  | succ n ih =>
    intro q c f h hc hf
    obtain ⟨f, rfl⟩ : ∃ k, f = k + 1 := ⟨f - 1, by omega⟩
    obtain ⟨e1, e2⟩ := rep_transfer h um
    simp only [Abs.front, Abs.setFront] at e1 e2
    by_cases hz : c = []
    · subst hz
      simp at e1 e2
      refine ⟨_, ?_, e2⟩
      rw [allBytesLoop]
      simp [e1]
    · have hl : 0 < c.length := List.length_pos_iff.mpr hz
      obtain ⟨q', e3, h3⟩ := ih f e2 (by rw [List.length_drop]; omega) (by omega)
      refine ⟨q', ?_, h3⟩
      rw [allBytesLoop]
      rw [if_neg (by rw [e1, List.length_take]; omega), e3, e1]
      show Except.ok (_, _) = _
      rw [← List.map_append, List.take_append_drop]

theorem allMessages {q : MQ} {s : Abs} (h : Rep q s) (hw : s.done.length + 1 < 2 ^ 32) (uintMax : Nat) (hum : uintMax = 2 ^ 32 - 1) (F k : Nat) (hF : 2 ≤ F) :
    ∃ q3, allMessagesLoop uintMax F (k + 2) q = .ok ((s.done.map msgToks).flatten, q3) ∧ Rep q3 ⟨[], s.cur⟩ := by
  have hu : s.done.length ≤ uintMax := by rw [hum]; omega
  obtain ⟨q1, e1, h1, _⟩ := transferMessages_spec F hF uintMax h (by omega)
  have d0 : s.done.drop uintMax = [] := List.drop_of_length_le hu
  have t0 : s.done.take uintMax = s.done := List.take_of_length_le hu
  rw [d0] at h1
  rw [t0] at e1
  obtain ⟨q2, e2, h2, _⟩ := transferMessages_spec F hF uintMax h1 (by simp)
  simp only [List.take_nil, List.map_nil, List.flatten_nil, List.length_nil, List.drop_nil] at e2 h2
  rw [allMessagesLoop, e1]
  by_cases hz : s.done = []
  · refine ⟨q1, ?_, h1⟩
    show (if s.done.length = 0 then _ else _) = _
    rw [if_pos (by simp [hz])]
  · refine ⟨q2, ?_, h2⟩
    show (if s.done.length = 0 then _ else _) = _
    have e3 : allMessagesLoop uintMax F (k + 1) q1 = .ok ([], q2) := by rw [allMessagesLoop, e2]; rfl
    rw [if_neg (by simpa using hz), e3]
    simp only [List.append_nil]

theorem transferAll_spec {q : MQ} {s : Abs} (h : Rep q s) (hw : s.done.length + 1 < 2 ^ 32) (ui um : Nat) (hui : ui = 2 ^ 32 - 1) (hum : 0 < um) :
    ∃ q', q.transferAll ui (q.content.length + 3) um = .ok (s.toks, q') ∧ Rep q' ⟨[], []⟩ := by
  have hl : s.cur.length ≤ q.content.length := by rw [h.content]; simp
  obtain ⟨q3, e3, h3⟩ := allMessages h hw ui hui (q.content.length + 3) (q.content.length + 1) (by omega)
  obtain ⟨q4, e4, h4⟩ := allBytes um hum q.content.length (q.content.length + 3) h3 hl (by omega)
  refine ⟨q4, ?_, h4⟩
  unfold MQ.transferAll
  rw [e3]
  show (match allBytesLoop um (q.content.length + 3) q3 with | .error e => Except.error e | .ok (out2, q) => .ok ((s.done.map msgToks).flatten ++ out2, q)) = _
  rw [e4]
  rfl

theorem step_spec (ui um : Nat) (hui : ui = 2 ^ 32 - 1) (hum : 0 < um) {q : MQ} {s : Abs} (h : Rep q s) (hw : s.done.length + 1 < 2 ^ 32) (op : Op) :
    (step ui um q op).1 = (specStep s op).1 ∧ Rep (step ui um q op).2 (specStep s op).2 := by
  cases op with
  | put bs e => exact ⟨by cases e <;> rfl, rep_put h bs e⟩
  | seriesEnd => exact ⟨rfl, rep_counts h _⟩
  | get n =>
    obtain ⟨e1, e2⟩ := rep_transfer h n
    exact ⟨by simp [step, specStep, e1], e2⟩
  | copyRange b e => exact ⟨by simp [step, specStep, rep_copyRange h], h⟩
  | nextMessage =>
    obtain ⟨e1, e2⟩ := rep_next h (by omega)
    exact ⟨by rw [e1]; simp only [step], by simp only [step]; exact e2⟩
  | maxRetrievable => exact ⟨by simp [step, specStep, rep_max h], h⟩
  | anyRetrievable => exact ⟨by simp [step, specStep, rep_any h], h⟩
  | totalBytes => exact ⟨by simp [step, specStep, MQ.total, h.content], h⟩
  | numberOfMessages => exact ⟨by simp only [step, specStep]; rw [rep_number h (by omega)], h⟩
  | anyMessages => exact ⟨by simp only [step, specStep]; rw [rep_anyMessages h (by omega)], h⟩
  | transferMessages n =>
    obtain ⟨q', e, h', _⟩ := transferMessages_spec (q.content.length + 3) (by omega) n h (by omega)
    exact ⟨by simp only [step, e, specStep], by simp only [step, e, specStep]; exact h'⟩
  | copyMessages n => exact ⟨by simp only [step, copyMessages_spec h, specStep], h⟩
  | transferAll =>
    obtain ⟨q', e, h'⟩ := transferAll_spec h hw ui um hui hum
    exact ⟨by simp only [step, e, specStep]; rw [rep_number h (by omega)], by simp only [step, e, specStep]; exact h'⟩
  | «initialize» => exact ⟨rfl, rep_init⟩

theorem run_spec (ui um : Nat) (hui : ui = 2 ^ 32 - 1) (hum : 0 < um) (ops : List Op) : ∀ {q : MQ} {s : Abs}, Rep q s → Within s ops → run ui um q ops = specRun s ops := by
  induction ops with
  | nil => intro _ _ _ _; rfl
  | cons op ops ih =>
    intro q s h hw
    obtain ⟨e, h'⟩ := step_spec ui um hui hum h hw.1 op
    rw [run, specRun, e, ih h' hw.2]

/-! ## EqualityComparisonFilter -/

theorem get_lt {α : Type} {s : List α} {i : Nat} {x : α} (h : s[i]? = some x) : i < s.length := by
  by_contra hc
  rw [List.getElem?_eq_none (by omega)] at h
  cases h

theorem Compatible.get {s t : List Tok} (h : Compatible s t) (i : Nat) {x y : Tok} (hx : s[i]? = some x) (hy : t[i]? = some y) : x = y := by
  rcases h with ⟨r, rfl⟩ | ⟨r, rfl⟩
  · rw [List.getElem?_append_left (get_lt hx), hx] at hy
    exact Option.some.inj hy
  · rw [List.getElem?_append_left (get_lt hy), hy] at hx
    exact (Option.some.inj hx).symm

theorem setFront_front (s : Abs) : s.setFront s.front = s := by
  obtain ⟨done, cur⟩ := s
  cases done <;> rfl

theorem front_setFront (s : Abs) (m : List Byte) : (s.setFront m).front = m := by
  obtain ⟨done, cur⟩ := s
  cases done <;> rfl

theorem setFront_setFront (s : Abs) (m m' : List Byte) : (s.setFront m).setFront m' = s.setFront m' := by
  obtain ⟨done, cur⟩ := s
  cases done <;> rfl

/-- The result of the comparison loop: either a difference was found, or a common prefix was stripped until one side was used up. -/
def LoopPost (bs : List Byte) (s : Abs) (counts : List Nat) (r : Option (List Byte × MQ)) : Prop :=
  (r = none ∧ ∃ (i : Nat) (x y : Byte), bs[i]? = some x ∧ s.front[i]? = some y ∧ x ≠ y) ∨
  (∃ (k : Nat) (q' : MQ), r = some (bs.drop k, q') ∧ k ≤ bs.length ∧ k ≤ s.front.length ∧ bs.take k = s.front.take k ∧
        Rep q' (s.setFront (s.front.drop k)) ∧ (bs.drop k = [] ∨ s.front.drop k = []) ∧ q'.counts = counts)

theorem take_ne {α : Type} {a b : List α} {n : Nat} (ha : n ≤ a.length) (hb : n ≤ b.length) (h : a.take n ≠ b.take n) :
    ∃ (i : Nat) (x y : α), a[i]? = some x ∧ b[i]? = some y ∧ x ≠ y := by
  by_contra hc
  apply h
  apply List.ext_getElem?
  intro i
  by_cases hi : i < n
  · rw [List.getElem?_take_of_lt hi, List.getElem?_take_of_lt hi, List.getElem?_eq_getElem (by omega), List.getElem?_eq_getElem (by omega)]
    by_cases he : a[i] = b[i]
    · rw [he]
    · exact absurd ⟨i, a[i], b[i], List.getElem?_eq_getElem (by omega), List.getElem?_eq_getElem (by omega), he⟩ hc
  · rw [List.getElem?_eq_none (by rw [List.length_take]; omega), List.getElem?_eq_none (by rw [List.length_take]; omega)]

theorem cmpLoop_spec (spy : List Byte → Nat) (hspy : ∀ l, l ≠ [] → 0 < spy l) (f : Nat) : ∀ (bs : List Byte) {q : MQ} {s : Abs}, Rep q s →
    bs.length ≤ f → LoopPost bs s q.counts (cmpLoop spy f bs q) := by
  induction f with
  | zero =>
    intro bs q s h hl
    have : bs = [] := List.eq_nil_of_length_eq_zero (by omega)
    subst this
    exact Or.inr ⟨0, q, rfl, Nat.le_refl _, Nat.zero_le _, rfl, by rw [List.drop_zero, setFront_front]; exact h, Or.inl rfl, rfl⟩
  | succ f ih =>
    intro bs q s h hl
    rw [cmpLoop]
    by_cases hc : 0 < bs.length ∧ q.anyRetrievable = true
    · rw [if_pos hc, rep_max h]
      have hf : s.front ≠ [] := by have := hc.2; rw [rep_any h] at this; simpa using this
      have hfl : 0 < s.front.length := List.length_pos_iff.mpr hf
      have hcn : q.content ≠ [] := by
        obtain ⟨rest, e, _⟩ := rep_front h
        rw [e]; simp [hf]
      have hs := hspy _ hcn
      obtain ⟨n, hn⟩ : ∃ n, n = min (min (spy q.content) s.front.length) bs.length := ⟨_, rfl⟩
      have n1 : n ≤ bs.length := by omega
      have n2 : n ≤ s.front.length := by omega
      have n0 : 0 < n := by omega
      have ht : q.content.take n = s.front.take n := by
        obtain ⟨rest, e, _⟩ := rep_front h
        rw [e, List.take_append_of_le_length n2]
      simp only
      rw [← hn]
      simp only [ht]
      by_cases hne : bs.take n ≠ s.front.take n
      · rw [if_pos hne]
        exact Or.inl ⟨rfl, take_ne n1 n2 hne⟩
      · rw [if_neg hne]
        simp only [ne_eq, not_not] at hne
        obtain ⟨_, h2⟩ := rep_transfer h n
        have hcnt : (q.transferTo n).2.counts = q.counts := rfl
        rcases ih (bs.drop n) h2 (by rw [List.length_drop]; omega) with ⟨e, i, x, y, hx, hy, hxy⟩ | ⟨k, q', e, k1, k2, ht', hr, hd, hcn'⟩
        · rw [front_setFront] at hy
          rw [List.getElem?_drop] at hx hy
          exact Or.inl ⟨e, n + i, x, y, hx, hy, hxy⟩
        · rw [front_setFront] at k2 ht' hr hd
          rw [setFront_setFront, List.drop_drop] at hr
          rw [List.drop_drop, List.drop_drop] at hd
          rw [List.length_drop] at k1 k2
          refine Or.inr ⟨n + k, q', by rw [e, List.drop_drop], by omega, by omega, ?_, hr, hd, by rw [hcn', hcnt]⟩
          rw [List.take_add, List.take_add, hne, ht']
    · rw [if_neg hc]
      refine Or.inr ⟨0, q, rfl, Nat.zero_le _, Nat.zero_le _, rfl, by rw [List.drop_zero, setFront_front]; exact h, ?_, rfl⟩
      by_cases h0 : bs = []
      · exact Or.inl h0
      · right
        by_contra hne
        exact hc ⟨List.length_pos_iff.mpr h0, by rw [rep_any h]; simpa using hne⟩

/-- The tokens of one call. -/
def callToks (bs : List Byte) (e : Bool) : List Tok := bs.map some ++ (if e then [none] else [])

theorem toks_nil {s : Abs} : s.toks = [] ↔ s = ⟨[], []⟩ := by
  obtain ⟨done, cur⟩ := s
  cases done with
  | nil => simp [Abs.toks]
  | cons d done => simp [Abs.toks, msgToks]

theorem toks_put (s : Abs) (bs : List Byte) (e : Bool) : (specStep s (.put bs e)).2.toks = s.toks ++ callToks bs e := by
  cases e <;> simp [specStep, Abs.toks, callToks, msgToks]

theorem modLast_length (f : Nat → Nat) (l : List Nat) : (modLast f l).length = l.length := by
  induction l with
  | nil => rfl
  | cons a l ih =>
    cases l with
    | nil => rfl
    | cons b l => simp only [modLast, List.length_cons] at ih ⊢; omega

theorem put2_series (q : MQ) (bs : List Byte) (e : Bool) : (q.put2 bs e).numberOfSeries = q.numberOfSeries := by
  unfold MQ.numberOfSeries MQ.put2
  cases e
  · rfl
  · simp [modLast_length]

theorem next_series (q : MQ) (h : q.numberOfSeries = 0) : q.getNextMessage.2.numberOfSeries = 0 := by
  unfold MQ.numberOfSeries MQ.getNextMessage at *
  split
  · simp only
    split
    · simp; omega
    · exact h
  · exact h

theorem get_callToks_lt {bs : List Byte} {i : Nat} {x : Byte} (e : Bool) (h : bs[i]? = some x) : (callToks bs e)[i]? = some (some x) := by
  unfold callToks
  rw [List.getElem?_append_left (by rw [List.length_map]; exact get_lt h), List.getElem?_map, h]; rfl

theorem get_toks_front {s : Abs} {i : Nat} {x : Byte} (h : s.front[i]? = some x) : s.toks[i]? = some (some x) := by
  obtain ⟨done, cur⟩ := s
  have hl := get_lt h
  cases done with
  | nil => simp only [Abs.front] at h; simp [Abs.toks, h]
  | cons d done =>
    simp only [Abs.front] at h hl
    simp only [Abs.toks, msgToks, List.map_cons, List.flatten_cons, List.append_assoc]
    rw [List.getElem?_append_left (by rw [List.length_map]; exact hl), List.getElem?_map, h]; rfl

/-- What one `ChannelPut2` does when at most one of the queues holds tokens. -/
def PutPost (sa sb : Abs) (t : List Tok) (r : Option (MQ × MQ)) : Prop :=
  (r = none ∧ sa = ⟨[], []⟩ ∧ ¬ Compatible t sb.toks) ∨
  (∃ a' b' sa' sb', r = some (a', b') ∧ Rep a' sa' ∧ Rep b' sb' ∧ a'.numberOfSeries = 0 ∧ b'.numberOfSeries = 0 ∧
    (sa' = ⟨[], []⟩ ∨ sb' = ⟨[], []⟩) ∧ sa.toks ++ t ++ sb'.toks = sb.toks ++ sa'.toks ∧
    sb'.done.length ≤ sb.done.length ∧ sa'.done.length ≤ sa.done.length + 1)

theorem cmpPut_spec (spy : List Byte → Nat) (hspy : ∀ l, l ≠ [] → 0 < spy l) {a b : MQ} {sa sb : Abs} (ha : Rep a sa) (hb : Rep b sb)
    (hab : sa = ⟨[], []⟩ ∨ sb = ⟨[], []⟩) (na : a.numberOfSeries = 0) (nb : b.numberOfSeries = 0) (wb : sb.done.length < 2 ^ 32) (bs : List Byte) (e : Bool) :
    PutPost sa sb (callToks bs e) (cmpPut spy a b bs e) := by
  unfold cmpPut
  rw [rep_anyMessages hb wb, rep_max hb]
  obtain ⟨done, cur⟩ := sb
  cases done with
  | nil =>
    rw [if_neg (by simp)]
    have hp := rep_put ha
    rcases cmpLoop_spec spy hspy bs.length bs hb (Nat.le_refl _) with ⟨el, i, x, y, hx, hy, hxy⟩ | ⟨k, q', el, k1, k2, ht, hr, hd, hcn⟩
    · rw [el]
      refine Or.inl ⟨rfl, ?_, ?_⟩
      · rcases hab with h | h
        · exact h
        · injection h with h1 h2; subst h2; simp [Abs.front] at hy
      · intro hcomp
        exact hxy (Option.some.inj (hcomp.get i (get_callToks_lt e hx) (get_toks_front hy)))
    · rw [el]
      simp only [Abs.front, Abs.setFront] at k2 ht hr hd ⊢
      have wr : (⟨[], cur.drop k⟩ : Abs).done.length < 2 ^ 32 := by simp
      have nq : q'.numberOfSeries = 0 := by unfold MQ.numberOfSeries at *; rw [hcn]; exact nb
      -- the rest of the input goes to this channel's queue
      have hra := rep_put ha (bs.drop k) false
      have hk : sa = ⟨[], []⟩ ∨ (k = 0 ∧ cur = []) := by
        rcases hab with h | h
        · exact Or.inl h
        · injection h with h1 h2; subst h2; right; exact ⟨by simpa using k2, rfl⟩
      have one : bs.drop k = [] ∨ cur.drop k = [] := hd
      have hbs : bs.map some = (cur.take k).map some ++ (bs.drop k).map (some : Byte → Tok) := by
        rw [← ht, ← List.map_append, List.take_append_drop]
      have hcur : cur.map some = (cur.take k).map some ++ (cur.drop k).map (some : Byte → Tok) := by
        rw [← List.map_append, List.take_append_drop]
      cases e
      · refine Or.inr ⟨_, _, _, _, rfl, hra, hr, by rw [put2_series]; exact na, nq, ?_, ?_, by simp, by simp [specStep]⟩
        · rcases hk with h | ⟨h, h'⟩
          · rcases one with h2 | h2
            · left; subst h; simp [specStep, h2]
            · right; rw [h2]
          · right; subst h'; simp
        · rw [toks_put]
          rcases hk with h | ⟨h, h'⟩
          · subst h
            simp only [callToks, Abs.toks, List.map_nil, List.flatten_nil, List.nil_append, Bool.false_eq_true, if_false, List.append_nil]
            rw [hbs, hcur]
            rcases one with h2 | h2 <;> simp [h2]
          · subst h; subst h'
            simp [callToks, Abs.toks]
      · simp only [if_true]
        rw [rep_any hr]
        by_cases hz : cur.drop k = []
        · rw [if_neg (by simp [Abs.front, hz]), rep_anyMessages hr wr, if_neg (by simp), nq, if_neg (by simp)]
          have hra2 := rep_put hra [] true
          refine Or.inr ⟨_, _, _, _, rfl, hra2, hr, by rw [put2_series, put2_series]; exact na, nq, Or.inr (by rw [hz]), ?_, by simp, by simp [specStep]⟩
          rw [toks_put, toks_put]
          rcases hk with h | ⟨h, h'⟩
          · subst h
            simp only [callToks, Abs.toks, List.map_nil, List.flatten_nil, List.nil_append, if_true, Bool.false_eq_true, if_false, List.append_nil]
            rw [hbs, hcur]; simp [hz]
          · subst h; subst h'
            simp [callToks, Abs.toks]
        · have hd0 : bs.drop k = [] := by rcases one with h | h; exact h; exact absurd h hz
          rw [if_pos (by simpa [Abs.front] using hz)]
          refine Or.inl ⟨rfl, ?_, ?_⟩
          · rcases hk with h | ⟨h, h'⟩
            · exact h
            · subst h'; simp at hz
          · intro hcomp
            have hkl : k = bs.length := by have := List.drop_eq_nil_iff.mp hd0; omega
            have hlt : k < cur.length := by
              by_contra hge; exact hz (List.drop_of_length_le (by omega))
            have h1 : (callToks bs true)[k]? = some none := by simp [callToks, hkl]
            have h2 : (⟨[], cur⟩ : Abs).toks[k]? = some (some cur[k]) := get_toks_front (s := ⟨[], cur⟩) (List.getElem?_eq_getElem hlt)
            exact absurd (hcomp.get k h1 h2) (by simp)
  | cons m d =>
    have hsa : sa = ⟨[], []⟩ := by
      rcases hab with h | h
      · exact h
      · injection h with h1 _; cases h1
    subst hsa
    by_cases hlen : m.length < bs.length
    · rw [if_pos ⟨by simp, by simpa [Abs.front] using hlen⟩]
      refine Or.inl ⟨rfl, rfl, ?_⟩
      intro hcomp
      have h1 : (callToks bs e)[m.length]? = some (some bs[m.length]) := get_callToks_lt e (List.getElem?_eq_getElem hlen)
      have h2 : (⟨m :: d, cur⟩ : Abs).toks[m.length]? = some none := by simp [Abs.toks, msgToks]
      exact absurd (hcomp.get _ h1 h2) (by simp)
    · rw [if_neg (fun h => hlen (by simpa [Abs.front] using h.2))]
      rcases cmpLoop_spec spy hspy bs.length bs hb (Nat.le_refl _) with ⟨el, i, x, y, hx, hy, hxy⟩ | ⟨k, q', el, k1, k2, ht, hr, hd, hcn⟩
      · rw [el]
        refine Or.inl ⟨rfl, rfl, ?_⟩
        intro hcomp
        exact hxy (Option.some.inj (hcomp.get i (get_callToks_lt e hx) (get_toks_front hy)))
      · rw [el]
        simp only [Abs.front, Abs.setFront] at k2 ht hr hd ⊢
        have hkl : k = bs.length := by
          rcases hd with h | h
          · have := List.drop_eq_nil_iff.mp h; omega
          · have := List.drop_eq_nil_iff.mp h; omega
        subst hkl
        rw [List.drop_length]
        rw [List.take_length] at ht
        have nq : q'.numberOfSeries = 0 := by unfold MQ.numberOfSeries at *; rw [hcn]; exact nb
        have hra := rep_put ha [] false
        have hm : m = bs ++ m.drop bs.length := by
          conv => lhs; rw [← List.take_append_drop bs.length m, ← ht]
        cases e
        · refine Or.inr ⟨_, _, _, _, rfl, hra, hr, by rw [put2_series]; exact na, nq, Or.inl rfl, ?_, by simp, by simp [specStep]⟩
          conv => rhs; rw [hm]
          simp [callToks, Abs.toks, msgToks, specStep]
        · simp only [if_true]
          rw [rep_any hr, rep_anyMessages hr (by simpa using wb)]
          by_cases hz : m.drop bs.length = []
          · rw [if_neg (by simp [Abs.front, hz]), if_pos (by simp)]
            rw [hz] at hr
            obtain ⟨_, hn⟩ := rep_next hr (by simpa using wb)
            refine Or.inr ⟨_, _, _, _, rfl, hra, hn, by rw [put2_series]; exact na, next_series _ nq, Or.inl rfl, ?_, by simp [specStep], by simp [specStep]⟩
            rw [hz, List.append_nil] at hm
            subst hm
            simp [callToks, Abs.toks, msgToks, specStep]
          · rw [if_pos (by simpa [Abs.front] using hz)]
            refine Or.inl ⟨rfl, rfl, ?_⟩
            intro hcomp
            have hlt : bs.length < m.length := by
              by_contra hge; exact hz (List.drop_of_length_le (by omega))
            have h1 : (callToks bs true)[bs.length]? = some none := by simp [callToks]
            have h2 : (⟨m :: d, cur⟩ : Abs).toks[bs.length]? = some (some m[bs.length]) := get_toks_front (s := ⟨m :: d, cur⟩) (List.getElem?_eq_getElem hlt)
            exact absurd (hcomp.get _ h1 h2) (by simp)

theorem not_compatible_append {s t : List Tok} (h : ¬ Compatible s t) (u v : List Tok) : ¬ Compatible (s ++ u) (t ++ v) := by
  intro hc
  apply h
  have key : ∀ {a b : List Tok}, a <+: b ++ v ∨ a <+: b ++ u → Compatible a b := by
    intro a b h
    rcases h with h | h
    · exact List.prefix_or_prefix_of_prefix h (List.prefix_append b v)
    · exact List.prefix_or_prefix_of_prefix h (List.prefix_append b u)
  rcases hc with h | h
  · exact key (Or.inl ((List.prefix_append s u).trans h))
  · exact Or.symm (key (Or.inr ((List.prefix_append t v).trans h)))

theorem compatible_cancel {p s t : List Tok} (h : Compatible (p ++ s) (p ++ t)) : Compatible s t := by
  rcases h with h | h
  · exact Or.inl ((List.prefix_append_right_inj p).mp h)
  · exact Or.inr ((List.prefix_append_right_inj p).mp h)

theorem compatible_symm {s t : List Tok} (h : Compatible s t) : Compatible t s := Or.symm h

/-- The filter has seen `s0` and `s1` and found no mismatch: the queues hold what is left after a common prefix, and one of them is empty. -/
structure CmpInv (c : Cmp) (s0 s1 : List Tok) (n : Nat) : Prop where
  ok : c.mismatch = false
  sent : c.sent = []
  split : ∃ (p : List Tok) (a0 a1 : Abs), Rep c.q0 a0 ∧ Rep c.q1 a1 ∧ s0 = p ++ a0.toks ∧ s1 = p ++ a1.toks ∧
    (a0 = ⟨[], []⟩ ∨ a1 = ⟨[], []⟩) ∧ a0.done.length ≤ n ∧ a1.done.length ≤ n
  n0 : c.q0.numberOfSeries = 0
  n1 : c.q1.numberOfSeries = 0

theorem cmpRun_mismatch (spy : List Byte → Nat) (throws : Bool) (c : Cmp) (hc : c.mismatch = true) (h : List (Bool × List Byte × Bool)) :
    cmpRun spy throws c h = (c, false) := by
  induction h with
  | nil => rfl
  | cons o h ih =>
    obtain ⟨i, bs, e⟩ := o
    simp [cmpRun, Cmp.put, hc, ih]

theorem split_step {p : List Tok} {sa sb sa' sb' : Abs} {t : List Tok} (h : sa.toks ++ t ++ sb'.toks = sb.toks ++ sa'.toks)
    (hz : sa' = ⟨[], []⟩ ∨ sb' = ⟨[], []⟩) : ∃ p', (p ++ sa.toks) ++ t = p' ++ sa'.toks ∧ p ++ sb.toks = p' ++ sb'.toks := by
  rcases hz with hz | hz
  · subst hz
    rw [toks_nil.mpr rfl, List.append_nil] at *
    exact ⟨p ++ sa.toks ++ t, by rw [List.append_nil], by rw [← h]; simp⟩
  · subst hz
    rw [toks_nil.mpr rfl, List.append_nil] at *
    exact ⟨p ++ sb.toks, by rw [List.append_assoc, h]; simp, by rw [List.append_nil]⟩

theorem cmpRun_spec (spy : List Byte → Nat) (hspy : ∀ l, l ≠ [] → 0 < spy l) (throws : Bool) (h : List (Bool × List Byte × Bool)) :
    ∀ {c : Cmp} {s0 s1 : List Tok} {n : Nat}, CmpInv c s0 s1 n → n + h.length < 2 ^ 32 →
      let r := cmpRun spy throws c h
      (r.1.mismatch = true ↔ ¬ Compatible (s0 ++ streamOf false h) (s1 ++ streamOf true h)) ∧
      r.1.sent = (if r.1.mismatch && !throws then [0#8] else []) ∧ r.2 = (r.1.mismatch && throws) := by
  induction h with
  | nil =>
    intro c s0 s1 n inv _
    simp only [cmpRun, streamOf, List.append_nil, inv.ok, inv.sent, Bool.false_and, Bool.false_eq_true, if_false, false_iff, not_not, and_true]
    obtain ⟨p, a0, a1, _, _, e0, e1, hz, _⟩ := inv.split
    subst e0; subst e1
    rcases hz with rfl | rfl
    · rw [toks_nil.mpr rfl, List.append_nil]; exact Or.inl (List.prefix_append _ _)
    · rw [toks_nil.mpr rfl, List.append_nil]; exact Or.inr (List.prefix_append _ _)
  | cons o h ih =>
    obtain ⟨i, bs, e⟩ := o
    intro c s0 s1 n inv hn
    rw [List.length_cons] at hn
    obtain ⟨p, a0, a1, r0, r1, e0, e1, hz, l0, l1⟩ := inv.split
    have bad : ∀ (c' : Cmp), c' = (c.handle throws).1 → ∀ u v, ¬ Compatible u v → ∀ r, r = ((cmpRun spy throws c' h).1, (c.handle throws).2 || (cmpRun spy throws c' h).2) →
        (r.1.mismatch = true ↔ ¬ Compatible u v) ∧ r.1.sent = (if r.1.mismatch && !throws then [0#8] else []) ∧ r.2 = (r.1.mismatch && throws) := by
      intro c' hc' u v huv r hr
      have hm : c'.mismatch = true := by subst hc'; unfold Cmp.handle; cases throws <;> rfl
      rw [cmpRun_mismatch spy throws c' hm] at hr
      subst hr
      simp only [hm, true_iff]
      refine ⟨huv, ?_, ?_⟩
      · subst hc'; unfold Cmp.handle; cases throws <;> simp [inv.sent]
      · unfold Cmp.handle; cases throws <;> rfl
    cases i with
    | false =>
      simp only [cmpRun, Cmp.put, inv.ok, Bool.false_eq_true, if_false, streamOf, reduceCtorEq, List.nil_append]
      rw [if_pos trivial]
      rcases cmpPut_spec spy hspy r0 r1 hz inv.n0 inv.n1 (by omega) bs e with ⟨er, ha, hcomp⟩ | ⟨a', b', sa', sb', er, ra, rb, na, nb, hz', ht, k1, k2⟩
      · simp only [er]
        subst ha; subst e0; subst e1
        rw [toks_nil.mpr rfl, List.append_nil]
        refine bad _ rfl _ _ ?_ _ rfl
        rw [← List.append_assoc]
        exact not_compatible_append (fun hc => hcomp (compatible_cancel hc)) _ _
      · simp only [er]
        obtain ⟨p', e0', e1'⟩ := split_step (p := p) ht hz'
        have inv' : CmpInv { c with q0 := a', q1 := b' } (s0 ++ callToks bs e) s1 (n + 1) :=
          ⟨inv.ok, inv.sent, ⟨p', sa', sb', ra, rb, by rw [e0, e0'], by rw [e1, e1'], hz', by omega, by omega⟩, na, nb⟩
        have := ih inv' (by omega)
        simp only [callToks, List.append_assoc, inv.ok] at this
        simpa [List.append_assoc] using this
    | true =>
      simp only [cmpRun, Cmp.put, inv.ok, Bool.false_eq_true, if_false, if_true, streamOf, reduceCtorEq, List.nil_append]
      rcases cmpPut_spec spy hspy r1 r0 hz.symm inv.n1 inv.n0 (by omega) bs e with ⟨er, ha, hcomp⟩ | ⟨a', b', sa', sb', er, ra, rb, na, nb, hz', ht, k1, k2⟩
      · simp only [er]
        subst ha; subst e0; subst e1
        rw [toks_nil.mpr rfl, List.append_nil]
        refine bad _ rfl _ _ ?_ _ rfl
        rw [← List.append_assoc]
        exact not_compatible_append (fun hc => hcomp (compatible_symm (compatible_cancel hc))) _ _
      · simp only [er]
        obtain ⟨p', e0', e1'⟩ := split_step (p := p) ht hz'
        have inv' : CmpInv { c with q1 := a', q0 := b' } s0 (s1 ++ callToks bs e) (n + 1) :=
          ⟨inv.ok, inv.sent, ⟨p', sb', sa', rb, ra, by rw [e0, e1'], by rw [e1, e0'], hz'.symm, by omega, by omega⟩, nb, na⟩
        have := ih inv' (by omega)
        simp only [callToks, List.append_assoc, inv.ok] at this
        simpa [List.append_assoc] using this

theorem init_cmpInv : CmpInv Cmp.init [] [] 0 :=
  ⟨rfl, rfl, ⟨[], ⟨[], []⟩, ⟨[], []⟩, rep_init, rep_init, rfl, rfl, Or.inl rfl, Nat.le_refl _, Nat.le_refl _⟩, rfl, rfl⟩

end Verif.MQueue
