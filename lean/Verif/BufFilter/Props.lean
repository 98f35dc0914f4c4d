import Verif.BufFilter.Proofs
import Verif.BufFilter.Spec

/-!
# Property C07: `FilterWithBufferedInput`
-/
namespace Verif.BufFilter
open Filt

theorem put_false_spec (f : Filt) (inp : List Byte) (hi : inp ≠ []) :
    f.put inp false = f.putData inp := by
  unfold Filt.put
  have : inp.length ≠ 0 := fun h => hi (List.eq_nil_of_length_eq_zero h)
  simp only [ne_eq, this, not_false_eq_true, if_true, Bool.false_eq_true, if_false]
  cases f.putData inp with
  | error e => rfl
  | ok v => obtain ⟨a, b⟩ := v; simp [bind_ok]

theorem put_nil_false (f : Filt) : f.put [] false = .ok (f, []) := rfl

theorem put_true_spec (f : Filt) (inp : List Byte) :
    f.put inp true = (do let (f, e1) ← f.put inp false; let (f, e2) ← f.put [] true; .ok (f, e1 ++ e2)) := by
  unfold Filt.put
  generalize (if inp.length ≠ 0 then f.putData inp else .ok (f, [])) = r
  cases r with
  | error e => rfl
  | ok v =>
    obtain ⟨a, b⟩ := v
    simp only [bind_ok, Bool.false_eq_true, if_false, if_true, List.append_nil]
    show _ = (do let (f, e2) ← (do let (f, e1) ← (Except.ok (a, []) : Except Err (Filt × List Ev)); let (f, e2) ← f.finish; .ok (f, e1 ++ e2)); .ok (f, b ++ e2))
    rw [bind_ok]
    simp only
    cases a.finish with
    | error e => rfl
    | ok w => obtain ⟨c, d⟩ := w; simp [bind_ok]

theorem feed_eq_acts (f : Filt) (order : ArgOrder) (pieces : List (List Byte)) :
    f.feed pieces = f.runActs order (pieces.map .put) := by
  match pieces with
  | [] => rfl
  | [c] =>
    show f.put c true = _
    rw [put_true_spec]; rfl
  | c :: d :: cs =>
    show (do let (f, e1) ← f.put c false; let (f, e2) ← Filt.feed f (d :: cs); .ok (f, e1 ++ e2)) = _
    simp only [fun f => feed_eq_acts f order (d :: cs)]
    rfl

theorem forceB_spec (fuel : Nat) (f : Filt) (F B L : Nat) (c : List Byte) (h : Mid f F B L c) (hf : c.length < fuel) :
    ∃ f' c' xs, forceB fuel f = .ok (f', xs.map .next) ∧ Mid f' F B L c' ∧ xs.flatten ++ c' = c ∧ NextOk B xs := by
  induction fuel generalizing f c with
  | zero => omega
  | succ fuel ih =>
    have hsz := h.size
    have hpos := h.pos
    unfold forceB
    rw [h.bs]
    by_cases hc : f.q.size ≥ B
    · rw [if_pos hc]
      obtain ⟨q', g1, g2, g3, g4, g5, g6, g7⟩ := Ring.getBlock_spec f.q h.qinv (by rw [h.qbs]; exact h.align) (by rw [h.qbs]; exact hpos) (by rw [h.qbs]; omega)
      rw [h.qbs, h.con] at g1
      rw [h.qbs, h.con] at g3
      rw [h.qbs] at g5 g7
      rw [g1, bind_ok]
      have hmid : Mid { f with q := q' } F B L (c.drop B) :=
        ⟨h.fs, h.bs, h.ls, h.pos, g2, g3, h.done, g5, by simp only; rw [g6, h.qmb], g7⟩
      obtain ⟨f', c', xs, i1, i2, i3, i4⟩ := ih _ _ hmid (by simp; omega)
      have hf' : { firstSize := f.firstSize, blockSize := B, lastSize := f.lastSize, firstDone := f.firstDone, q := q', junk := f.junk : Filt } = { f with q := q' } := by
        rw [← h.bs]
      refine ⟨f', c', c.take B :: xs, ?_, i2, ?_, ?_⟩
      · simp only
        first
          | (rw [i1, bind_ok]; rfl)
          | (rw [hf', i1, bind_ok]; rfl)
      · rw [List.flatten_cons, List.append_assoc, i3, List.take_append_drop]
      · intro x hx
        rcases List.mem_cons.1 hx with rfl | hx
        · have : (c.take B).length = B := by simp; omega
          rw [this]; exact ⟨hpos, Nat.mod_self _⟩
        · exact i4 x hx
    · rw [if_neg hc]
      exact ⟨f, c, [], rfl, h, by simp, by intro x hx; simp at hx⟩

theorem force1_spec (fuel : Nat) (f : Filt) (F L : Nat) (c : List Byte) (h : Mid f F 1 L c) (hf : c.length < fuel) :
    ∃ f' c' xs, force1 .leftToRight fuel f = .ok (f', xs.map .next) ∧ Mid f' F 1 L c' ∧ xs.flatten ++ c' = c ∧ NextOk 1 xs := by
  induction fuel generalizing f c with
  | zero => omega
  | succ fuel ih =>
    have hsz := h.size
    unfold force1
    by_cases hc : f.q.size > 0
    · rw [if_pos hc]
      obtain ⟨m, q', g1, g2, g3, g4, g5, g6, g7, g8, g9, g10⟩ := Ring.getContiguous_spec f.q h.qinv f.q.size
      rw [g1, bind_ok]
      rw [h.con] at g3
      have hb := h.qinv.beg
      have hfi := h.qinv.fits
      have hmid : Mid { f with q := q' } F 1 L (c.drop m) :=
        ⟨h.fs, h.bs, h.ls, h.pos, g2, g3, h.done, by simp only; rw [g8, h.qbs], by simp only; rw [g9, h.qmb], Nat.mod_one _⟩
      obtain ⟨f', c', xs, i1, i2, i3, i4⟩ := ih _ _ hmid (by simp; omega)
      refine ⟨f', c', c.take m :: xs, ?_, i2, ?_, ?_⟩
      · simp only
        rw [bind_ok, i1, bind_ok, h.con]; rfl
      · rw [List.flatten_cons, List.append_assoc, i3, List.take_append_drop]
      · intro x hx
        rcases List.mem_cons.1 hx with rfl | hx
        · exact ⟨by simp; omega, Nat.mod_one _⟩
        · exact i4 x hx
    · rw [if_neg hc]
      exact ⟨f, c, [], rfl, h, by simp, by intro x hx; simp at hx⟩

theorem forceNextPut_spec (f : Filt) (F B L : Nat) (c : List Byte) (order : ArgOrder) (ho : order = .leftToRight ∨ B ≠ 1)
    (h : Mid f F B L c) :
    ∃ f' c' xs, f.forceNextPut order = .ok (f', xs.map .next) ∧ Mid f' F B L c' ∧ xs.flatten ++ c' = c ∧ NextOk B xs := by
  unfold forceNextPut
  simp only [h.done, Bool.not_true, Bool.false_eq_true, if_false]
  rw [h.bs]
  have hpos := h.pos
  by_cases hB : B > 1
  · rw [if_pos hB]
    exact forceB_spec _ f F B L c h (by rw [h.size]; omega)
  · have : B = 1 := by omega
    subst this
    rw [if_neg hB]
    have : order = .leftToRight := by rcases ho with h | h; exact h; exact absurd rfl h
    subst this
    exact force1_spec _ f F L c h (by rw [h.size]; omega)

/-- From a state in the middle of a message. -/
theorem runActs_mid (order : ArgOrder) (acts : List Act) (f : Filt) (F B L : Nat) (c : List Byte) (h : Mid f F B L c)
    (hc : c.length < B + L) (ho : order = .leftToRight ∨ B ≠ 1 ∨ ∀ a ∈ acts, a ≠ .hardFlush) :
    ∃ f' xs l, f.runActs order acts = .ok (f', xs.map .next ++ [.last l, .messageEnd]) ∧ Pre f' F B L [] ∧
      xs.flatten ++ l = c ++ acts.flatMap Act.bytes ∧ NextOk B xs ∧ l.length < B + L ∧
      ((∀ a ∈ acts, a ≠ .hardFlush) → xs ≠ [] → L ≤ l.length) := by
  induction acts generalizing f c with
  | nil =>
    obtain ⟨f', h1, h2⟩ := finish_spec f F B L c h
    refine ⟨f', [], c, ?_, h2, by simp, (by intro x hx; simp at hx), hc, by simp⟩
    show f.put [] true = _
    unfold Filt.put
    simp only [List.length_nil, ne_eq, not_true, if_false, if_true]
    rw [bind_ok]; simp only; rw [h1, bind_ok]; rfl
  | cons a acts ih =>
    have hrest : order = .leftToRight ∨ B ≠ 1 ∨ ∀ a ∈ acts, a ≠ .hardFlush := by
      rcases ho with h | h | h
      · exact Or.inl h
      · exact Or.inr (Or.inl h)
      · exact Or.inr (Or.inr fun x hx => h x (by simp [hx]))
    cases a with
    | put bs =>
      show ∃ f' xs l, (do let (f, e1) ← f.put bs false; let (f, e2) ← Filt.runActs order f acts; .ok (f, e1 ++ e2)) = _ ∧ _
      by_cases hb : bs = []
      · subst hb
        rw [put_nil_false, bind_ok]
        obtain ⟨f', xs, l, i1, i2, i3, i4, i5, i6⟩ := ih f c h hc hrest
        refine ⟨f', xs, l, ?_, i2, by simpa [Act.bytes] using i3, i4, i5, fun hh => i6 fun x hx => hh x (by simp [hx])⟩
        simp only; rw [i1, bind_ok]; rfl
      · rw [put_false_spec f bs hb]
        obtain ⟨f1, c1, x1, p1, p2, p3, p4, p5, p6⟩ := putData_mid f F B L c bs h
        rw [p1, bind_ok]
        obtain ⟨f', xs, l, i1, i2, i3, i4, i5, i6⟩ := ih f1 c1 p2 p6 hrest
        refine ⟨f', x1 ++ xs, l, ?_, i2, ?_, p4.append i4, i5, ?_⟩
        · simp only; rw [i1, bind_ok]; simp
        · rw [List.flatten_append, List.append_assoc, i3, ← List.append_assoc, p3, List.flatMap_cons]
          simp [Act.bytes]
        · intro hh hne
          by_cases hx : xs = []
          · subst hx
            have h1 : x1 ≠ [] := by intro h; subst h; simp at hne
            have := p5 h1
            have hl : l = c1 ++ acts.flatMap Act.bytes := by simpa using i3
            rw [hl]; simp; omega
          · exact i6 (fun x hx => hh x (by simp [hx])) hx
    | hardFlush =>
      show ∃ f' xs l, (do let (f, e1) ← f.forceNextPut order; let (f, e2) ← Filt.runActs order f acts; .ok (f, e1 ++ e2)) = _ ∧ _
      have ho' : order = .leftToRight ∨ B ≠ 1 := by
        rcases ho with h | h | h
        · exact Or.inl h
        · exact Or.inr h
        · exact absurd rfl (h .hardFlush (by simp))
      obtain ⟨f1, c1, x1, p1, p2, p3, p4⟩ := forceNextPut_spec f F B L c order ho' h
      rw [p1, bind_ok]
      have hc1 : c1.length < B + L := by
        have := congrArg List.length p3
        simp only [List.length_append] at this; omega
      obtain ⟨f', xs, l, i1, i2, i3, i4, i5, i6⟩ := ih f1 c1 p2 hc1 hrest
      refine ⟨f', x1 ++ xs, l, ?_, i2, ?_, p4.append i4, i5, fun hh => absurd rfl (hh .hardFlush (by simp))⟩
      · simp only; rw [i1, bind_ok]; simp
      · rw [List.flatten_append, List.append_assoc, i3, ← List.append_assoc, p3, List.flatMap_cons]
        simp [Act.bytes]

/-- From a state before the first part is complete. -/
theorem runActs_pre (order : ArgOrder) (acts : List Act) (f : Filt) (F B L : Nat) (c : List Byte) (h : Pre f F B L c)
    (hc : c.length < F ∨ (F = 0 ∧ c = [])) (ho : order = .leftToRight ∨ B ≠ 1 ∨ ∀ a ∈ acts, a ≠ .hardFlush) :
    ∃ f' evs, f.runActs order acts = .ok (f', evs) ∧ Pre f' F B L [] ∧
      DeliveredFlushed F B L (c ++ acts.flatMap Act.bytes) evs ∧
      ((∀ a ∈ acts, a ≠ .hardFlush) → Delivered F B L (c ++ acts.flatMap Act.bytes) evs) := by
  have hpos := h.pos
  induction acts generalizing f c with
  | nil =>
    obtain ⟨f', h1, h2⟩ := finish_pre f F B L c h
    refine ⟨f', (if F = 0 then [Ev.first []] else []) ++ [Ev.last c, Ev.messageEnd], ?_, h2, ?_⟩
    · show f.put [] true = _
      unfold Filt.put
      simp only [List.length_nil, ne_eq, not_true, if_false, if_true]
      rw [bind_ok]; simp only; rw [h1, bind_ok]; rfl
    · simp only [List.flatMap_nil, List.append_nil, List.nil_append]
      unfold DeliveredFlushed Delivered
      rcases hc with hc | ⟨hF, hc⟩
      · rw [if_pos hc, if_neg (by omega), if_pos hc]; simp
      · subst hc; subst hF
        simp only [List.length_nil, Nat.lt_irrefl, if_false, if_true]
        refine ⟨⟨[], [], by simp, by simp, by simp, by simp; omega⟩, fun _ => ⟨[], [], by simp, by simp, by simp, by simp⟩⟩
  | cons a acts ih =>
    have hrest : order = .leftToRight ∨ B ≠ 1 ∨ ∀ a ∈ acts, a ≠ .hardFlush := by
      rcases ho with h | h | h
      · exact Or.inl h
      · exact Or.inr (Or.inl h)
      · exact Or.inr (Or.inr fun x hx => h x (by simp [hx]))
    cases a with
    | hardFlush =>
      show ∃ f' evs, (do let (f, e1) ← f.forceNextPut order; let (f, e2) ← Filt.runActs order f acts; .ok (f, e1 ++ e2)) = _ ∧ _
      have : f.forceNextPut order = .ok (f, []) := by unfold forceNextPut; simp [h.done]
      rw [this, bind_ok]
      obtain ⟨f', evs, i1, i2, i3, i4⟩ := ih f c h hc hrest
      refine ⟨f', evs, ?_, i2, by simpa [Act.bytes] using i3, fun hh => absurd rfl (hh .hardFlush (by simp))⟩
      simp only; rw [i1, bind_ok]; rfl
    | put bs =>
      show ∃ f' evs, (do let (f, e1) ← f.put bs false; let (f, e2) ← Filt.runActs order f acts; .ok (f, e1 ++ e2)) = _ ∧ _
      have hassoc : c ++ (Act.put bs :: acts).flatMap Act.bytes = (c ++ bs) ++ acts.flatMap Act.bytes := by
        simp [Act.bytes]
      by_cases hb : bs = []
      · subst hb
        rw [put_nil_false, bind_ok]
        obtain ⟨f', evs, i1, i2, i3, i4⟩ := ih f c h hc hrest
        refine ⟨f', evs, ?_, i2, by simpa [Act.bytes] using i3, fun hh => by simpa [Act.bytes] using i4 fun x hx => hh x (by simp [hx])⟩
        simp only; rw [i1, bind_ok]; rfl
      · rw [put_false_spec f bs hb, hassoc]
        have hblen : 0 < bs.length := List.length_pos_iff.2 hb
        by_cases hs : (c ++ bs).length < F
        · obtain ⟨f1, p1, p2⟩ := putData_pre_short f F B L c bs h hs
          rw [p1, bind_ok]
          obtain ⟨f', evs, i1, i2, i3, i4⟩ := ih f1 (c ++ bs) p2 (Or.inl hs) hrest
          refine ⟨f', evs, ?_, i2, i3, fun hh => i4 fun x hx => hh x (by simp [hx])⟩
          simp only; rw [i1, bind_ok]; rfl
        · have hcF : c.length ≤ F := by
            rcases hc with hc | ⟨_, hc⟩
            · omega
            · rw [hc]; simp
          obtain ⟨f1, c1, x1, p1, p2, p3, p4, p5, p6⟩ := putData_pre_long f F B L c bs h hcF (by omega)
          rw [p1, bind_ok]
          obtain ⟨f', xs, l, i1, i2, i3, i4, i5, i6⟩ := runActs_mid order acts f1 F B L c1 p2 p6 hrest
          have htot : ¬ ((c ++ bs) ++ acts.flatMap Act.bytes).length < F := by
            rw [List.length_append]; omega
          have htake : ((c ++ bs) ++ acts.flatMap Act.bytes).take F = (c ++ bs).take F := by
            rw [List.take_append_of_le_length (by omega)]
          have hdrop : ((c ++ bs) ++ acts.flatMap Act.bytes).drop F = (c ++ bs).drop F ++ acts.flatMap Act.bytes := by
            rw [List.drop_append_of_le_length (by omega)]
          have hev : (Ev.first ((c ++ bs).take F) :: List.map Ev.next x1) ++ (List.map Ev.next xs ++ [Ev.last l, Ev.messageEnd]) =
              Ev.first ((c ++ bs).take F) :: (x1 ++ xs).map Ev.next ++ [Ev.last l, Ev.messageEnd] := by simp
          have hcat : (x1 ++ xs).flatten ++ l = (c ++ bs).drop F ++ acts.flatMap Act.bytes := by
            rw [List.flatten_append, List.append_assoc, i3, ← List.append_assoc, p3]
          refine ⟨f', (Ev.first ((c ++ bs).take F) :: List.map Ev.next x1) ++ (List.map Ev.next xs ++ [Ev.last l, Ev.messageEnd]), ?_, i2, ?_, ?_⟩
          · simp only; rw [i1, bind_ok]
          · unfold DeliveredFlushed
            rw [if_neg htot]
            rw [htake, hdrop, hev]
            exact ⟨x1 ++ xs, l, rfl, hcat, p4.append i4, by omega⟩
          · intro hh
            unfold Delivered
            rw [if_neg htot]
            rw [htake, hdrop, hev]
            refine ⟨x1 ++ xs, l, rfl, hcat, p4.append i4, ?_⟩
            have hL : x1 ++ xs ≠ [] → L ≤ l.length := by
              intro hne
              by_cases hx : xs = []
              · subst hx
                have h1 : x1 ≠ [] := by intro h; subst h; simp at hne
                have := p5 h1
                have hl : l = c1 ++ acts.flatMap Act.bytes := by simpa using i3
                rw [hl]; simp; omega
              · exact i6 (fun x hx => hh x (by simp [hx])) hx
            have hlen := congrArg List.length hcat
            simp only [List.length_append, List.length_drop] at hlen htot ⊢
            split
            · rename_i hle
              apply Classical.byContradiction
              intro hne
              have := hL hne
              have hnn : 0 < (x1 ++ xs).flatten.length := by
                have hokn := p4.append i4
                cases hxx : x1 ++ xs with
                | nil => exact absurd hxx hne
                | cons y ys =>
                  rw [hxx] at hokn
                  have := (hokn y (by simp)).1
                  simp; omega
              rw [List.length_append] at hs
              omega
            · rename_i hgt
              refine ⟨?_, by omega⟩
              by_cases hx : x1 ++ xs = []
              · rw [hx] at hlen
                simp only [List.flatten_nil, List.length_nil] at hlen
                rw [List.length_append] at hs
                omega
              · exact hL hx

theorem init_pre (junk : Nat → Byte) (F B L : Nat) (hB : 1 ≤ B) : ∃ f, Filt.init junk F B L = .ok f ∧ Pre f F B L [] := by
  have r := Ring.reset_spec junk 1 F
  exact ⟨_, by unfold Filt.init; rw [if_neg (by omega)], rfl, rfl, rfl, hB, r.1, r.2, rfl, rfl, rfl, rfl⟩

theorem feedMany_pre (ms : List (List (List Byte))) (f : Filt) (F B L : Nat) (h : Pre f F B L []) :
    ∃ evs, f.feedMany ms = .ok evs ∧ evs.length = ms.length ∧ ∀ p ∈ ms.zip evs, Delivered F B L p.1.flatten p.2 := by
  induction ms generalizing f with
  | nil => exact ⟨[], rfl, rfl, by simp⟩
  | cons m ms ih =>
    have hno : ∀ a ∈ m.map Act.put, a ≠ .hardFlush := by
      intro a ha
      obtain ⟨x, _, rfl⟩ := List.mem_map.1 ha
      intro h; cases h
    obtain ⟨f', evs, i1, i2, _, i4⟩ := runActs_pre .leftToRight (m.map .put) f F B L [] h (by
      by_cases hF : F = 0
      · exact Or.inr ⟨hF, rfl⟩
      · left; simp; omega) (Or.inl rfl)
    obtain ⟨es, j1, j2, j3⟩ := ih f' i2
    have hb : (m.map Act.put).flatMap Act.bytes = m.flatten := by
      rw [List.flatMap_map]; show m.flatMap id = _; simp
    refine ⟨evs :: es, ?_, by simp [j2], ?_⟩
    · unfold feedMany
      rw [feed_eq_acts f .leftToRight, i1, bind_ok]
      simp only; rw [j1, bind_ok]
    · have := i4 hno
      rw [hb, List.nil_append] at this
      intro p hp
      rcases List.mem_cons.1 hp with rfl | hp
      · exact this
      · exact j3 p hp

/-- **C07.** A filter with any first, block and last sizes, whatever the uninitialised buffers contain, fed any sequence of
messages in any split: no call reads or writes outside a buffer, and the derived filter is called exactly as documented. -/
theorem filter_delivers (junk : Nat → Byte) (firstSize blockSize lastSize : Nat) (hB : 1 ≤ blockSize)
    (messages : List (List (List Byte))) :
    ∃ f evs, Filt.init junk firstSize blockSize lastSize = .ok f ∧ f.feedMany messages = .ok evs ∧
      evs.length = messages.length ∧ ∀ p ∈ messages.zip evs, Delivered firstSize blockSize lastSize p.1.flatten p.2 := by
  obtain ⟨f, h1, h2⟩ := init_pre junk firstSize blockSize lastSize hB
  obtain ⟨evs, h3, h4⟩ := feedMany_pre messages f _ _ _ h2
  exact ⟨f, evs, h1, h3, h4⟩

/-- Block size 4, two bytes first, three last: fourteen bytes in three pieces. -/
example : (match Filt.init (fun _ => 0xcc) 2 4 3 with
    | .ok f => f.feedMany [[[1], [2, 3, 4, 5, 6, 7, 8], [9, 10, 11, 12, 13, 14]]]
    | .error e => .error e) =
    .ok [[.first [1, 2], .next [3, 4, 5, 6], .next [7, 8, 9, 10], .last [11, 12, 13, 14], .messageEnd]] := by decide +kernel

/-- **C07.** The bytes handed to `LastPut` depend only on the message, not on how it was split. -/
theorem lastPut_determined (F B L : Nat) (hB : 1 ≤ B) (total : List Byte) (evs : List Ev) (h : Delivered F B L total evs) :
    ∃ l, Ev.last l ∈ evs ∧ (∀ l', Ev.last l' ∈ evs → l' = l) ∧
      l = total.drop (total.length - lastLength F B L total.length) ∧ l.length = lastLength F B L total.length := by
  unfold Delivered at h
  unfold lastLength
  split at h
  · rename_i hlt
    subst h
    refine ⟨total, by simp, by simp, ?_, by simp [hlt]⟩
    rw [if_pos hlt]; simp
  · rename_i hlt
    obtain ⟨nexts, l, h1, h2, h3, h4⟩ := h
    have hmod : nexts.flatten.length % B = 0 := by
      clear h1 h2 h4
      induction nexts with
      | nil => simp
      | cons x xs ih =>
        rw [List.flatten_cons, List.length_append, Nat.add_mod, (h3 x (by simp)).2, ih fun y hy => h3 y (by simp [hy])]
        simp
    have hlen := congrArg List.length h2
    simp only [List.length_append, List.length_drop] at hlen
    have hl : l.length = if total.length ≤ F + L then total.length - F else L + (total.length - F - L) % B := by
      split at h4
      · rename_i hle; rw [if_pos hle]; subst h4; simp at hlen; omega
      · rename_i hle
        rw [if_neg hle]
        have : total.length - F - L = (l.length - L) + nexts.flatten.length := by omega
        rw [this, Nat.add_mod, hmod, Nat.add_zero, Nat.mod_mod, Nat.mod_eq_of_lt (by omega)]
        omega
    refine ⟨l, by rw [h1]; simp, ?_, ?_, ?_⟩
    · intro l' hl'
      rw [h1] at hl'
      simp at hl'
      exact hl'
    · rw [if_neg hlt, ← hl]
      have : l = (total.drop F).drop nexts.flatten.length := by rw [← h2, List.drop_left]
      rw [List.drop_drop] at this
      have hle : l.length ≤ total.length := by omega
      have he : total.length - l.length = F + nexts.flatten.length := by omega
      rw [he]; exact this
    · rw [if_neg hlt]; exact hl

example : lastLength 2 4 3 14 = 4 ∧ lastLength 2 4 3 5 = 3 ∧ lastLength 2 4 3 1 = 1 := by decide

/-- **C07** with hard flushes among the `Put`s, provided the block size is not 1 or the compiler evaluates arguments left
to right: same contract, except that a flush may leave the last piece shorter than `lastSize`. -/
theorem filter_delivers_flushed (junk : Nat → Byte) (firstSize blockSize lastSize : Nat) (hB : 1 ≤ blockSize)
    (order : ArgOrder) (ho : order = .leftToRight ∨ blockSize ≠ 1) (acts : List Act) :
    ∃ f f' evs, Filt.init junk firstSize blockSize lastSize = .ok f ∧ f.runActs order acts = .ok (f', evs) ∧
      DeliveredFlushed firstSize blockSize lastSize (acts.flatMap Act.bytes) evs := by
  obtain ⟨f, h1, h2⟩ := init_pre junk firstSize blockSize lastSize hB
  obtain ⟨f', evs, i1, _, i3, _⟩ := runActs_pre order acts f _ _ _ [] h2 (by
    by_cases hF : firstSize = 0
    · exact Or.inr ⟨hF, rfl⟩
    · left; simp; omega) (by rcases ho with h | h; exact Or.inl h; exact Or.inr (Or.inl h))
  exact ⟨f, f', evs, h1, i1, by simpa using i3⟩

example : (match Filt.init (fun _ => 0xcc) 0 1 3 with
    | .ok f => (f.runActs .leftToRight [.put [1, 2, 3, 4], .put [5], .hardFlush, .put [6]]).map Prod.snd
    | .error e => .error e) =
    .ok [.first [], .next [1], .next [2], .next [3, 4], .next [5], .last [6], .messageEnd] := by decide +kernel

/-- **Disagreement.** With right-to-left argument evaluation (which the C++ standard allows), a hard flush of a filter
with block size 1 reads outside its ring buffer: `NextPutModifiable(m_queue.GetContigousBlocks(len), len)`
(filters.cpp:452) passes the length from before `GetContigousBlocks` lowered it. -/
theorem hardFlush_out_of_bounds :
    (match Filt.init (fun _ => 0xcc) 0 1 3 with
      | .ok f => (f.runActs .rightToLeft [.put [1, 2, 3, 4], .put [5], .hardFlush]).map Prod.snd
      | .error e => .error e) = .error .undefinedBehaviour := by decide +kernel

theorem filter_rejects_block_size (junk : Nat → Byte) (F L : Nat) : Filt.init junk F 0 L = .error .invalidArgument := rfl

end Verif.BufFilter
