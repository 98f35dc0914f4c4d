import Verif.BufFilter.RingProofs

/-! Invariants of `FilterWithBufferedInput`. -/
namespace Verif.BufFilter
namespace Filt

/-- State after the first part of the message was passed on; `c` is the content of the queue. -/
structure Mid (f : Filt) (F B L : Nat) (c : List Byte) : Prop where
  fs : f.firstSize = F
  bs : f.blockSize = B
  ls : f.lastSize = L
  pos : 1 ≤ B
  qinv : f.q.Inv
  con : f.q.content = c
  done : f.firstDone = true
  qbs : f.q.blockSize = B
  qmb : f.q.maxBlocks = (2 * B + L - 2) / B
  align : f.q.begin_ % B = 0

/-- State before the first part of the message was passed on. -/
structure Pre (f : Filt) (F B L : Nat) (c : List Byte) : Prop where
  fs : f.firstSize = F
  bs : f.blockSize = B
  ls : f.lastSize = L
  pos : 1 ≤ B
  qinv : f.q.Inv
  con : f.q.content = c
  done : f.firstDone = false
  qbs : f.q.blockSize = 1
  qmb : f.q.maxBlocks = F
  beg : f.q.begin_ = 0

/-- The pieces passed to the derived filter's `NextPut...` functions: non-empty, whole blocks. -/
def NextOk (B : Nat) (xs : List (List Byte)) : Prop := ∀ x ∈ xs, 0 < x.length ∧ x.length % B = 0

theorem NextOk.append {B : Nat} {xs ys} (h1 : NextOk B xs) (h2 : NextOk B ys) : NextOk B (xs ++ ys) := by
  intro x hx
  rcases List.mem_append.1 hx with h | h
  · exact h1 x h
  · exact h2 x h

theorem Mid.size {f F B L c} (h : Mid f F B L c) : f.q.size = c.length := by rw [← h.con]; simp
theorem Pre.size {f F B L c} (h : Pre f F B L c) : f.q.size = c.length := by rw [← h.con]; simp

theorem cap_ge (B L : Nat) (hB : 1 ≤ B) : B + L - 1 ≤ B * ((2 * B + L - 2) / B) ∧ (2 ≤ B → B ≤ B * ((2 * B + L - 2) / B)) := by
  have h1 := Nat.div_add_mod (2 * B + L - 2) B
  have h2 := Nat.mod_lt (2 * B + L - 2) hB
  refine ⟨by omega, fun h => ?_⟩
  have : 1 ≤ (2 * B + L - 2) / B := by rw [Nat.le_div_iff_mul_le hB]; omega
  calc B = B * 1 := by omega
    _ ≤ _ := Nat.mul_le_mul_left _ this

theorem Mid.cap {f F B L c} (h : Mid f F B L c) : f.q.buf.length = B * ((2 * B + L - 2) / B) := by
  rw [h.qinv.cap, h.qbs, h.qmb]

theorem loop1_spec (fuel : Nat) (f : Filt) (F L : Nat) (c inp : List Byte) (h : Mid f F 1 L c) (hf : c.length < fuel) :
    ∃ f' c' xs, loop1 fuel f (c.length + inp.length) = .ok (f', c'.length + inp.length, xs.map .next) ∧ Mid f' F 1 L c' ∧
      xs.flatten ++ c' = c ∧ NextOk 1 xs ∧ (xs ≠ [] → L ≤ c'.length + inp.length) ∧ (c'.length + inp.length ≤ L ∨ c' = []) := by
  induction fuel generalizing f c with
  | zero => omega
  | succ fuel ih =>
    unfold loop1
    have hsz := h.size
    by_cases hc : c.length + inp.length > f.lastSize ∧ f.q.size > 0
    · rw [if_pos hc]
      obtain ⟨hc1, hc2⟩ := hc
      rw [h.ls] at hc1
      obtain ⟨m, q', g1, g2, g3, g4, g5, g6, g7, g8, g9, g10⟩ := Ring.getContiguous_spec f.q h.qinv (c.length + inp.length - f.lastSize)
      rw [g1, bind_ok]
      rw [h.con] at g3
      rw [h.ls] at g5 g6
      have hb := h.qinv.beg
      have hm : 0 < m := by have := h.qinv.fits; omega
      have hmid : Mid { f with q := q' } F 1 L (c.drop m) :=
        ⟨h.fs, h.bs, h.ls, h.pos, g2, g3, h.done, by simp only; rw [g8, h.qbs], by simp only; rw [g9, h.qmb], Nat.mod_one _⟩
      obtain ⟨f', c', xs, i1, i2, i3, i4, i5, i6⟩ := ih _ _ hmid (by simp; omega)
      have hlen : c.length + inp.length - (f.q.content.take m).length = (c.drop m).length + inp.length := by
        rw [h.con]; simp; omega
      refine ⟨f', c', c.take m :: xs, ?_, i2, ?_, ?_, ?_, i6⟩
      · simp only [hlen]
        rw [i1, bind_ok, h.con]; rfl
      · rw [List.flatten_cons, List.append_assoc, i3, List.take_append_drop]
      · intro x hx
        rcases List.mem_cons.1 hx with rfl | hx
        · exact ⟨by simp; omega, Nat.mod_one _⟩
        · exact i4 x hx
      · intro _
        by_cases hx : xs = []
        · subst hx
          simp only [List.flatten_nil, List.nil_append] at i3
          rw [i3]; simp; omega
        · exact i5 hx
    · rw [if_neg hc]
      refine ⟨f, c, [], rfl, h, by simp, (by intro x hx; simp at hx), by simp, ?_⟩
      rw [h.ls, hsz] at hc
      by_cases h0 : c = []
      · exact Or.inr h0
      · have : 0 < c.length := List.length_pos_iff.2 h0
        left; omega

theorem loopB_spec (fuel : Nat) (f : Filt) (F B L : Nat) (c inp : List Byte) (h : Mid f F B L c) (hf : c.length < fuel) :
    ∃ f' c' xs, loopB fuel f (c.length + inp.length) = .ok (f', c'.length + inp.length, xs.map .next) ∧ Mid f' F B L c' ∧
      xs.flatten ++ c' = c ∧ NextOk B xs ∧ (xs ≠ [] → L ≤ c'.length + inp.length) ∧
      (c'.length + inp.length < B + L ∨ c'.length < B) := by
  induction fuel generalizing f c with
  | zero => omega
  | succ fuel ih =>
    unfold loopB
    have hsz := h.size
    have hpos := h.pos
    rw [h.bs, h.ls, hsz]
    by_cases hc : c.length + inp.length ≥ B + L ∧ c.length ≥ B
    · rw [if_pos hc]
      obtain ⟨hc1, hc2⟩ := hc
      obtain ⟨q', g1, g2, g3, g4, g5, g6, g7⟩ := Ring.getBlock_spec f.q h.qinv (by rw [h.qbs]; exact h.align) (by rw [h.qbs]; exact hpos) (by rw [h.qbs]; omega)
      rw [h.qbs, h.con] at g1
      rw [h.qbs, h.con] at g3
      rw [h.qbs] at g5 g7
      rw [g1, bind_ok]
      have hmid : Mid { f with q := q' } F B L (c.drop B) :=
        ⟨h.fs, h.bs, h.ls, h.pos, g2, g3, h.done, g5, by simp only; rw [g6, h.qmb], g7⟩
      obtain ⟨f', c', xs, i1, i2, i3, i4, i5, i6⟩ := ih _ _ hmid (by simp; omega)
      have hlen : c.length + inp.length - B = (c.drop B).length + inp.length := by simp; omega
      refine ⟨f', c', c.take B :: xs, ?_, i2, ?_, ?_, ?_, i6⟩
      · simp only [hlen]
        have hf' : { firstSize := f.firstSize, blockSize := B, lastSize := L, firstDone := f.firstDone, q := q', junk := f.junk : Filt } = { f with q := q' } := by
          rw [← h.bs, ← h.ls]
        first
          | rw [i1, bind_ok]; rfl
          | rw [hf', i1, bind_ok]; rfl
      · rw [List.flatten_cons, List.append_assoc, i3, List.take_append_drop]
      · intro x hx
        rcases List.mem_cons.1 hx with rfl | hx
        · have : (c.take B).length = B := by simp; omega
          rw [this]; exact ⟨hpos, Nat.mod_self _⟩
        · exact i4 x hx
      · intro _
        by_cases hx : xs = []
        · subst hx
          simp only [List.flatten_nil, List.nil_append] at i3
          rw [i3]; simp; omega
        · exact i5 hx
    · rw [if_neg hc]
      refine ⟨f, c, [], rfl, h, by simp, (by intro x hx; simp at hx), by simp, ?_⟩
      omega

theorem slice0 (inp : List Byte) (n : Nat) (h : n ≤ inp.length) : slice inp 0 n = .ok (inp.take n) := by
  rw [Ring.slice_ok (by omega)]; simp

theorem stage1_spec (f : Filt) (F L : Nat) (c inp : List Byte) (h : Mid f F 1 L c) :
    ∃ f' c' inp' xs, stage1 f inp (c.length + inp.length) = .ok (f', inp', c'.length + inp'.length, xs.map .next) ∧ Mid f' F 1 L c' ∧
      xs.flatten ++ (c' ++ inp') = c ++ inp ∧ NextOk 1 xs ∧ (xs ≠ [] → L ≤ c'.length + inp'.length) ∧
      c'.length + inp'.length < 1 + L := by
  unfold stage1
  obtain ⟨f', c', xs, i1, i2, i3, i4, i5, i6⟩ := loop1_spec (f.q.size + 1) f F L c inp h (by rw [h.size]; omega)
  rw [i1, bind_ok]
  simp only
  rw [i2.ls]
  by_cases hn : c'.length + inp.length > L
  · rw [if_pos hn]
    have hc' : c' = [] := by rcases i6 with h | h; omega; exact h
    subst hc'
    simp only [List.length_nil, Nat.zero_add, List.append_nil] at *
    rw [slice0 _ _ (by omega), bind_ok]
    refine ⟨f', [], inp.drop (inp.length - L), xs ++ [inp.take (inp.length - L)], ?_, i2, ?_, ?_, ?_, ?_⟩
    · simp
    · rw [← i3]; simp
    · refine i4.append ?_
      intro x hx
      simp only [List.mem_singleton] at hx
      subst hx
      exact ⟨by simp; omega, Nat.mod_one _⟩
    · intro _; simp; omega
    · simp; omega
  · rw [if_neg hn]
    refine ⟨f', c', inp, xs, rfl, i2, ?_, i4, i5, by omega⟩
    rw [← i3]; simp

theorem stageFill_spec (f : Filt) (F B L : Nat) (hB : 2 ≤ B) (c inp : List Byte) (h : Mid f F B L c)
    (hc : c.length + inp.length < B + L ∨ c.length < B) :
    ∃ f' c' inp' xs, stageFill f inp (c.length + inp.length) = .ok (f', inp', c'.length + inp'.length, xs.map .next) ∧ Mid f' F B L c' ∧
      xs.flatten ++ (c' ++ inp') = c ++ inp ∧ NextOk B xs ∧ (xs ≠ [] → L ≤ c'.length + inp'.length) ∧
      (c'.length + inp'.length < B + L ∨ c' = []) := by
  unfold stageFill
  rw [h.bs, h.ls, h.size]
  by_cases hcond : c.length + inp.length ≥ B + L ∧ c.length > 0
  · rw [if_pos hcond]
    have hlt : c.length < B := by omega
    dsimp only
    rw [slice0 _ _ (by omega), bind_ok]
    have hcap := h.cap
    have hcg := (cap_ge B L h.pos).2 hB
    obtain ⟨q', p1, p2, p3, p4, p5, p6, p7⟩ := Ring.put_spec f.q h.qinv (inp.take (B - c.length)) (by rw [h.size, hcap]; simp; omega)
    rw [p1, bind_ok]
    have hlen : (c ++ inp.take (B - c.length)).length = B := by simp; omega
    rw [h.con] at p3
    have hsz' : q'.size = B := by rw [← Ring.content_length q', p3, hlen]
    obtain ⟨q'', g1, g2, g3, g4, g5, g6, g7⟩ := Ring.getBlock_spec q' p2 (by rw [p5, p7, h.qbs]; exact h.align) (by rw [p5, h.qbs]; omega) (by rw [p5, h.qbs, hsz']; exact Nat.le_refl _)
    rw [g1, bind_ok]
    rw [p5, h.qbs] at g1 g3 g5 g7
    have hc0 : q''.content = [] := by rw [g3, p3, List.drop_of_length_le (by omega)]
    refine ⟨{ f with q := q'' }, [], inp.drop (B - c.length), [c ++ inp.take (B - c.length)], ?_, ?_, ?_, ?_, ?_, Or.inr rfl⟩
    · simp only [p5, h.qbs, p3, List.take_of_length_le (Nat.le_of_eq hlen)]
      have : c.length + inp.length - B = ([] : List Byte).length + (inp.drop (B - c.length)).length := by simp; omega
      rw [this]
      simp [h.bs, h.ls]
    · exact ⟨h.fs, h.bs, h.ls, h.pos, g2, hc0, h.done, g5, by simp only; rw [g6, p6, h.qmb], g7⟩
    · simp
    · intro x hx
      simp only [List.mem_singleton] at hx
      subst hx
      rw [hlen]; exact ⟨by omega, Nat.mod_self _⟩
    · intro _; simp; omega
  · rw [if_neg hcond]
    refine ⟨f, c, inp, [], rfl, h, by simp, (by intro x hx; simp at hx), by simp, ?_⟩
    by_cases h0 : c = []
    · exact Or.inr h0
    · have : 0 < c.length := List.length_pos_iff.2 h0
      left; omega

theorem stageBulk_spec (f : Filt) (F B L : Nat) (c inp : List Byte) (h : Mid f F B L c)
    (hc : c.length + inp.length < B + L ∨ c = []) :
    ∃ c' inp' xs, stageBulk f inp (c.length + inp.length) = .ok (f, inp', c'.length + inp'.length, xs.map .next) ∧ Mid f F B L c' ∧
      xs.flatten ++ (c' ++ inp') = c ++ inp ∧ NextOk B xs ∧ (xs ≠ [] → L ≤ c'.length + inp'.length) ∧
      c'.length + inp'.length < B + L := by
  unfold stageBulk
  have hpos := h.pos
  rw [h.bs, h.ls]
  by_cases hcond : c.length + inp.length ≥ B + L
  · rw [if_pos hcond]
    have hc' : c = [] := by rcases hc with h | h; omega; exact h
    subst hc'
    simp only [List.length_nil, Nat.zero_add, List.nil_append] at *
    have hd := Nat.div_add_mod (inp.length - L) B
    have hm := Nat.mod_lt (inp.length - L) hpos
    rw [Nat.mul_comm B] at hd
    have hq : 1 ≤ (inp.length - L) / B := by rw [Nat.le_div_iff_mul_le hpos]; omega
    have hq2 : B ≤ (inp.length - L) / B * B := by
      calc B = 1 * B := by omega
        _ ≤ _ := Nat.mul_le_mul_right _ hq
    generalize hlen : (inp.length - L) / B * B = len at *
    rw [slice0 _ _ (by omega), bind_ok]
    refine ⟨[], inp.drop len, [inp.take len], by simp, h, by simp, ?_, by intro _; simp; omega, by simp; omega⟩
    intro x hx
    simp only [List.mem_singleton] at hx
    subst hx
    have : (inp.take len).length = len := by simp; omega
    rw [this]
    exact ⟨by omega, by rw [← hlen]; exact Nat.mul_mod_left _ _⟩
  · rw [if_neg hcond]
    exact ⟨c, inp, [], rfl, h, by simp, (by intro x hx; simp at hx), by simp, by omega⟩

theorem stageB_spec (f : Filt) (F B L : Nat) (hB : 2 ≤ B) (c inp : List Byte) (h : Mid f F B L c) :
    ∃ f' c' inp' xs, stageB f inp (c.length + inp.length) = .ok (f', inp', c'.length + inp'.length, xs.map .next) ∧ Mid f' F B L c' ∧
      xs.flatten ++ (c' ++ inp') = c ++ inp ∧ NextOk B xs ∧ (xs ≠ [] → L ≤ c'.length + inp'.length) ∧
      c'.length + inp'.length < B + L := by
  unfold stageB
  obtain ⟨f1, c1, x1, a1, a2, a3, a4, a5, a6⟩ := loopB_spec (f.q.size + 1) f F B L c inp h (by rw [h.size]; omega)
  rw [a1, bind_ok]
  simp only
  obtain ⟨f2, c2, i2, x2, b1, b2, b3, b4, b5, b6⟩ := stageFill_spec f1 F B L hB c1 inp a2 a6
  rw [b1, bind_ok]
  simp only
  obtain ⟨c3, i3, x3, d1, d2, d3, d4, d5, d6⟩ := stageBulk_spec f2 F B L c2 i2 b2 b6
  rw [d1, bind_ok]
  refine ⟨f2, c3, i3, x1 ++ x2 ++ x3, by simp, d2, ?_, (a4.append b4).append d4, ?_, d6⟩
  · rw [← a3]
    simp only [List.flatten_append, List.append_assoc]
    rw [d3, b3]
  · intro hne
    by_cases h3 : x3 = []
    · subst h3
      have e3 : c3.length + i3.length = c2.length + i2.length := by
        have := congrArg List.length d3; simpa using this
      by_cases h2 : x2 = []
      · subst h2
        have e2 : c2.length + i2.length = c1.length + inp.length := by
          have := congrArg List.length b3; simpa using this
        have h1 : x1 ≠ [] := by intro h; subst h; simp at hne
        have := a5 h1; omega
      · have := b5 h2; omega
    · exact d5 h3

/-- `putData` once the first part was passed on. -/
theorem putData_mid (f : Filt) (F B L : Nat) (c inp : List Byte) (h : Mid f F B L c) :
    ∃ f' c' xs, f.putData inp = .ok (f', xs.map .next) ∧ Mid f' F B L c' ∧
      xs.flatten ++ c' = c ++ inp ∧ NextOk B xs ∧ (xs ≠ [] → L ≤ c'.length) ∧ c'.length < B + L := by
  unfold putData
  have h1 : stageFirst f inp (f.q.size + inp.length) = .ok (f, inp, c.length + inp.length, []) := by
    unfold stageFirst; rw [if_neg (by simp [h.done]), h.size]
  simp only
  rw [h1, bind_ok]
  simp only [h.done, if_true]
  have hst : ∃ f' c' inp' xs, (if f.blockSize = 1 then stage1 f inp (c.length + inp.length) else stageB f inp (c.length + inp.length)) =
      .ok (f', inp', c'.length + inp'.length, xs.map .next) ∧ Mid f' F B L c' ∧
      xs.flatten ++ (c' ++ inp') = c ++ inp ∧ NextOk B xs ∧ (xs ≠ [] → L ≤ c'.length + inp'.length) ∧
      c'.length + inp'.length < B + L := by
    rw [h.bs]
    by_cases hB : B = 1
    · subst hB; rw [if_pos rfl]; exact stage1_spec f F L c inp h
    · rw [if_neg hB]; exact stageB_spec f F B L (by have := h.pos; omega) c inp h
  obtain ⟨f', c', inp', xs, s1, s2, s3, s4, s5, s6⟩ := hst
  rw [s1, bind_ok]
  simp only
  have hsz := s2.size
  rw [hsz, Nat.add_sub_cancel_left, slice0 _ _ (Nat.le_refl _), bind_ok, List.take_of_length_le (Nat.le_refl _)]
  obtain ⟨q', p1, p2, p3, p4, p5, p6, p7⟩ := Ring.put_spec f'.q s2.qinv inp' (by
    rw [s2.cap, hsz]; have := (cap_ge B L h.pos).1; omega)
  rw [p1, bind_ok]
  rw [s2.con] at p3
  refine ⟨_, c' ++ inp', xs, rfl, ⟨s2.fs, s2.bs, s2.ls, s2.pos, p2, p3, s2.done, by simp only; rw [p5, s2.qbs], by simp only; rw [p6, s2.qmb], by simp only; rw [p7, s2.align]⟩,
    s3, s4, by simpa using s5, by simpa using s6⟩

/-- `putData` before the first part is complete. -/
theorem putData_pre_short (f : Filt) (F B L : Nat) (c inp : List Byte) (h : Pre f F B L c) (hs : (c ++ inp).length < F) :
    ∃ f', f.putData inp = .ok (f', []) ∧ Pre f' F B L (c ++ inp) := by
  have hs' : c.length + inp.length < F := by simpa using hs
  unfold putData
  have h1 : stageFirst f inp (f.q.size + inp.length) = .ok (f, inp, c.length + inp.length, []) := by
    unfold stageFirst; rw [h.size, h.fs, if_neg (by omega)]
  simp only
  rw [h1, bind_ok]
  simp only [h.done, Bool.false_eq_true, if_false]
  rw [bind_ok]
  simp only
  rw [h.size, Nat.add_sub_cancel_left, slice0 _ _ (Nat.le_refl _), bind_ok, List.take_of_length_le (Nat.le_refl _)]
  obtain ⟨q', p1, p2, p3, p4, p5, p6, p7⟩ := Ring.put_spec f.q h.qinv inp (by
    rw [h.qinv.cap, h.qbs, h.qmb, h.size]; omega)
  rw [p1, bind_ok]
  rw [h.con] at p3
  exact ⟨_, rfl, ⟨h.fs, h.bs, h.ls, h.pos, p2, p3, h.done, by simp only; rw [p5, h.qbs], by simp only; rw [p6, h.qmb], by simp only; rw [p7, h.beg]⟩⟩

/-- `putData` on the call that completes the first part. -/
theorem putData_pre_long (f : Filt) (F B L : Nat) (c inp : List Byte) (h : Pre f F B L c) (hc : c.length ≤ F)
    (hs : F ≤ (c ++ inp).length) :
    ∃ f' c' xs, f.putData inp = .ok (f', .first ((c ++ inp).take F) :: xs.map .next) ∧ Mid f' F B L c' ∧
      xs.flatten ++ c' = (c ++ inp).drop F ∧ NextOk B xs ∧ (xs ≠ [] → L ≤ c'.length) ∧ c'.length < B + L := by
  have hs' : F ≤ c.length + inp.length := by simpa using hs
  have hfirst : ∃ f0, stageFirst f inp (f.q.size + inp.length) =
      .ok (f0, inp.drop (F - c.length), (inp.drop (F - c.length)).length, [.first ((c ++ inp).take F)]) ∧ Mid f0 F B L [] := by
    unfold stageFirst
    rw [h.size, h.fs, if_pos ⟨by simp [h.done], hs'⟩]
    dsimp only
    rw [slice0 _ _ (by omega), bind_ok]
    obtain ⟨q', p1, p2, p3, p4, p5, p6, p7⟩ := Ring.put_spec f.q h.qinv (inp.take (F - c.length)) (by
      rw [h.qinv.cap, h.qbs, h.qmb, h.size]; simp; omega)
    rw [p1, bind_ok]
    rw [h.con] at p3
    have hp3 : c ++ inp.take (F - c.length) = (c ++ inp).take F := by
      rw [List.take_append, List.take_of_length_le hc]
    have hlen : (c ++ inp.take (F - c.length)).length = F := by simp; omega
    have hsz' : q'.size = F := by rw [← Ring.content_length q', p3, hlen]
    obtain ⟨m, q'', g1, g2, g3, g4, g5, g6, g7⟩ := Ring.getContiguous_spec q' p2 F
    have hm : m = F := by
      have : q'.buf.length = F := by rw [p4, h.qinv.cap, h.qbs, h.qmb]; omega
      rw [g6, p7, h.beg, this, hsz']; omega
    rw [g1, bind_ok, hm, p3, List.take_of_length_le (by omega), hp3]
    refine ⟨⟨F, B, L, true, Ring.reset f.junk B ((2 * B + L - 2) / B), f.junk⟩, ?_, ?_⟩
    · simp only [h.bs, h.ls]
      have e1 : ((c ++ inp).take F).length = F := by simp; omega
      rw [e1]
      have e2 : c.length + inp.length - F = (inp.drop (F - c.length)).length := by simp; omega
      rw [e2]
    · have r := Ring.reset_spec f.junk B ((2 * B + L - 2) / B)
      exact ⟨rfl, rfl, rfl, h.pos, r.1, r.2, rfl, rfl, rfl, Nat.zero_mod _⟩
  obtain ⟨f0, hf0, hm0⟩ := hfirst
  obtain ⟨f', c', xs, m1, m2, m3, m4, m5, m6⟩ := putData_mid f0 F B L [] (inp.drop (F - c.length)) hm0
  refine ⟨f', c', xs, ?_, m2, ?_, m4, m5, m6⟩
  · unfold putData at m1 ⊢
    simp only at m1 ⊢
    rw [hf0, bind_ok]
    have hsf : stageFirst f0 (inp.drop (F - c.length)) (f0.q.size + (inp.drop (F - c.length)).length) =
        .ok (f0, inp.drop (F - c.length), (inp.drop (F - c.length)).length, []) := by
      unfold stageFirst; rw [if_neg (by simp [hm0.done]), hm0.size]; simp
    rw [hsf, bind_ok] at m1
    simp only [hm0.done, if_true] at m1 ⊢
    generalize (if f0.blockSize = 1 then stage1 f0 (inp.drop (F - c.length)) (inp.drop (F - c.length)).length
      else stageB f0 (inp.drop (F - c.length)) (inp.drop (F - c.length)).length) = r at m1 ⊢
    cases r with
    | error e => exact absurd m1 (by simp [bind, Except.bind])
    | ok v =>
      obtain ⟨fv, iv, nv, ev⟩ := v
      rw [bind_ok] at m1 ⊢
      simp only at m1 ⊢
      cases hsl : slice iv 0 (nv - fv.q.size) with
      | error e => rw [hsl] at m1; exact absurd m1 (by simp [bind, Except.bind])
      | ok x =>
        rw [hsl, bind_ok] at m1
        rw [bind_ok]
        cases hpu : fv.q.put x with
        | error e => rw [hpu] at m1; exact absurd m1 (by simp [bind, Except.bind])
        | ok q =>
          rw [hpu, bind_ok] at m1
          rw [bind_ok]
          simp only [Except.ok.injEq, Prod.mk.injEq, List.nil_append] at m1 ⊢
          refine ⟨m1.1, ?_⟩
          rw [m1.2]; rfl
  · rw [m3, List.nil_append, List.drop_append, List.drop_of_length_le hc]; simp

theorem finish_spec (f : Filt) (F B L : Nat) (c : List Byte) (h : Mid f F B L c) :
    ∃ f', f.finish = .ok (f', [.last c, .messageEnd]) ∧ Pre f' F B L [] := by
  unfold finish
  obtain ⟨q', hq⟩ := Ring.getAll_spec f.q h.qinv
  have r := Ring.reset_spec f.junk 1 f.firstSize
  rw [hq]
  simp only [h.done, Bool.not_true, Bool.false_eq_true, false_and, if_false]
  rw [bind_ok, h.con]
  exact ⟨_, rfl, ⟨h.fs, h.bs, h.ls, h.pos, r.1, r.2, rfl, rfl, h.fs, rfl⟩⟩

theorem finish_pre (f : Filt) (F B L : Nat) (c : List Byte) (h : Pre f F B L c) :
    ∃ f', f.finish = .ok (f', (if F = 0 then [.first []] else []) ++ [.last c, .messageEnd]) ∧ Pre f' F B L [] := by
  unfold finish
  obtain ⟨q', hq⟩ := Ring.getAll_spec f.q h.qinv
  have r := Ring.reset_spec f.junk 1 f.firstSize
  rw [hq]
  simp only [h.done, Bool.not_false, true_and]
  rw [bind_ok, h.con, h.fs]
  rw [h.fs] at r
  exact ⟨_, rfl, ⟨by simp only [h.fs], h.bs, h.ls, h.pos, r.1, r.2, rfl, rfl, rfl, rfl⟩⟩

end Filt
end Verif.BufFilter
