import Verif.Integer.ClsProofs

/-!
# Proofs about class Integer: the arithmetic operators, comparison, copies, bit access, shifts
-/
namespace Verif.Integer

open Verif.Misc

variable {ws : Nat}

theorem value_pos {x : Obj} (h : x.neg = false) : value ws x = (wval (base ws) x.reg : Int) := by simp [value, h]

theorem value_neg {x : Obj} (h : x.neg = true) : value ws x = -(wval (base ws) x.reg : Int) := by simp [value, h]

theorem evenUp_countWords_le {A : List Nat} (h : A.length % 2 = 0) : evenUp (countWords A) ≤ A.length := by
  have := evenUp_spec (countWords A)
  have := countWords_le A
  omega

theorem ofWord_zero_reg {n : Nat} (h : ∃ k, n = 2 ^ (k + 1)) : (ofWord 0 n).reg = List.replicate n 0 := by
  have h2 := size_even h
  obtain ⟨k, e⟩ := h
  have : roundupSize n = n := by rw [e, roundupSize_pow]
  simp only [ofWord, this]
  obtain ⟨m, em⟩ : ∃ m, n = m + 1 := ⟨n - 1, by omega⟩
  subst em
  rw [List.replicate_succ]; simp

/-- Subtraction of magnitudes into a zero or grown-in-place destination. -/
theorem sub_ok (hw : 0 < ws) {diff a b : List Nat} (ha : Words (base ws) a) (hb : Words (base ws) b) (hd : Words (base ws) diff)
    (sd : ∃ k, diff.length = 2 ^ (k + 1)) (ea : a.length % 2 = 0) (eb : b.length % 2 = 0) (la : a.length ≤ diff.length)
    (lb : b.length ≤ diff.length)
    (hz : diff = List.replicate diff.length 0 ∨ diff = a ∨ diff = b) :
    Ok ws (positiveSubtract (base ws) diff a b) ∧
      value ws (positiveSubtract (base ws) diff a b) = (wval (base ws) a : Int) - wval (base ws) b := by
  have hB := base_gt hw
  have ga := evenUp_countWords_le ea
  have gb := evenUp_countWords_le eb
  have hz' : wval (base ws) (diff.drop (max (evenUp (countWords a)) (evenUp (countWords b)))) = 0 := by
    have h1 := evenUp_spec (countWords a)
    have h2 := evenUp_spec (countWords b)
    rcases hz with h | h | h
    · rw [h, List.drop_replicate, wval_zeros]
    · rw [h]
      exact (drop_ge_countWords (by omega) ha _ (by omega) (by have := congrArg List.length h; omega)).2
    · rw [h]
      exact (drop_ge_countWords (by omega) hb _ (by omega) (by have := congrArg List.length h; omega)).2
  obtain ⟨h1, h2, h3⟩ := positiveSubtract_spec hB ha hb hd ea eb (by omega) (by omega) hz'
  refine ⟨⟨h2, ?_, ?_⟩, ?_⟩
  · rw [h1]; exact sd
  · intro hn
    rcases h3 with ⟨h, _⟩ | ⟨_, _, h⟩
    · rw [h] at hn; cases hn
    · exact h
  · rcases h3 with ⟨hn, h⟩ | ⟨hn, h, _⟩
    · rw [value_pos hn]; omega
    · rw [value_neg hn]; omega

theorem add_ok (hw : 0 < ws) {sum a b : List Nat} (ha : Words (base ws) a) (hb : Words (base ws) b)
    (sa : ∃ k, a.length = 2 ^ (k + 1)) (sb : ∃ k, b.length = 2 ^ (k + 1)) (hs : sum.length = max a.length b.length) (s : Bool)
    (hsn : s = true → wval (base ws) a ≠ 0) :
    Ok ws ⟨positiveAdd (base ws) sum a b, s⟩ ∧
      value ws ⟨positiveAdd (base ws) sum a b, s⟩ =
        if s then -((wval (base ws) a : Int) + wval (base ws) b) else (wval (base ws) a : Int) + wval (base ws) b := by
  obtain ⟨h1, h2, h3⟩ := positiveAdd_spec (base_gt hw) ha hb sa sb hs
  refine ⟨⟨h1, h2, ?_⟩, ?_⟩
  · intro h
    simp only at h ⊢
    have := hsn h
    omega
  · simp only [value, h3]
    cases s <;> simp

theorem plus_spec (hw : 0 < ws) {a b : Obj} (ha : Ok ws a) (hb : Ok ws b) :
    Ok ws (plus ws a b) ∧ value ws (plus ws a b) = value ws a + value ws b := by
  have smax := size_max ha.size hb.size
  have ⟨ea, _⟩ := size_even ha.size
  have ⟨eb, _⟩ := size_even hb.size
  have hB := base_gt hw
  have wz : Words (base ws) (List.replicate (max a.reg.length b.reg.length) 0) := Words.replicate (by omega) _
  simp only [plus, ofWord_zero_reg smax]
  split
  · rename_i na
    split
    · rename_i nb
      have := add_ok (sum := List.replicate (max a.reg.length b.reg.length) 0) hw ha.words hb.words ha.size hb.size (by simp) false (by simp)
      rw [value_pos na, value_pos nb]; simpa using this
    · rename_i nb
      simp only [Bool.not_eq_false] at nb
      have := sub_ok (diff := List.replicate (max a.reg.length b.reg.length) 0) hw ha.words hb.words wz (by simpa using smax) ea eb
        (by simp) (by simp) (Or.inl (by simp))
      refine ⟨this.1, ?_⟩
      rw [value_pos na, value_neg nb, this.2]; omega
  · rename_i na
    simp only [Bool.not_eq_false] at na
    split
    · rename_i nb
      have := sub_ok (diff := List.replicate (max a.reg.length b.reg.length) 0) hw hb.words ha.words wz (by simpa using smax) eb ea
        (by simp) (by simp) (Or.inl (by simp))
      refine ⟨this.1, ?_⟩
      rw [value_neg na, value_pos nb, this.2]; omega
    · rename_i nb
      simp only [Bool.not_eq_false] at nb
      have := add_ok (sum := List.replicate (max a.reg.length b.reg.length) 0) hw ha.words hb.words ha.size hb.size (by simp) true
        (fun _ => ha.sign na)
      refine ⟨this.1, ?_⟩
      rw [value_neg na, value_neg nb, this.2]; simp; omega

theorem minus_spec (hw : 0 < ws) {a b : Obj} (ha : Ok ws a) (hb : Ok ws b) :
    Ok ws (minus ws a b) ∧ value ws (minus ws a b) = value ws a - value ws b := by
  have smax := size_max ha.size hb.size
  have ⟨ea, _⟩ := size_even ha.size
  have ⟨eb, _⟩ := size_even hb.size
  have hB := base_gt hw
  have wz : Words (base ws) (List.replicate (max a.reg.length b.reg.length) 0) := Words.replicate (by omega) _
  simp only [minus, ofWord_zero_reg smax]
  split
  · rename_i na
    split
    · rename_i nb
      have := sub_ok (diff := List.replicate (max a.reg.length b.reg.length) 0) hw ha.words hb.words wz (by simpa using smax) ea eb
        (by simp) (by simp) (Or.inl (by simp))
      refine ⟨this.1, ?_⟩
      rw [value_pos na, value_pos nb, this.2]
    · rename_i nb
      simp only [Bool.not_eq_false] at nb
      have := add_ok (sum := List.replicate (max a.reg.length b.reg.length) 0) hw ha.words hb.words ha.size hb.size (by simp) false (by simp)
      refine ⟨this.1, ?_⟩
      rw [value_pos na, value_neg nb, this.2]; simp
  · rename_i na
    simp only [Bool.not_eq_false] at na
    split
    · rename_i nb
      have := add_ok (sum := List.replicate (max a.reg.length b.reg.length) 0) hw ha.words hb.words ha.size hb.size (by simp) true
        (fun _ => ha.sign na)
      refine ⟨this.1, ?_⟩
      rw [value_neg na, value_pos nb, this.2]; simp; omega
    · rename_i nb
      simp only [Bool.not_eq_false] at nb
      have := sub_ok (diff := List.replicate (max a.reg.length b.reg.length) 0) hw hb.words ha.words wz (by simpa using smax) eb ea
        (by simp) (by simp) (Or.inl (by simp))
      refine ⟨this.1, ?_⟩
      rw [value_neg na, value_neg nb, this.2]; omega

theorem plusAssign_spec (hw : 0 < ws) {a t : Obj} (ha : Ok ws a) (ht : Ok ws t) :
    Ok ws (plusAssign ws a t) ∧ value ws (plusAssign ws a t) = value ws a + value ws t := by
  have smax := size_max ha.size ht.size
  have hB := base_gt hw
  have wr : Words (base ws) (cleanGrow a.reg t.reg.length) := ha.words.cleanGrow (by omega) _
  have lr := cleanGrow_length a.reg t.reg.length
  have sr : ∃ k, (cleanGrow a.reg t.reg.length).length = 2 ^ (k + 1) := by rw [lr]; exact smax
  have ⟨er, _⟩ := size_even sr
  have ⟨et, _⟩ := size_even ht.size
  have vr := cleanGrow_wval (base ws) a.reg t.reg.length
  simp only [plusAssign]
  split
  · rename_i na
    split
    · rename_i nt
      have := add_ok (sum := cleanGrow a.reg t.reg.length) hw wr ht.words sr ht.size (by omega) false (by simp)
      refine ⟨this.1, ?_⟩
      rw [value_pos na, value_pos nt, this.2, vr]; simp
    · rename_i nt
      simp only [Bool.not_eq_false] at nt
      have := sub_ok (diff := cleanGrow a.reg t.reg.length) hw wr ht.words wr sr er et (Nat.le_refl _) (by omega) (Or.inr (Or.inl rfl))
      refine ⟨this.1, ?_⟩
      rw [value_pos na, value_neg nt, this.2, vr]; omega
  · rename_i na
    simp only [Bool.not_eq_false] at na
    split
    · rename_i nt
      have := sub_ok (diff := cleanGrow a.reg t.reg.length) hw ht.words wr wr sr et er (by omega) (Nat.le_refl _) (Or.inr (Or.inr rfl))
      refine ⟨this.1, ?_⟩
      rw [value_neg na, value_pos nt, this.2, vr]; omega
    · rename_i nt
      simp only [Bool.not_eq_false] at nt
      have := add_ok (sum := cleanGrow a.reg t.reg.length) hw wr ht.words sr ht.size (by omega) true
        (fun _ => by rw [vr]; exact ha.sign na)
      refine ⟨this.1, ?_⟩
      rw [value_neg na, value_neg nt, this.2, vr]; simp; omega

theorem minusAssign_spec (hw : 0 < ws) {a t : Obj} (ha : Ok ws a) (ht : Ok ws t) :
    Ok ws (minusAssign ws a t) ∧ value ws (minusAssign ws a t) = value ws a - value ws t := by
  have smax := size_max ha.size ht.size
  have hB := base_gt hw
  have wr : Words (base ws) (cleanGrow a.reg t.reg.length) := ha.words.cleanGrow (by omega) _
  have lr := cleanGrow_length a.reg t.reg.length
  have sr : ∃ k, (cleanGrow a.reg t.reg.length).length = 2 ^ (k + 1) := by rw [lr]; exact smax
  have ⟨er, _⟩ := size_even sr
  have ⟨et, _⟩ := size_even ht.size
  have vr := cleanGrow_wval (base ws) a.reg t.reg.length
  simp only [minusAssign]
  split
  · rename_i na
    split
    · rename_i nt
      have := sub_ok (diff := cleanGrow a.reg t.reg.length) hw wr ht.words wr sr er et (Nat.le_refl _) (by omega) (Or.inr (Or.inl rfl))
      refine ⟨this.1, ?_⟩
      rw [value_pos na, value_pos nt, this.2, vr]
    · rename_i nt
      simp only [Bool.not_eq_false] at nt
      have := add_ok (sum := cleanGrow a.reg t.reg.length) hw wr ht.words sr ht.size (by omega) false (by simp)
      refine ⟨this.1, ?_⟩
      rw [value_pos na, value_neg nt, this.2, vr]; simp
  · rename_i na
    simp only [Bool.not_eq_false] at na
    split
    · rename_i nt
      have := add_ok (sum := cleanGrow a.reg t.reg.length) hw wr ht.words sr ht.size (by omega) true
        (fun _ => by rw [vr]; exact ha.sign na)
      refine ⟨this.1, ?_⟩
      rw [value_neg na, value_pos nt, this.2, vr]; simp; omega
    · rename_i nt
      simp only [Bool.not_eq_false] at nt
      have := sub_ok (diff := cleanGrow a.reg t.reg.length) hw ht.words wr wr sr et er (by omega) (Nat.le_refl _) (Or.inr (Or.inr rfl))
      refine ⟨this.1, ?_⟩
      rw [value_neg na, value_neg nt, this.2, vr]; omega

/-! ### Copies, sign -/

theorem zero_ok (hw : 0 < ws) : Ok ws zero ∧ value ws zero = 0 := by
  have hB := base_gt hw
  refine ⟨⟨Words.cons (by omega) (Words.cons (by omega) Words.nil), ⟨0, rfl⟩, by simp [zero]⟩, ?_⟩
  simp [value, zero, wval]

theorem take_roundup (hw : 0 < ws) {t : Obj} (ht : Ok ws t) :
    Words (base ws) (t.reg.take (roundupSize (wordCount t))) ∧
      (t.reg.take (roundupSize (wordCount t))).length = roundupSize (wordCount t) ∧
      wval (base ws) (t.reg.take (roundupSize (wordCount t))) = wval (base ws) t.reg := by
  obtain ⟨k, hk⟩ := ht.size
  obtain ⟨r1, r2, r3⟩ := roundupSize_spec (wordCount t)
  have hle : roundupSize (wordCount t) ≤ t.reg.length := by
    rw [hk]; exact r3 k (by rw [← hk]; exact countWords_le _)
  refine ⟨ht.words.take _, by simp; omega, ?_⟩
  exact (drop_ge_countWords (by have := base_gt hw; omega) ht.words _ r2 hle).1

theorem copyCtor_spec (hw : 0 < ws) {t : Obj} (ht : Ok ws t) : Ok ws (copyCtor t) ∧ value ws (copyCtor t) = value ws t := by
  obtain ⟨h1, h2, h3⟩ := take_roundup hw ht
  refine ⟨⟨h1, by simp only [copyCtor]; rw [h2]; exact (roundupSize_spec _).1, ?_⟩, ?_⟩
  · simp only [copyCtor, h3]; exact ht.sign
  · simp only [value, copyCtor, h3]

theorem assign_spec (hw : 0 < ws) (self : Obj) {t : Obj} (ht : Ok ws t) :
    Ok ws (assign self t) ∧ value ws (assign self t) = value ws t := by
  unfold assign
  split
  · exact copyCtor_spec hw ht
  · rename_i h
    have e : self.reg.length = t.reg.length := by
      rcases Nat.decEq self.reg.length t.reg.length with h' | h'
      · exact absurd (Or.inl h') h
      · exact h'
    rw [e, List.take_length]
    exact ⟨ht, rfl⟩

theorem isZero_spec (hw : 0 < ws) {x : Obj} (hx : Ok ws x) : isZero x = decide (value ws x = 0) := by
  have hB := base_gt hw
  unfold isZero
  split
  · rename_i h
    have := hx.sign h
    rw [value_neg h]
    symm
    apply decide_eq_false
    omega
  · rename_i h
    simp only [Bool.not_eq_true] at h
    rw [value_pos h]
    by_cases hz : wval (base ws) x.reg = 0
    · have e := wval_eq_zero (by omega) hz
      have h0 : x.reg.getD 0 0 = 0 := by
        rw [e]; cases x.reg.length <;> simp
      have hc : wordCount x = 0 := (countWords_eq_zero (B := base ws) (by omega)).mpr hz
      have hv : ((wval (base ws) x.reg : Int) = 0) := by exact_mod_cast hz
      rw [h0, hc]; simp [hv]
    · have hc : wordCount x ≠ 0 := fun h => hz ((countWords_eq_zero (B := base ws) (by omega)).mp h)
      have hv : ¬ ((wval (base ws) x.reg : Int) = 0) := by exact_mod_cast hz
      rw [decide_eq_false hv]; simp [hc]

theorem negate_spec (hw : 0 < ws) {x : Obj} (hx : Ok ws x) : Ok ws (negate x) ∧ value ws (negate x) = - value ws x := by
  have hz := isZero_spec hw hx
  unfold negate
  split
  · rename_i h
    rw [h] at hz
    have hv : value ws x ≠ 0 := by
      intro hv; simp [hv] at hz
    refine ⟨⟨hx.words, hx.size, ?_⟩, ?_⟩
    · intro _ h0
      apply hv
      simp only at h0
      simp [value, h0]
    · simp only [value]
      cases x.neg <;> simp
  · rename_i h
    simp only [Bool.not_eq_false] at h
    rw [h] at hz
    have hv : value ws x = 0 := by
      have := hz.symm; simpa using this
    exact ⟨hx, by rw [hv]; rfl⟩

theorem neg_spec (hw : 0 < ws) {x : Obj} (hx : Ok ws x) : Ok ws (neg x) ∧ value ws (neg x) = - value ws x := by
  obtain ⟨h1, h2⟩ := copyCtor_spec hw hx
  obtain ⟨h3, h4⟩ := negate_spec hw h1
  exact ⟨h3, by unfold neg; rw [h4, h2]⟩

theorem wval_eq_natAbs (x : Obj) : wval (base ws) x.reg = (value ws x).natAbs := by
  unfold value; split <;> simp

theorem absoluteValue_spec (hw : 0 < ws) {x : Obj} (hx : Ok ws x) :
    Ok ws (absoluteValue x) ∧ value ws (absoluteValue x) = (value ws x).natAbs := by
  obtain ⟨h1, h2⟩ := copyCtor_spec hw hx
  refine ⟨⟨h1.words, h1.size, by simp [absoluteValue]⟩, ?_⟩
  rw [value_pos rfl, ← h2, ← wval_eq_natAbs]; rfl

/-! ### ++ and -- -/

theorem preInc_mag (hw : 0 < ws) {x : Obj} (hx : Ok ws x) (s : Bool) :
    let r : Obj := (let i := increment (base ws) 1 x.reg
      if i.2 ≠ 0 then
        let g := cleanGrow i.1 (2 * i.1.length)
        ⟨g.set (g.length / 2) 1, s⟩
      else ⟨i.1, s⟩)
    Ok ws r ∧ r.neg = s ∧ wval (base ws) r.reg = wval (base ws) x.reg + 1 := by
  have hB := base_gt hw
  have ⟨_, l2⟩ := size_even hx.size
  have hne : x.reg ≠ [] := by intro h; rw [h] at l2; simp at l2
  obtain ⟨h1, h2, h3, h4⟩ := increment_spec hB 1 hB x.reg hx.words hne
  intro r
  simp only [r]
  split
  · rename_i h
    obtain ⟨g1, g2, g3⟩ := growOne hB h2 (by omega)
    have e1 : (increment (base ws) 1 x.reg).2 = 1 := by omega
    rw [e1] at h4
    have hv : wval (base ws) ((cleanGrow (increment (base ws) 1 x.reg).1 (2 * (increment (base ws) 1 x.reg).1.length)).set
      ((cleanGrow (increment (base ws) 1 x.reg).1 (2 * (increment (base ws) 1 x.reg).1.length)).length / 2) 1) = wval (base ws) x.reg + 1 := by
      rw [g3, h1, ← h4]; simp
    refine ⟨⟨g2, ?_, ?_⟩, rfl, hv⟩
    · rw [g1, h1]; exact size_double hx.size
    · intro _; simp only; rw [hv]; omega
  · rename_i h
    have e0 : (increment (base ws) 1 x.reg).2 = 0 := by omega
    rw [e0] at h4
    refine ⟨⟨h2, by simp only; rw [h1]; exact hx.size, ?_⟩, rfl, by simpa using h4⟩
    intro _; simp only; simp at h4; omega

theorem preInc_spec (hw : 0 < ws) {x : Obj} (hx : Ok ws x) : Ok ws (preInc ws x) ∧ value ws (preInc ws x) = value ws x + 1 := by
  have hB := base_gt hw
  have ⟨_, l2⟩ := size_even hx.size
  have hne : x.reg ≠ [] := by intro h; rw [h] at l2; simp at l2
  unfold preInc
  split
  · rename_i h
    obtain ⟨h1, h2, h3⟩ := preInc_mag hw hx false
    refine ⟨h1, ?_⟩
    rw [value_pos h2, h3, value_pos h]; simp
  · rename_i h
    simp only [Bool.not_eq_false] at h
    obtain ⟨h1, h2, h3, h4⟩ := decrement_spec hB 1 hB x.reg hx.words hne
    have hnz := hx.sign h
    have h0 : (decrement (base ws) 1 x.reg).2 = 0 := by
      rcases Nat.eq_zero_or_pos (decrement (base ws) 1 x.reg).2 with e | e
      · exact e
      · have e1 : (decrement (base ws) 1 x.reg).2 = 1 := by omega
        rw [e1] at h4
        have := wval_lt h2
        rw [h1] at this
        omega
    rw [h0] at h4
    simp only
    split
    · rename_i hc
      have := (countWords_eq_zero (B := base ws) (by omega)).mp hc
      obtain ⟨z1, z2⟩ := zero_ok hw
      refine ⟨z1, ?_⟩
      rw [z2, value_neg h]
      omega
    · rename_i hc
      refine ⟨⟨h2, by simp only; rw [h1]; exact hx.size, ?_⟩, ?_⟩
      · intro _ h0
        exact hc ((countWords_eq_zero (B := base ws) (by omega)).mpr h0)
      · rw [value_neg rfl, value_neg h]; simp only; omega

theorem preDec_spec (hw : 0 < ws) {x : Obj} (hx : Ok ws x) : Ok ws (preDec ws x) ∧ value ws (preDec ws x) = value ws x - 1 := by
  have hB := base_gt hw
  have ⟨_, l2⟩ := size_even hx.size
  have hne : x.reg ≠ [] := by intro h; rw [h] at l2; simp at l2
  unfold preDec
  split
  · rename_i h
    obtain ⟨h1, h2, h3⟩ := preInc_mag hw hx true
    refine ⟨h1, ?_⟩
    rw [value_neg h2, h3, value_neg h]; push_cast; omega
  · rename_i h
    simp only [Bool.not_eq_true] at h
    obtain ⟨h1, h2, h3, h4⟩ := decrement_spec hB 1 hB x.reg hx.words hne
    simp only
    split
    · rename_i hc
      have e1 : (decrement (base ws) 1 x.reg).2 = 1 := by omega
      rw [e1] at h4
      have := wval_lt h2
      rw [h1] at this
      have hz : wval (base ws) x.reg = 0 := by omega
      refine ⟨⟨Words.cons hB (Words.cons (by omega) Words.nil), ⟨0, rfl⟩, by simp [wval]⟩, ?_⟩
      rw [value_neg rfl, value_pos h, hz]; simp [wval]
    · rename_i hc
      have e0 : (decrement (base ws) 1 x.reg).2 = 0 := by omega
      rw [e0] at h4
      refine ⟨⟨h2, by simp only; rw [h1]; exact hx.size, by simp⟩, ?_⟩
      rw [value_pos rfl, value_pos h]; simp only; omega

/-! ### Compare -/

theorem positiveCompare_spec (hw : 0 < ws) {a t : Obj} (ha : Ok ws a) (ht : Ok ws t) :
    positiveCompare a t = (if wval (base ws) a.reg > wval (base ws) t.reg then 1
      else if wval (base ws) a.reg < wval (base ws) t.reg then -1 else 0) := by
  have hB := base_gt hw
  have big : ∀ {x y : Obj}, Ok ws y → wordCount y < wordCount x → wval (base ws) y.reg < wval (base ws) x.reg := by
    intro x y hy h
    have h3 := countWords_pos_le (B := base ws) (A := x.reg) (by omega) (by unfold wordCount at h; omega)
    have h4 := wval_lt_countWords hy.words
    have h5 := Nat.pow_le_pow_right (n := base ws) (by omega) (by unfold wordCount at h; omega : countWords y.reg ≤ countWords x.reg - 1)
    omega
  unfold positiveCompare
  simp only
  split
  · rename_i hne
    split
    · rename_i h
      have := big ht h
      rw [if_pos this]
    · rename_i h
      have := big (x := t) ha (by omega)
      rw [if_neg (by omega), if_pos this]
  · rename_i he
    simp only [ne_eq, Decidable.not_not] at he
    rw [compareW_spec ha.words ht.words (wordCount a) (countWords_le _) (by rw [he]; exact countWords_le _)]
    have e1 : wval (base ws) (a.reg.take (wordCount a)) = wval (base ws) a.reg := wval_take_countWords _ _
    have e2 : wval (base ws) (t.reg.take (wordCount a)) = wval (base ws) t.reg := by rw [he]; exact wval_take_countWords _ _
    rw [e1, e2]

theorem compare_spec (hw : 0 < ws) {a t : Obj} (ha : Ok ws a) (ht : Ok ws t) :
    compare a t = (if value ws a > value ws t then 1 else if value ws a < value ws t then -1 else 0) := by
  have pc := positiveCompare_spec hw ha ht
  unfold compare
  split
  · rename_i na
    split
    · rename_i nt
      rw [pc, value_pos na, value_pos nt]
      simp only [gt_iff_lt, Nat.cast_lt]
    · rename_i nt
      simp only [Bool.not_eq_false] at nt
      have := ht.sign nt
      rw [value_pos na, value_neg nt, if_pos (by omega)]
  · rename_i na
    simp only [Bool.not_eq_false] at na
    split
    · rename_i nt
      have := ha.sign na
      rw [value_neg na, value_pos nt, if_neg (by omega), if_pos (by omega)]
    · rename_i nt
      simp only [Bool.not_eq_false] at nt
      rw [pc, value_neg na, value_neg nt]
      split
      · rw [if_neg (by omega), if_pos (by omega)]
      · split
        · rw [if_pos (by omega)]; rfl
        · rw [if_neg (by omega), if_neg (by omega)]; rfl

end Verif.Integer
