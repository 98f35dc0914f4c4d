import Verif.BufFilter.Model

/-! The ring buffer refines a byte list. -/
namespace Verif.BufFilter

theorem bind_ok {ε α β} (a : α) (f : α → Except ε β) : (Except.ok a >>= f) = f a := rfl

namespace Ring

def pos (len b i : Nat) : Nat := if b + i < len then b + i else b + i - len

def content (q : Ring) : List Byte := (List.range q.size).map fun i => q.buf.getD (pos q.buf.length q.begin_ i) 0

structure Inv (q : Ring) : Prop where
  cap : q.buf.length = q.blockSize * q.maxBlocks
  beg : q.begin_ < q.buf.length ∨ (q.buf.length = 0 ∧ q.begin_ = 0)
  fits : q.size ≤ q.buf.length

@[simp] theorem content_length (q : Ring) : q.content.length = q.size := by simp [content]

theorem content_getElem (q : Ring) (i : Nat) (h : i < q.content.length) :
    q.content[i] = q.buf.getD (pos q.buf.length q.begin_ i) 0 := by simp [content]

theorem reset_spec (junk bs mb) : (reset junk bs mb).Inv ∧ (reset junk bs mb).content = [] := by
  refine ⟨⟨by simp [reset], ?_, by simp [reset]⟩, by simp [reset, content]⟩
  simp [reset]; omega

theorem slice_ok {buf : List Byte} {i n : Nat} (h : i + n ≤ buf.length) : slice buf i n = .ok ((buf.drop i).take n) := if_pos h

theorem write_ok {buf : List Byte} {i : Nat} {xs : List Byte} (h : i + xs.length ≤ buf.length) :
    write buf i xs = .ok (buf.take i ++ xs ++ buf.drop (i + xs.length)) := if_pos h

theorem getD_eq (l : List Byte) (i : Nat) (h : i < l.length) : l.getD i 0 = l[i] := by
  rw [List.getD_eq_getElem?_getD, List.getElem?_eq_getElem h, Option.getD_some]

theorem getD_write (buf : List Byte) (i : Nat) (xs : List Byte) (h : i + xs.length ≤ buf.length) (j : Nat) (hj : j < buf.length) :
    (buf.take i ++ xs ++ buf.drop (i + xs.length)).getD j 0 =
      if i ≤ j ∧ j < i + xs.length then xs.getD (j - i) 0 else buf.getD j 0 := by
  have hl : j < (buf.take i ++ xs ++ buf.drop (i + xs.length)).length := by simp; omega
  rw [getD_eq _ _ hl, getD_eq buf j hj]
  simp only [List.getElem_append, List.length_append, List.length_take, List.getElem_take, List.getElem_drop]
  have hm : min i buf.length = i := by omega
  by_cases h1 : j < i
  · rw [dif_pos (by omega), dif_pos (by omega), if_neg (by omega)]
  · by_cases h2 : j < i + xs.length
    · rw [dif_pos (by omega), dif_neg (by omega), if_pos ⟨by omega, h2⟩, getD_eq _ _ (by omega)]
      simp [hm]
    · rw [dif_neg (by omega), if_neg (by omega)]
      congr 1; omega

theorem slice_content (q : Ring) (h : q.Inv) (n : Nat) (hn : n ≤ q.size) (hc : q.begin_ + n ≤ q.buf.length) :
    slice q.buf q.begin_ n = .ok (q.content.take n) := by
  rw [slice_ok hc]
  congr 1
  apply List.ext_getElem
  · simp; omega
  · intro i h1 h2
    have hi : i < n := by simp at h1; omega
    rw [List.getElem_take, List.getElem_take, content_getElem, List.getElem_drop]
    unfold pos
    rw [if_pos (by omega), getD_eq]

/-- Dropping `n ≤ size` bytes by moving `begin_`. -/
theorem content_advance (q : Ring) (h : q.Inv) (n b : Nat) (hn : n ≤ q.size) (hc : q.begin_ + n ≤ q.buf.length)
    (hb : b = (if q.begin_ + n = q.buf.length then 0 else q.begin_ + n) ∨ (q.size - n = 0 ∧ b = 0)) :
    ({ q with begin_ := b, size := q.size - n } : Ring).Inv ∧
    ({ q with begin_ := b, size := q.size - n } : Ring).content = q.content.drop n := by
  obtain ⟨h1, h2, h3⟩ := h
  refine ⟨⟨h1, ?_, by simp only; omega⟩, ?_⟩
  · simp only
    rcases hb with hb | ⟨_, hb⟩
    · split at hb <;> omega
    · omega
  · apply List.ext_getElem
    · simp
    · intro i hi1 hi2
      have hi : i < q.size - n := by simpa using hi1
      rw [List.getElem_drop, content_getElem, content_getElem]
      congr 1
      unfold pos
      simp only
      rcases hb with hb | ⟨h0, _⟩
      · split at hb <;> subst hb <;> split <;> split <;> omega
      · omega

theorem getContiguous_spec (q : Ring) (h : q.Inv) (n : Nat) :
    ∃ m q', q.getContiguous n = .ok (q.content.take m, q') ∧ q'.Inv ∧ q'.content = q.content.drop m ∧ m ≤ q.size ∧ m ≤ n ∧
      m = min n (min (q.buf.length - q.begin_) q.size) ∧
      q'.buf = q.buf ∧ q'.blockSize = q.blockSize ∧ q'.maxBlocks = q.maxBlocks ∧
      (q'.size = 0 → q'.begin_ = 0) := by
  have hb := h.beg
  have hf := h.fits
  generalize hm : min n (min (q.buf.length - q.begin_) q.size) = m
  have hadv := content_advance q h m (if q.size - m = 0 ∨ q.begin_ + m = q.buf.length then 0 else q.begin_ + m)
    (by omega) (by omega) (by
      by_cases h0 : q.size - m = 0
      · exact Or.inr ⟨h0, by simp only [h0, true_or, if_true]⟩
      · left; simp only [h0, false_or])
  refine ⟨m, _, ?_, hadv.1, hadv.2, by omega, by omega, rfl, rfl, rfl, rfl, ?_⟩
  · unfold getContiguous
    simp only [hm]
    rw [slice_content q h _ (by omega) (by omega), bind_ok]
  · intro h0
    simp only at h0 ⊢
    rw [if_pos (Or.inl h0)]

theorem getAll_state (q : Ring) (h : q.Inv) : ∃ q', q.getAll = .ok (q.content, q') ∧ q'.Inv ∧ q'.content = [] ∧ q'.blockSize = q.blockSize ∧
    q'.maxBlocks = q.maxBlocks := by
  have hb := h.beg
  have hf := h.fits
  obtain ⟨m, q', h1, h2, h3, h4, h5, h6, h7, h8, h9, h10⟩ := getContiguous_spec q h (q.maxBlocks * q.blockSize)
  have hcap := h.cap
  rw [Nat.mul_comm] at hcap
  have hs : q'.size = q.size - m := by rw [← content_length q', h3]; simp
  refine ⟨{ q' with size := 0 }, ?_, ⟨h2.cap, h2.beg, Nat.zero_le _⟩, rfl, h8, h9⟩
  unfold getAll
  rw [h1, bind_ok]
  have hb' : q'.begin_ + q'.size ≤ q'.buf.length := by
    have hq' := h2.beg
    by_cases h0 : q'.size = 0
    · omega
    · -- the first piece reached the end of the buffer
      have : q'.begin_ = 0 := by
        unfold getContiguous at h1
        simp only at h1
        rw [slice_content q h _ (by omega) (by omega), bind_ok] at h1
        simp only [Except.ok.injEq, Prod.mk.injEq] at h1
        have := congrArg Ring.begin_ h1.2
        simp only at this
        rw [← this, if_pos]
        right; omega
      have := h2.fits
      omega
  simp only
  rw [slice_content q' h2 _ (Nat.le_refl _) hb', bind_ok]
  have : q'.content.take q'.size = q'.content := List.take_of_length_le (by simp)
  rw [this, h3, List.take_append_drop]

theorem getAll_spec (q : Ring) (h : q.Inv) : ∃ q', q.getAll = .ok (q.content, q') :=
  let ⟨q', e, _⟩ := getAll_state q h
  ⟨q', e⟩

theorem put_spec (q : Ring) (h : q.Inv) (xs : List Byte) (hx : q.size + xs.length ≤ q.buf.length) :
    ∃ q', q.put xs = .ok q' ∧ q'.Inv ∧ q'.content = q.content ++ xs ∧ q'.buf.length = q.buf.length ∧
      q'.blockSize = q.blockSize ∧ q'.maxBlocks = q.maxBlocks ∧ q'.begin_ = q.begin_ := by
  obtain ⟨h1, h2, h3⟩ := h
  unfold put
  by_cases h0 : xs.length = 0
  · rw [if_pos h0]
    exact ⟨q, rfl, ⟨h1, h2, h3⟩, by rw [List.eq_nil_of_length_eq_zero h0]; simp, rfl, rfl, rfl, rfl⟩
  · rw [if_neg h0]
    simp only
    generalize he : (if q.size < q.buf.length - q.begin_ then q.begin_ + q.size else q.begin_ + q.size - q.buf.length) = e
    have hel : e < q.buf.length := by split at he <;> omega
    generalize hlen : min xs.length (q.buf.length - e) = len
    have w1 : e + (xs.take len).length ≤ q.buf.length := by simp; omega
    rw [write_ok w1, bind_ok]
    generalize hb1 : q.buf.take e ++ xs.take len ++ q.buf.drop (e + (xs.take len).length) = b1
    have hb1l : b1.length = q.buf.length := by rw [← hb1]; simp; omega
    have g1 : ∀ j, j < q.buf.length → b1.getD j 0 = if e ≤ j ∧ j < e + len then xs.getD (j - e) 0 else q.buf.getD j 0 := by
      intro j hj
      rw [← hb1, getD_write _ _ _ w1 j hj]
      have hll : (xs.take len).length = len := by simp; omega
      rw [hll]
      split
      · rw [getD_eq _ _ (by rw [hll]; omega), getD_eq _ _ (by omega), List.getElem_take]
      · rfl
    have hex : ∃ b2, (if len < xs.length then write b1 0 (xs.drop len) else .ok b1) = .ok b2 ∧ b2.length = q.buf.length ∧
        ∀ j, j < q.buf.length → b2.getD j 0 = if j < xs.length - len then xs.getD (len + j) 0
          else if e ≤ j ∧ j < e + len then xs.getD (j - e) 0 else q.buf.getD j 0 := by
      split
      · rename_i hlt
        have w2 : 0 + (xs.drop len).length ≤ b1.length := by simp; omega
        refine ⟨_, write_ok w2, by simp; omega, ?_⟩
        intro j hj
        rw [getD_write _ _ _ w2 j (by omega), g1 j hj]
        have hll : (xs.drop len).length = xs.length - len := by simp
        rw [hll]
        by_cases hj2 : j < xs.length - len
        · rw [if_pos (by omega), if_pos hj2, getD_eq _ _ (by rw [hll]; omega), getD_eq _ _ (by omega), List.getElem_drop]
          simp
        · rw [if_neg (by omega), if_neg hj2]
      · refine ⟨b1, rfl, hb1l, ?_⟩
        intro j hj
        rw [g1 j hj, if_neg (show ¬ j < xs.length - len by omega)]
    obtain ⟨b2, hb2, hb2l, g2⟩ := hex
    rw [hb2, bind_ok]
    refine ⟨_, rfl, ⟨by simp only; omega, by simp only; omega, by simp only; omega⟩, ?_, hb2l, rfl, rfl, rfl⟩
    apply List.ext_getElem
    · simp
    · intro i i1 i2
      have hi : i < q.size + xs.length := by simpa using i1
      rw [content_getElem]
      simp only [hb2l]
      have hpos : pos q.buf.length q.begin_ i < q.buf.length := by unfold pos; split <;> omega
      rw [g2 _ hpos, List.getElem_append]
      by_cases hs : i < q.size
      · rw [dif_pos (by simpa using hs), content_getElem]
        unfold pos at hpos ⊢
        split at he <;> split <;> rw [if_neg (by omega), if_neg (by omega)]
      · rw [dif_neg (by simpa using hs)]
        have hidx : i - q.content.length = i - q.size := by simp
        have hg : xs[i - q.content.length]'(by simp; omega) = xs.getD (i - q.size) 0 := by
          rw [getD_eq _ _ (by omega)]; simp
        rw [hg]
        unfold pos at hpos ⊢
        split at he <;> split <;> first
          | (rw [if_pos (by omega)]; congr 1; omega)
          | (rw [if_neg (by omega), if_pos (by omega)]; congr 1; omega)
          | skip
        all_goals
          by_cases hw : q.begin_ + i - q.buf.length < xs.length - len
          · rw [if_pos hw]; congr 1; omega
          · rw [if_neg hw]; first | (rw [if_pos (by omega)]; congr 1; omega) | (exfalso; omega)

theorem getBlock_spec (q : Ring) (h : q.Inv) (hb : q.begin_ % q.blockSize = 0) (hbs : 0 < q.blockSize) (hs : q.blockSize ≤ q.size) :
    ∃ q', q.getBlock = .ok (some (q.content.take q.blockSize), q') ∧ q'.Inv ∧ q'.content = q.content.drop q.blockSize ∧
      q'.buf = q.buf ∧ q'.blockSize = q.blockSize ∧ q'.maxBlocks = q.maxBlocks ∧ q'.begin_ % q.blockSize = 0 := by
  have hbeg := h.beg
  have hf := h.fits
  have hcap := h.cap
  have hroom : q.begin_ + q.blockSize ≤ q.buf.length := by
    have h1 := Nat.div_add_mod q.begin_ q.blockSize
    rw [hb] at h1
    have h3 : q.begin_ / q.blockSize < q.maxBlocks := by
      apply Nat.lt_of_mul_lt_mul_left (a := q.blockSize); omega
    have h4 := Nat.mul_le_mul_left q.blockSize h3
    rw [Nat.mul_succ] at h4; omega
  have hadv := content_advance q h q.blockSize _ hs hroom (Or.inl rfl)
  refine ⟨_, ?_, hadv.1, hadv.2, rfl, rfl, rfl, ?_⟩
  · unfold getBlock
    rw [if_pos hs, slice_content q h _ hs hroom, bind_ok]
  · simp only
    split
    · exact Nat.zero_mod _
    · rw [Nat.add_mod_right]; exact hb

end Ring

end Verif.BufFilter
