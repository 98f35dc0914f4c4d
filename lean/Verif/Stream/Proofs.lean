import Verif.Stream.Spec

namespace Verif.Stream

theorem bind_ok {α β : Type} (a : α) (f : α → Except Err β) : (Except.ok a >>= f) = f a := rfl

theorem roundUp_spec (n m : Nat) (hm : 0 < m) : roundUp n m % m = 0 ∧ n ≤ roundUp n m ∧ roundUp n m < n + m := by
  unfold roundUp
  have h1 := Nat.mod_lt (n + m - 1) hm
  have h2 := Nat.mod_le (n + m - 1) m
  refine ⟨?_, by omega, by omega⟩
  rw [← Nat.div_mul_self_eq_mod_sub_self]
  exact Nat.mul_mod_left _ _

theorem roundUp_le (n m k : Nat) (hm : 0 < m) (hk : k % m = 0) (h : n ≤ k) : roundUp n m ≤ k := by
  obtain ⟨h1, _, h3⟩ := roundUp_spec n m hm
  obtain ⟨a, ha⟩ := Nat.dvd_of_mod_eq_zero hk
  obtain ⟨b, hb⟩ := Nat.dvd_of_mod_eq_zero h1
  rw [ha, hb]
  apply Nat.mul_le_mul_left
  have : m * b < m * (a + 1) := by rw [← hb, Nat.mul_add, ← ha]; omega
  have := Nat.lt_of_mul_lt_mul_left this
  omega

variable {π ι : Type} {P : Policy π ι} {S : ι → Mem} {Rep : ι → Nat → π → Prop} {lim : Nat}

/-- The object stands at byte `q` of the keystream of `v`. -/
structure Inv (P : Policy π ι) (S : ι → Mem) (Rep : ι → Nat → π → Prop) (v : ι) (q : Nat) (s : State π) : Prop where
  rep : ∃ i, Rep v i s.pol ∧ q + s.leftOver = i * P.bpi
  size : s.buf.length % P.bpi = 0
  pos : 0 < s.buf.length
  le : s.leftOver ≤ s.buf.length
  ks : s.buf.drop (s.buf.length - s.leftOver) = load (S v) q s.leftOver

section
variable (ok : P.Ok S Rep lim)
include ok

theorem writeEnd_spec (v : ι) (q : Nat) (s : State π) (size : Nat) (hi : Inv P S Rep v q s) (h0 : s.leftOver = 0) (hs : size ≤ s.buf.length)
    (hm : size % P.bpi = 0) (hp : 0 < size) :
    ∃ s', writeEnd P s size (size / P.bpi) = .ok s' ∧ s'.buf.length = s.buf.length ∧
      s'.buf.drop (s'.buf.length - size) = load (S v) q size ∧ (∃ i, Rep v i s'.pol ∧ q + size = i * P.bpi) := by
  obtain ⟨i, hr, hq⟩ := hi.rep
  rw [h0, Nat.add_zero] at hq
  have hdm : size / P.bpi * P.bpi = size := Nat.div_mul_cancel (Nat.dvd_of_mod_eq_zero hm)
  have hd : 0 < size / P.bpi := Nat.div_pos (Nat.le_of_dvd hp (Nat.dvd_of_mod_eq_zero hm)) ok.bpi_pos
  obtain ⟨w1, w2⟩ := ok.write v i s.pol (size / P.bpi) hr hd
  rw [hdm, ← hq] at w2
  have hl : (P.write s.pol (size / P.bpi)).2.length = size := by rw [w2, load_length]
  unfold writeEnd
  generalize P.write s.pol (size / P.bpi) = r at *
  obtain ⟨p, ks⟩ := r
  dsimp only at *
  rw [if_pos ⟨hs, by omega⟩]
  refine ⟨_, rfl, ?_, ?_, i + size / P.bpi, w1, ?_⟩
  · simp only [List.length_append, List.length_take, List.length_drop]; omega
  · have : s.buf.drop (s.buf.length - size + ks.length) = [] := List.drop_eq_nil_of_le (by omega)
    rw [this, List.append_nil, List.drop_append, List.drop_eq_nil_of_le (by simp; omega), List.nil_append, ← w2]
    rw [show (s.buf.take (s.buf.length - size) ++ ks).length - size - (s.buf.take (s.buf.length - size)).length = 0 by simp; omega, List.drop_zero]
  · rw [Nat.add_mul, hdm, hq]

theorem lastPart_spec (v : ι) (q : Nat) (s : State π) (length : Nat) (hi : Inv P S Rep v q s) (h0 : s.leftOver = 0) (hs : length ≤ s.buf.length) :
    ∃ s', lastPart P s length = .ok (s', load (S v) q length) ∧ Inv P S Rep v (q + length) s' := by
  unfold lastPart
  by_cases hl : length > 0
  · rw [if_pos hl]
    obtain ⟨r1, r2, r3⟩ := roundUp_spec length P.bpi ok.bpi_pos
    have r4 := roundUp_le length P.bpi s.buf.length ok.bpi_pos hi.size hs
    obtain ⟨s', e, hbl, hd, i, hr, hq⟩ := writeEnd_spec ok v q s (roundUp length P.bpi) hi h0 r4 r1 (by omega)
    simp only [e, bind_ok]
    have hread : readEnd s'.buf (roundUp length P.bpi) length = .ok (load (S v) q length) := by
      unfold readEnd
      rw [if_pos ⟨by omega, r2⟩, hd, load_take _ _ _ _ r2]
    rw [hread, bind_ok]
    refine ⟨_, rfl, ⟨⟨i, hr, ?_⟩, ?_, ?_, ?_, ?_⟩⟩
    · dsimp only; omega
    · rw [hbl]; exact hi.size
    · rw [hbl]; exact hi.pos
    · dsimp only; omega
    · dsimp only
      have : s'.buf.length - (roundUp length P.bpi - length) = (s'.buf.length - roundUp length P.bpi) + length := by omega
      rw [this, ← List.drop_drop, hd, load_drop _ _ _ _ r2]
  · rw [if_neg hl]
    have : length = 0 := by omega
    subst this
    exact ⟨s, rfl, by simpa using hi⟩

/-- The bytes left over from an earlier call. -/
theorem leftOver_spec (v : ι) (q : Nat) (s : State π) (n : Nat) (hi : Inv P S Rep v q s) :
    let len := if s.leftOver > 0 then min s.leftOver n else 0
    readEnd s.buf s.leftOver len = .ok (load (S v) q len) ∧ Inv P S Rep v (q + len) { s with leftOver := s.leftOver - len } ∧ len ≤ n ∧
      (len ≠ n → s.leftOver - len = 0) := by
  intro len
  have hlen : len = min s.leftOver n := by
    show (if s.leftOver > 0 then min s.leftOver n else 0) = _
    split <;> omega
  clear_value len
  obtain ⟨i, hr, hq⟩ := hi.rep
  have hle := hi.le
  refine ⟨?_, ⟨⟨i, hr, by dsimp only; omega⟩, hi.size, hi.pos, by dsimp only; omega, ?_⟩, by omega, by omega⟩
  · unfold readEnd
    rw [if_pos ⟨hle, by omega⟩, hi.ks, load_take _ _ _ _ (by omega)]
  · dsimp only
    have : s.buf.length - (s.leftOver - len) = (s.buf.length - s.leftOver) + len := by omega
    rw [this, ← List.drop_drop, hi.ks, load_drop _ _ _ _ (by omega)]

theorem generate_spec (v : ι) (q : Nat) (s : State π) (n : Nat) (hi : Inv P S Rep v q s) :
    ∃ s', generateBlock P s n = .ok (s', load (S v) q n) ∧ Inv P S Rep v (q + n) s' := by
  obtain ⟨h1, h2, h3, h4⟩ := leftOver_spec ok v q s n hi
  unfold generateBlock
  dsimp only at h1 h2 h3 h4 ⊢
  generalize (if s.leftOver > 0 then min s.leftOver n else 0) = len at *
  rw [h1, bind_ok]
  by_cases hz : n - len = 0
  · rw [if_pos hz]
    have : len = n := by omega
    subst this
    exact ⟨_, rfl, h2⟩
  · rw [if_neg hz]
    have h0 := h4 (by omega)
    have hb := ok.bpi_pos
    obtain ⟨i, hr, hq⟩ := h2.rep
    dsimp only at hq hr
    rw [h0, Nat.add_zero] at hq
    -- whole iterations
    have hw : ∃ p o, (if n - len ≥ P.bpi then P.write s.pol (if n - len ≥ P.bpi then (n - len) / P.bpi else 0) else (s.pol, [])) = (p, o) ∧
        o = load (S v) (q + len) ((if n - len ≥ P.bpi then (n - len) / P.bpi else 0) * P.bpi) ∧
        Inv P S Rep v (q + len + (if n - len ≥ P.bpi then (n - len) / P.bpi else 0) * P.bpi) { s with pol := p, leftOver := s.leftOver - len } := by
      by_cases hc : n - len ≥ P.bpi
      · simp only [if_pos hc]
        obtain ⟨w1, w2⟩ := ok.write v i s.pol ((n - len) / P.bpi) hr (Nat.div_pos hc hb)
        refine ⟨_, _, rfl, by rw [w2, hq], ⟨⟨i + (n - len) / P.bpi, w1, ?_⟩, h2.size, h2.pos, by dsimp only; omega, ?_⟩⟩
        · dsimp only; rw [h0, Nat.add_mul, hq]; rfl
        · dsimp only; rw [h0]; simp
      · simp only [if_neg hc, Nat.zero_mul, Nat.add_zero, load_zero]
        exact ⟨_, _, rfl, rfl, h2⟩
    have hit : (if n - len ≥ P.bpi then (n - len) / P.bpi else 0) * P.bpi ≤ n - len ∧
        n - len - (if n - len ≥ P.bpi then (n - len) / P.bpi else 0) * P.bpi < P.bpi := by
      by_cases hc : n - len ≥ P.bpi
      · simp only [if_pos hc]
        have d1 := Nat.div_add_mod (n - len) P.bpi
        have d2 := Nat.mod_lt (n - len) hb
        rw [Nat.mul_comm] at d1
        omega
      · simp only [if_neg hc]; omega
    generalize (if n - len ≥ P.bpi then (n - len) / P.bpi else 0) = it at *
    obtain ⟨p, o, e1, e2, e3⟩ := hw
    rw [e1]
    dsimp only
    have hble : P.bpi ≤ s.buf.length := Nat.le_of_dvd h2.pos (Nat.dvd_of_mod_eq_zero h2.size)
    obtain ⟨s', e4, e5⟩ := lastPart_spec ok v _ _ (n - len - it * P.bpi) e3 h0 (by dsimp only; omega)
    rw [e4, bind_ok]
    generalize it * P.bpi = k at *
    refine ⟨s', ?_, ?_⟩
    · dsimp only
      have : n = len + k + (n - len - k) := by omega
      conv => rhs; rw [this, load_add, load_add]
      rw [e2, Nat.add_assoc q len k]
    · have : q + n = q + len + k + (n - len - k) := by omega
      rw [this]; exact e5

theorem bufferLoop_spec (v : ι) : ∀ (fuel : Nat) (q : Nat) (s : State π) (x : List Byte), x.length < fuel → Inv P S Rep v q s → s.leftOver = 0 →
    ∃ s' k, bufferLoop P fuel s x = .ok (s', xorBytes (x.take k) (load (S v) q k), x.drop k) ∧ Inv P S Rep v (q + k) s' ∧ k ≤ x.length ∧
      (x.drop k).length ≤ s'.buf.length ∧ s'.leftOver = 0 := by
  intro fuel
  induction fuel with
  | zero => intro q s x h; omega
  | succ fuel ih =>
    intro q s x hf hi h0
    have hpos := hi.pos
    simp only [bufferLoop]
    by_cases hc : x.length ≥ s.buf.length
    · rw [if_pos hc]
      obtain ⟨s', e, hbl, hd, i, hr, hq⟩ := writeEnd_spec ok v q s s.buf.length hi h0 (Nat.le_refl _) hi.size hi.pos
      rw [hbl, Nat.sub_self, List.drop_zero] at hd
      have hlo : s'.leftOver = 0 := by
        unfold writeEnd at e
        dsimp only at e
        split at e
        · injection e with e; rw [← e]; exact h0
        · cases e
      have hi' : Inv P S Rep v (q + s.buf.length) s' := by
        refine ⟨⟨i, hr, by omega⟩, by rw [hbl]; exact hi.size, by omega, by omega, ?_⟩
        rw [hlo]; simp
      obtain ⟨s'', k, e2, i2, hk, hk2, hk3⟩ := ih (q + s.buf.length) s' (x.drop s.buf.length) (by rw [List.length_drop]; omega) hi' hlo
      rw [e, bind_ok, e2, bind_ok]
      rw [List.length_drop] at hk
      refine ⟨s'', s.buf.length + k, ?_, by rw [← Nat.add_assoc]; exact i2, by omega, ?_, hk3⟩
      · dsimp only
        rw [List.drop_drop, load_add, List.take_add, xorBytes_append _ _ _ _ (by simp; omega), hd]
      · rw [← List.drop_drop]; exact hk2
    · rw [if_neg hc]
      exact ⟨s, 0, by simp [xorBytes], hi, by omega, by simp; omega, h0⟩

theorem operatePart_spec (v : ι) (q : Nat) (s : State π) (x : List Byte) (hi : Inv P S Rep v q s) (h0 : s.leftOver = 0) :
    ∃ s' k, operatePart P s x = (s', xorBytes (x.take k) (load (S v) q k), x.drop k) ∧ Inv P S Rep v (q + k) s' ∧ k ≤ x.length ∧ s'.leftOver = 0 := by
  unfold operatePart
  have hb := ok.bpi_pos
  by_cases hc : P.canOperate = true ∧ x.length ≥ P.bpi
  · rw [if_pos hc]
    obtain ⟨i, hr, hq⟩ := hi.rep
    rw [h0, Nat.add_zero] at hq
    have hle : x.length / P.bpi * P.bpi ≤ x.length := Nat.div_mul_le_self _ _
    obtain ⟨w1, w2⟩ := ok.operate v i s.pol (x.length / P.bpi) (x.take (x.length / P.bpi * P.bpi)) hc.1 hr (Nat.div_pos hc.2 hb)
      (by rw [List.length_take]; omega)
    refine ⟨{ s with pol := (P.operate s.pol (x.take (x.length / P.bpi * P.bpi)) (x.length / P.bpi)).1 }, x.length / P.bpi * P.bpi,
      by dsimp only; rw [w2, hq], ⟨⟨i + x.length / P.bpi, w1, ?_⟩, hi.size, hi.pos, hi.le, ?_⟩, hle, h0⟩
    · dsimp only; rw [h0, Nat.add_mul, hq]; rfl
    · dsimp only; rw [h0]; simp
  · rw [if_neg hc]
    exact ⟨s, 0, by simp [xorBytes], hi, by omega, h0⟩

theorem process_spec (v : ι) (q : Nat) (s : State π) (x : List Byte) (hi : Inv P S Rep v q s) :
    ∃ s', processData P s x = .ok (s', xorBytes x (load (S v) q x.length)) ∧ Inv P S Rep v (q + x.length) s' := by
  obtain ⟨h1, h2, h3, h4⟩ := leftOver_spec ok v q s x.length hi
  unfold processData
  dsimp only at h1 h2 h3 h4 ⊢
  generalize (if s.leftOver > 0 then min s.leftOver x.length else 0) = len at *
  rw [h1, bind_ok]
  by_cases hz : (x.drop len).length = 0
  · rw [if_pos hz]
    rw [List.length_drop] at hz
    have : len = x.length := by omega
    subst this
    rw [List.take_length]
    exact ⟨_, rfl, h2⟩
  · rw [if_neg hz]
    rw [List.length_drop] at hz
    have h0 := h4 (by omega)
    obtain ⟨s1, k1, e1, i1, l1, z1⟩ := operatePart_spec ok v (q + len) { s with leftOver := s.leftOver - len } (x.drop len) h2 h0
    rw [e1]
    dsimp only
    obtain ⟨s2, k2, e2, i2, l2, l2', z2⟩ := bufferLoop_spec ok v (((x.drop len).drop k1).length + 1) (q + len + k1) s1 ((x.drop len).drop k1) (by omega) i1 z1
    rw [e2, bind_ok]
    dsimp only
    obtain ⟨s3, e3, i3⟩ := lastPart_spec ok v (q + len + k1 + k2) s2 _ i2 z2 l2'
    rw [e3, bind_ok]
    rw [List.length_drop] at l1
    simp only [List.length_drop] at l2
    refine ⟨s3, ?_, ?_⟩
    · dsimp only
      congr 2
      have hx : x = x.take len ++ ((x.drop len).take k1 ++ (((x.drop len).drop k1).take k2 ++ ((x.drop len).drop k1).drop k2)) := by
        rw [List.take_append_drop, List.take_append_drop, List.take_append_drop]
      have hn : x.length = len + (k1 + (k2 + (((x.drop len).drop k1).drop k2).length)) := by simp only [List.length_drop]; omega
      conv => rhs; rw [hn, load_add, load_add, load_add]; arg 1; rw [hx]
      rw [xorBytes_append _ _ _ _ (by simp; omega), xorBytes_append _ _ _ _ (by simp; omega), xorBytes_append _ _ _ _ (by simp; omega)]
      simp only [List.append_assoc]
    · have : q + x.length = q + len + k1 + k2 + (((x.drop len).drop k1).drop k2).length := by simp only [List.length_drop]; omega
      rw [this]; exact i3

theorem seek_spec (v : ι) (q : Nat) (s : State π) (p : Nat) (hi : Inv P S Rep v q s) (hp : p / P.bpi < lim) :
    ∃ s', seek P s p = .ok s' ∧ Inv P S Rep v p s' := by
  obtain ⟨i, hr, hq⟩ := hi.rep
  obtain ⟨p', e, hr'⟩ := ok.seek v i s.pol (p / P.bpi) hr hp
  have hb := ok.bpi_pos
  have hdm := Nat.div_add_mod p P.bpi
  have hml := Nat.mod_lt p hb
  have hble : P.bpi ≤ s.buf.length := Nat.le_of_dvd hi.pos (Nat.dvd_of_mod_eq_zero hi.size)
  unfold seek
  rw [e, bind_ok]
  dsimp only
  by_cases hz : p % P.bpi > 0
  · rw [if_pos hz]
    have hi' : Inv P S Rep v (p / P.bpi * P.bpi) { s with pol := p', leftOver := 0 } :=
      ⟨⟨_, hr', rfl⟩, hi.size, hi.pos, by dsimp only; omega, by simp⟩
    obtain ⟨s', e2, hbl, hd, j, hr2, hq2⟩ := writeEnd_spec ok v _ { s with pol := p', leftOver := 0 } P.bpi hi' rfl hble (Nat.mod_self _) hb
    rw [Nat.div_self hb] at e2
    have e3 : ∃ t, writeEnd P { s with pol := p' } P.bpi 1 = .ok t ∧ t.pol = s'.pol ∧ t.buf = s'.buf := by
      unfold writeEnd at e2 ⊢
      dsimp only at e2 ⊢
      split at e2
      · rename_i hc
        rw [if_pos hc]
        injection e2 with e2
        rw [← e2]
        exact ⟨_, rfl, rfl, rfl⟩
      · cases e2
    obtain ⟨t, e4, t1, t2⟩ := e3
    rw [e4, bind_ok]
    dsimp only at hbl
    rw [Nat.mul_comm] at hdm
    refine ⟨_, rfl, ⟨⟨j, by dsimp only; rw [t1]; exact hr2, ?_⟩, ?_, ?_, ?_, ?_⟩⟩
    · dsimp only; omega
    · dsimp only; rw [t2, hbl]; exact hi.size
    · dsimp only; rw [t2, hbl]; exact hi.pos
    · dsimp only; rw [t2, hbl]; omega
    · dsimp only
      rw [t2]
      have : s'.buf.length - (P.bpi - p % P.bpi) = (s'.buf.length - P.bpi) + p % P.bpi := by omega
      rw [this, ← List.drop_drop, hd, load_drop _ _ _ _ (by omega)]
      congr 1
  · rw [if_neg hz]
    refine ⟨_, rfl, ⟨⟨p / P.bpi, hr', ?_⟩, hi.size, hi.pos, by dsimp only; omega, by simp⟩⟩
    dsimp only; rw [Nat.mul_comm] at hdm; omega

theorem resync_spec (v : ι) (q : Nat) (s : State π) (w : ι) (junk : Mem) (hi : Inv P S Rep v q s) : Inv P S Rep w 0 (resynchronize P s w junk) := by
  obtain ⟨i, hr, _⟩ := hi.rep
  refine ⟨⟨0, ok.resync v i s.pol w hr, by simp [resynchronize]⟩, ?_, ?_, by simp [resynchronize], by simp [resynchronize]⟩
  · simp [resynchronize, bufferByteSize]
  · simpa [resynchronize, bufferByteSize] using Nat.mul_pos ok.bpi_pos ok.iters_pos

theorem setKey_spec (v : ι) (i : Nat) (p : π) (w : ι) (junk : Mem) (hr : Rep v i p) : Inv P S Rep w 0 (setKey P p w junk) := by
  have hpos : 0 < bufferByteSize P := Nat.mul_pos ok.bpi_pos ok.iters_pos
  obtain ⟨r1, r2, _⟩ := roundUp_spec 1024 (bufferByteSize P) hpos
  have hsz : (if P.canOperate then bufferByteSize P else roundUp 1024 (bufferByteSize P)) % P.bpi = 0 ∧
      0 < (if P.canOperate then bufferByteSize P else roundUp 1024 (bufferByteSize P)) := by
    split
    · exact ⟨by simp [bufferByteSize], hpos⟩
    · refine ⟨?_, by omega⟩
      apply Nat.mod_eq_zero_of_dvd
      exact Nat.dvd_trans ⟨P.iters, rfl⟩ (Nat.dvd_of_mod_eq_zero r1)
  refine ⟨⟨0, ok.resync v i p w hr, by simp [setKey]⟩, ?_, ?_, by simp [setKey], by simp [setKey]⟩
  · simp only [setKey, load_length]; exact hsz.1
  · simp only [setKey, load_length]; exact hsz.2

theorem run_inv (ops : List (Op ι)) : ∀ (v : ι) (q : Nat) (s : State π), Inv P S Rep v q s → SeeksOk P lim ops →
    run P s ops = .ok (specRun S v q ops) := by
  induction ops with
  | nil => intro v q s _ _; rfl
  | cons op ops ih =>
    intro v q s hi hs
    cases op with
    | process x =>
      obtain ⟨s', e, i⟩ := process_spec ok v q s x hi
      simp only [run, specRun, e, bind_ok, ih _ _ _ i hs]
    | generate n =>
      obtain ⟨s', e, i⟩ := generate_spec ok v q s n hi
      simp only [run, specRun, e, bind_ok, ih _ _ _ i hs]
    | seek p =>
      obtain ⟨s', e, i⟩ := seek_spec ok v q s p hi hs.1
      simp only [run, specRun, e, bind_ok, ih _ _ _ i hs.2]
    | resync w junk =>
      simp only [run, specRun, ih _ _ _ (resync_spec ok v q s w junk hi) hs]

end

end Verif.Stream
