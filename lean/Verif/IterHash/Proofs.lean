import Verif.IterHash.Spec

namespace Verif.IterHash

theorem bind_ok (a : α) (f : α → Except ε β) : ((Except.ok a : Except ε α) >>= f) = f a := rfl

theorem write_ok (data : List Byte) (pos : Nat) (x : List Byte) (h : pos + x.length ≤ data.length) :
    write data pos x = .ok (data.take pos ++ x ++ data.drop (pos + x.length)) := by
  unfold write; rw [if_pos h]

theorem write_length (data : List Byte) (pos : Nat) (x : List Byte) (h : pos + x.length ≤ data.length) :
    (data.take pos ++ x ++ data.drop (pos + x.length)).length = data.length := by
  simp; omega

section
variable {P : Params} (ok : P.Ok)

include ok in
theorem Bpos : 0 < P.B := by have := ok.room; omega

include ok in
theorem W_mod : P.W % P.B = 0 := by
  obtain ⟨j, h1, h2⟩ := ok.pow
  unfold Params.W
  rw [h1, show (256 : Nat) ^ P.k = 2 ^ (8 * P.k) by rw [Nat.pow_mul]]
  exact Nat.mod_eq_zero_of_dvd (Nat.pow_dvd_pow 2 h2)

include ok in
theorem and_eq (n : Nat) : n &&& (P.B - 1) = n % P.B := by
  obtain ⟨j, h1, _⟩ := ok.pow
  rw [h1, Nat.and_two_pow_sub_one_eq_mod]

include ok in
theorem step_spec (aligned : Bool) (data : List Byte) (st : List Nat) (input : List Byte) (hd : data.length = P.B) (hi : input.length = P.B) :
    ∃ data', hashStep P aligned data st input = (data', compressBlock P st input) ∧ data'.length = P.B := by
  have hk : 0 < P.k := ok.kpos
  have him : input.length % P.k = 0 := by rw [hi]; exact Nat.mod_eq_zero_of_dvd ok.div
  unfold hashStep compressBlock
  by_cases h : P.native = P.order
  · rw [if_pos h]
    cases aligned
    · refine ⟨input, ?_, hi⟩
      simp [loadWords, h]
    · refine ⟨data, ?_, hd⟩
      simp [loadWords, h]
  · rw [if_neg h]
    have hb := chunks_block_length P.k hk input him
    refine ⟨byteReverse P input, ?_, ?_⟩
    · simp only [Prod.mk.injEq, true_and]
      congr 1
      unfold loadWords byteReverse
      rw [chunks_flatten_blocks P.k hk _ (by
        intro x hx
        obtain ⟨y, hy, rfl⟩ := List.mem_map.1 hx
        rw [List.length_reverse]; exact hb y hy), List.map_map]
      apply List.map_congr_left
      intro x _
      cases hn : P.native <;> cases ho : P.order <;> simp [hn, ho, ByteOrder.val, beVal] at h ⊢
    · unfold byteReverse
      rw [flatten_map_length P.k _ _ hb (by simp), chunks_flatten P.k hk]; exact hi

include ok in
theorem block_spec (data : List Byte) (st : List Nat) (hd : data.length = P.B) :
    ∃ data', hashBlock P data st = (data', compressBlock P st data) ∧ data'.length = P.B :=
  step_spec ok true data st data hd hd

/-- Fold from a given state. -/
def foldFrom (P : Params) (st : List Nat) (bytes : List Byte) : List Nat := (chunks P.B bytes).foldl (compressBlock P) st

include ok in
theorem foldFrom_append (st : List Nat) (a b : List Byte) (ha : a.length % P.B = 0) :
    foldFrom P st (a ++ b) = foldFrom P (foldFrom P st a) b := by
  unfold foldFrom
  rw [chunks_append _ (Bpos ok) _ _ ha, List.foldl_append]

include ok in
theorem foldFrom_block (st : List Nat) (a : List Byte) (ha : a.length = P.B) : foldFrom P st a = compressBlock P st a := by
  unfold foldFrom
  have := chunks_append_block P.B (Bpos ok) a [] ha
  rw [List.append_nil] at this
  rw [this]; rfl

theorem whole_take (n B : Nat) (h : B ≤ n) : n - n % B = B + ((n - B) - (n - B) % B) := by
  have h1 : n = (n - B) + B := by omega
  have : n % B = (n - B) % B := by conv => lhs; rw [h1, Nat.add_mod_right]
  have := Nat.mod_le (n - B) B
  omega

include ok in
theorem multiple_spec (fuel : Nat) (data : List Byte) (st : List Nat) (input : List Byte) (hd : data.length = P.B)
    (hi : P.B ≤ input.length) (hf : input.length < fuel) :
    ∃ data', hashMultipleBlocks P fuel data st input = .ok (data', foldFrom P st (input.take (input.length - input.length % P.B)),
      input.drop (input.length - input.length % P.B)) ∧ data'.length = P.B := by
  have hB := Bpos ok
  induction fuel generalizing data st input with
  | zero => omega
  | succ fuel ih =>
    unfold hashMultipleBlocks
    have ht : (input.take P.B).length = P.B := by rw [List.length_take]; omega
    obtain ⟨d1, e1, e2⟩ := step_spec ok true data st (input.take P.B) hd ht
    rw [e1]
    dsimp only
    have hw := whole_take input.length P.B hi
    have hrl : (input.drop P.B).length = input.length - P.B := List.length_drop
    by_cases hr : (input.drop P.B).length ≥ P.B
    · rw [if_pos hr]
      obtain ⟨d2, f1, f2⟩ := ih d1 (compressBlock P st (input.take P.B)) (input.drop P.B) e2 hr (by omega)
      refine ⟨d2, ?_, f2⟩
      rw [f1, hrl, hw, List.take_add, foldFrom_append ok _ _ _ (by rw [ht, Nat.mod_self]), foldFrom_block ok _ _ ht, List.drop_drop]
    · rw [if_neg hr]
      refine ⟨d1, ?_, e2⟩
      have h0 : (input.length - P.B) % P.B = input.length - P.B := Nat.mod_eq_of_lt (by omega)
      rw [hw, h0, Nat.sub_self, Nat.add_zero, foldFrom_block ok _ _ ht]

include ok in
theorem copyLoop_spec (fuel : Nat) (data : List Byte) (st : List Nat) (input : List Byte) (hd : data.length = P.B)
    (hi : P.B ≤ input.length) (hf : input.length < fuel) :
    ∃ data', copyLoop P fuel data st input = .ok (data', foldFrom P st (input.take (input.length - input.length % P.B)),
      input.drop (input.length - input.length % P.B)) ∧ data'.length = P.B := by
  have hB := Bpos ok
  induction fuel generalizing data st input with
  | zero => omega
  | succ fuel ih =>
    unfold copyLoop
    have ht : (input.take P.B).length = P.B := by rw [List.length_take]; omega
    rw [write_ok _ _ _ (by omega), bind_ok]
    have hw1 : data.take 0 ++ input.take P.B ++ data.drop (0 + (input.take P.B).length) = input.take P.B := by
      rw [ht, Nat.zero_add, List.drop_eq_nil_of_le (by omega)]; simp
    rw [hw1]
    obtain ⟨d1, e1, e2⟩ := block_spec ok (input.take P.B) st ht
    rw [e1]
    dsimp only
    have hw := whole_take input.length P.B hi
    have hrl : (input.drop P.B).length = input.length - P.B := List.length_drop
    by_cases hr : (input.drop P.B).length ≥ P.B
    · rw [if_pos hr]
      obtain ⟨d2, f1, f2⟩ := ih d1 (compressBlock P st (input.take P.B)) (input.drop P.B) e2 hr (by omega)
      refine ⟨d2, ?_, f2⟩
      rw [f1, hrl, hw, List.take_add, foldFrom_append ok _ _ _ (by rw [ht, Nat.mod_self]), foldFrom_block ok _ _ ht, List.drop_drop]
    · rw [if_neg hr]
      refine ⟨d1, ?_, e2⟩
      have h0 : (input.length - P.B) % P.B = input.length - P.B := Nat.mod_eq_of_lt (by omega)
      rw [hw, h0, Nat.sub_self, Nat.add_zero, foldFrom_block ok _ _ ht]

/-- Buffer and state after the message bytes `m`. -/
structure Buf (P : Params) (data : List Byte) (st : List Nat) (m : List Byte) : Prop where
  len : data.length = P.B
  buf : data.take (m.length % P.B) = m.drop (m.length - m.length % P.B)
  st : st = foldFrom P P.init (m.take (m.length - m.length % P.B))

/-- The whole object after the message bytes `m`. -/
structure Inv (P : Params) (h : State) (m : List Byte) : Prop where
  lim : m.length < P.W * P.W
  lo : h.countLo = m.length % P.W
  hi : h.countHi = m.length / P.W
  buf : Buf P h.data h.state m

include ok in
/-- Appending to a message of whole blocks. -/
theorem buf_append (data : List Byte) (m x : List Byte) (hm : m.length % P.B = 0) (hd : data.length = P.B)
    (hx : data.take (x.length % P.B) = x.drop (x.length - x.length % P.B)) :
    Buf P data (foldFrom P (foldFrom P P.init m) (x.take (x.length - x.length % P.B))) (m ++ x) := by
  have hB := Bpos ok
  have hle := Nat.mod_le x.length P.B
  have hmod : (m ++ x).length % P.B = x.length % P.B := by rw [List.length_append, Nat.add_mod, hm]; simp
  have hsub : (m ++ x).length - (m ++ x).length % P.B = m.length + (x.length - x.length % P.B) := by
    rw [hmod, List.length_append]; omega
  refine ⟨hd, ?_, ?_⟩
  · rw [hsub, hmod, hx, ← List.drop_drop, List.drop_left]
  · rw [hsub, ← foldFrom_append ok _ _ _ hm]
    congr 1
    rw [List.take_append]
    have : m.length + (x.length - x.length % P.B) - m.length = x.length - x.length % P.B := by omega
    rw [this, List.take_of_length_le (i := m.length + (x.length - x.length % P.B)) (l := m) (by omega)]

include ok in
theorem updateBlocks_spec (h : State) (m input : List Byte) (aligned same : Bool) (hm : m.length % P.B = 0) (hd : h.data.length = P.B)
    (hst : h.state = foldFrom P P.init m)
    (hsame : same = true → input.length ≤ P.B ∧ h.data.take input.length = input) :
    ∃ h', updateBlocks P h input aligned same = .ok h' ∧ h'.countLo = h.countLo ∧ h'.countHi = h.countHi ∧
      Buf P h'.data h'.state (m ++ input) := by
  have hB := Bpos ok
  have hle := Nat.mod_le input.length P.B
  have hml := Nat.mod_lt input.length hB
  unfold updateBlocks
  by_cases hlen : input.length ≥ P.B
  · rw [if_pos hlen]
    cases same with
    | true =>
      obtain ⟨h1, h2⟩ := hsame rfl
      have hil : input.length = P.B := by omega
      have hdi : h.data = input := by rw [← h2, hil, ← hd, List.take_length]
      obtain ⟨d', e1, e2⟩ := block_spec ok h.data h.state hd
      rw [e1]
      refine ⟨_, rfl, rfl, rfl, ?_⟩
      dsimp only
      have := buf_append ok d' m input hm e2 (by rw [hil, Nat.mod_self]; simp [hil])
      rw [hil, Nat.mod_self, Nat.sub_zero, List.take_of_length_le (by omega), foldFrom_block ok _ _ hil, ← hst] at this
      rw [hdi]; exact this
    | false =>
      simp only [Bool.false_eq_true, if_false]
      have key : ∃ data', (if aligned then hashMultipleBlocks P (input.length + 1) h.data h.state input
          else copyLoop P (input.length + 1) h.data h.state input) =
          .ok (data', foldFrom P h.state (input.take (input.length - input.length % P.B)), input.drop (input.length - input.length % P.B)) ∧
          data'.length = P.B := by
        cases aligned
        · exact copyLoop_spec ok _ _ _ _ hd hlen (by omega)
        · exact multiple_spec ok _ _ _ _ hd hlen (by omega)
      obtain ⟨d', e1, e2⟩ := key
      rw [e1, bind_ok]
      dsimp only
      have hrl : (input.drop (input.length - input.length % P.B)).length = input.length % P.B := by rw [List.length_drop]; omega
      rw [write_ok _ _ _ (by omega), bind_ok]
      refine ⟨_, rfl, rfl, rfl, ?_⟩
      dsimp only
      have := buf_append ok (d'.take 0 ++ input.drop (input.length - input.length % P.B) ++ d'.drop (0 + (input.drop (input.length - input.length % P.B)).length)) m input hm (by rw [write_length _ _ _ (by omega)]; exact e2)
        (by
          rw [List.take_zero, List.nil_append, List.take_append_of_le_length (by omega), List.take_of_length_le (by omega)])
      rw [← hst] at this
      exact this
  · rw [if_neg hlen]
    have hmi : input.length % P.B = input.length := Nat.mod_eq_of_lt (by omega)
    cases same with
    | true =>
      obtain ⟨h1, h2⟩ := hsame rfl
      refine ⟨h, rfl, rfl, rfl, ?_⟩
      have := buf_append ok h.data m input hm hd (by rw [hmi, Nat.sub_self, List.drop_zero]; exact h2)
      rw [hmi, Nat.sub_self, List.take_zero] at this
      have hnil : foldFrom P (foldFrom P P.init m) [] = foldFrom P P.init m := rfl
      rw [hnil, ← hst] at this
      exact this
    | false =>
      simp only [Bool.false_eq_true, if_false]
      rw [write_ok _ _ _ (by omega), bind_ok]
      refine ⟨_, rfl, rfl, rfl, ?_⟩
      dsimp only
      have := buf_append ok (h.data.take 0 ++ input ++ h.data.drop (0 + input.length)) m input hm (by rw [write_length _ _ _ (by omega)]; exact hd)
        (by rw [hmi, Nat.sub_self, List.drop_zero, List.take_zero, List.nil_append, List.take_left])
      rw [hmi, Nat.sub_self, show List.take 0 input = [] from rfl] at this
      have hnil : foldFrom P (foldFrom P P.init m) [] = foldFrom P P.init m := rfl
      rw [hnil, ← hst] at this
      exact this

include ok in
theorem W_pos : 0 < P.W := Nat.pow_pos (by omega)

include ok in
theorem count_spec (n len : Nat) (h : n + len < P.W * P.W) :
    let lo := (n % P.W + len) % P.W
    let hi := if lo < n % P.W then (n / P.W + 1) % P.W else n / P.W
    let hi := (hi + len / P.W) % P.W
    lo = (n + len) % P.W ∧ hi = (n + len) / P.W ∧ ¬ (hi < n / P.W ∨ len / (P.W * P.W) ≠ 0) := by
  have hW := W_pos ok
  generalize P.W = W at *
  intro lo hi1 hi
  have hlo : lo = (n + len) % W := by show (n % W + len) % W = _; rw [Nat.mod_add_mod]
  have hn := Nat.div_add_mod n W
  have hl := Nat.div_add_mod len W
  have hnm := Nat.mod_lt n hW
  have hlm := Nat.mod_lt len hW
  have hq : (n + len) / W < W := Nat.div_lt_of_lt_mul h
  have hsum : (n + len) / W = n / W + len / W + (if (n % W + len % W) < W then 0 else 1) := by
    rw [Nat.add_div hW]
    by_cases hc : n % W + len % W < W
    · rw [if_pos hc, if_neg (by omega)]
    · rw [if_neg hc, if_pos (by omega)]
  have hlo2 : lo = (n % W + len % W) % W := by rw [hlo, Nat.add_mod]
  have hcarry : hi1 = (n / W + (if (n % W + len % W) < W then 0 else 1)) := by
    show (if lo < n % W then (n / W + 1) % W else n / W) = _
    by_cases hc : n % W + len % W < W
    · rw [if_pos hc, if_neg (by rw [hlo2, Nat.mod_eq_of_lt hc]; omega)]; rfl
    · have : lo = n % W + len % W - W := by
        rw [hlo2, Nat.mod_eq_sub_mod (by omega), Nat.mod_eq_of_lt (by omega)]
      rw [if_neg hc, if_pos (by omega)]
      rw [if_neg hc] at hsum
      have h3 : n / W + 1 < W := by
        rw [hsum] at hq
        exact Nat.lt_of_le_of_lt (Nat.add_le_add_right (Nat.le_add_right _ _) 1) hq
      rw [Nat.mod_eq_of_lt h3]
  have hhi : hi = (n + len) / W := by
    show (hi1 + len / W) % W = _
    rw [hcarry, hsum]
    rw [hsum] at hq
    have : n / W + (if n % W + len % W < W then 0 else 1) + len / W = n / W + len / W + (if n % W + len % W < W then 0 else 1) := by omega
    rw [this, Nat.mod_eq_of_lt hq]
  refine ⟨hlo, hhi, ?_⟩
  rintro (h1 | h1)
  · rw [hhi, hsum] at h1
    exact Nat.not_lt.2 (Nat.le_trans (Nat.le_add_right _ _) (Nat.le_add_right _ _)) h1
  · exact h1 (Nat.div_eq_of_lt (by omega))

include ok in
theorem update_spec (h : State) (m input : List Byte) (aligned inPlace : Bool) (hinv : Inv P h m)
    (hlim : (m ++ input).length < P.W * P.W)
    (hip : inPlace = true → input.length ≤ P.B - m.length % P.B ∧ (h.data.drop (m.length % P.B)).take input.length = input) :
    ∃ h', update P h input aligned inPlace = .ok h' ∧ Inv P h' (m ++ input) := by
  have hB := Bpos ok
  unfold update counts
  by_cases h0 : input.length = 0
  · rw [if_pos h0]
    have : input = [] := List.eq_nil_of_length_eq_zero h0
    subst this
    exact ⟨h, rfl, by simpa using hinv⟩
  rw [if_neg h0]
  rw [List.length_append] at hlim
  obtain ⟨c1, c2, c3⟩ := count_spec ok m.length input.length hlim
  dsimp only at c1 c2 c3 ⊢
  rw [hinv.lo, hinv.hi]
  rw [c2] at c3
  rw [c1] at c2 ⊢
  rw [c2, if_neg (by rw [decide_eq_true_eq]; exact c3), and_eq ok]
  have hnum : m.length % P.W % P.B = m.length % P.B := Nat.mod_mod_of_dvd _ (Nat.dvd_of_mod_eq_zero (W_mod ok))
  rw [hnum]
  have hml := Nat.mod_lt m.length hB
  have hmle := Nat.mod_le m.length P.B
  have hd := hinv.buf.len
  have hwhole : (m.take (m.length - m.length % P.B)).length % P.B = 0 := by
    rw [List.length_take, Nat.min_eq_left (by omega), ← Nat.div_mul_self_eq_mod_sub_self]; exact Nat.mul_mod_left _ _
  have hmsplit : m.take (m.length - m.length % P.B) ++ m.drop (m.length - m.length % P.B) = m := List.take_append_drop _ _
  have hbuf := hinv.buf.buf
  have hst := hinv.buf.st
  generalize hnn : m.length % P.B = num at *
  by_cases hn : num ≠ 0
  · rw [if_pos hn]
    by_cases hfull : num + input.length ≥ P.B
    · rw [if_pos hfull]
      have htl : (input.take (P.B - num)).length = P.B - num := by rw [List.length_take]; omega
      rw [write_ok _ _ _ (by rw [htl, hd]; omega), bind_ok]
      have hdata : h.data.take num ++ input.take (P.B - num) ++ h.data.drop (num + (input.take (P.B - num)).length) =
          m.drop (m.length - num) ++ input.take (P.B - num) := by
        rw [htl, List.drop_eq_nil_of_le (by omega), List.append_nil, hbuf]
      rw [hdata]
      have hbl : (m.drop (m.length - num) ++ input.take (P.B - num)).length = P.B := by
        rw [List.length_append, htl, List.length_drop]; omega
      obtain ⟨d', e1, e2⟩ := block_spec ok _ h.state hbl
      rw [e1]
      dsimp only
      have hm' : (m ++ input.take (P.B - num)).length % P.B = 0 := by
        have : m ++ input.take (P.B - num) = m.take (m.length - num) ++ (m.drop (m.length - num) ++ input.take (P.B - num)) := by
          rw [← List.append_assoc, hmsplit]
        rw [this, List.length_append, Nat.add_mod, hwhole, hbl, Nat.mod_self]
        simp
      have hst' : compressBlock P h.state (m.drop (m.length - num) ++ input.take (P.B - num)) =
          foldFrom P P.init (m ++ input.take (P.B - num)) := by
        have : m ++ input.take (P.B - num) = m.take (m.length - num) ++ (m.drop (m.length - num) ++ input.take (P.B - num)) := by
          rw [← List.append_assoc, hmsplit]
        rw [this, foldFrom_append ok _ _ _ hwhole, ← hst, foldFrom_block ok _ _ hbl]
      obtain ⟨h', u1, u2, u3, u4⟩ := updateBlocks_spec ok
        { countLo := (m.length + input.length) % P.W, countHi := (m.length + input.length) / P.W, data := d', state := compressBlock P h.state (m.drop (m.length - num) ++ input.take (P.B - num)) }
        (m ++ input.take (P.B - num)) (input.drop (P.B - num)) aligned false hm' e2 hst' (by simp)
      refine ⟨h', u1, ?_, ?_, ?_, ?_⟩
      · rw [List.length_append]; exact hlim
      · rw [u2, List.length_append]
      · rw [u3, List.length_append]
      · rw [List.append_assoc, List.take_append_drop] at u4; exact u4
    · rw [if_neg hfull]
      rw [write_ok _ _ _ (by rw [hd]; omega), bind_ok]
      refine ⟨_, rfl, ?_, ?_, ?_, ?_⟩
      · rw [List.length_append]; exact hlim
      · rw [List.length_append]
      · rw [List.length_append]
      · dsimp only
        have hmod : (m ++ input).length % P.B = num + input.length := by
          rw [List.length_append, Nat.add_mod, hnn, Nat.mod_eq_of_lt (show input.length < P.B by omega), Nat.mod_eq_of_lt (by omega)]
        have hsub : (m ++ input).length - (m ++ input).length % P.B = m.length - num := by
          rw [hmod, List.length_append]; omega
        refine ⟨by rw [write_length _ _ _ (by rw [hd]; omega)]; exact hd, ?_, ?_⟩
        · rw [hsub, hmod, List.take_append_of_le_length (by simp; omega), List.take_of_length_le (by simp; omega),
            List.drop_append_of_le_length (by omega), hbuf]
        · rw [hsub, List.take_append_of_le_length (by omega)]; exact hst
  · have hn0 : num = 0 := by omega
    rw [if_neg hn]
    rw [hn0, Nat.sub_zero, List.take_length] at hst
    obtain ⟨h', u1, u2, u3, u4⟩ := updateBlocks_spec ok
      { h with countLo := (m.length + input.length) % P.W, countHi := (m.length + input.length) / P.W }
      m input aligned inPlace (by omega) hd hst (by
        intro hs
        obtain ⟨p1, p2⟩ := hip hs
        rw [hn0] at p1 p2
        exact ⟨by omega, by simpa using p2⟩)
    refine ⟨h', u1, ?_, ?_, ?_, u4⟩
    · rw [List.length_append]; exact hlim
    · rw [u2, List.length_append]
    · rw [u3, List.length_append]

include ok in
theorem updateInPlace_spec (h : State) (m input : List Byte) (aligned : Bool) (hinv : Inv P h m)
    (hlim : (m ++ input).length < P.W * P.W) (hsp : input.length ≤ P.B - m.length % P.B) :
    ∃ h', updateInPlace P h input aligned = .ok h' ∧ Inv P h' (m ++ input) := by
  have hB := Bpos ok
  have hml := Nat.mod_lt m.length hB
  unfold updateInPlace createUpdateSpace
  have hnum : m.length % P.W % P.B = m.length % P.B := Nat.mod_mod_of_dvd _ (Nat.dvd_of_mod_eq_zero (W_mod ok))
  rw [hinv.lo, and_eq ok, hnum]
  dsimp only
  rw [if_neg (by omega)]
  have hd := hinv.buf.len
  rw [write_ok _ _ _ (by omega), bind_ok]
  apply update_spec ok
  · refine ⟨hinv.lim, rfl, hinv.hi, ?_, ?_, hinv.buf.st⟩
    · dsimp only; rw [write_length _ _ _ (by omega)]; exact hd
    · dsimp only
      rw [List.append_assoc, List.take_append_of_le_length (by simp; omega), List.take_of_length_le (by simp; omega)]
      exact hinv.buf.buf
  · exact hlim
  · intro _
    refine ⟨hsp, ?_⟩
    dsimp only
    rw [List.append_assoc]
    have hl : (h.data.take (m.length % P.B)).length = m.length % P.B := by simp; omega
    have : List.drop (m.length % P.B) (h.data.take (m.length % P.B) ++ (input ++ h.data.drop (m.length % P.B + input.length))) =
        input ++ h.data.drop (m.length % P.B + input.length) := by
      conv => lhs; arg 1; rw [← hl]
      rw [List.drop_left]
    rw [this, List.take_left]

/-- Number of zero bytes of padding. -/
def zeros (P : Params) (n : Nat) : Nat := (P.B - (n + 1 + 2 * P.k) % P.B) % P.B

include ok in
theorem zeros_cases (n : Nat) :
    (n % P.B + 1 ≤ P.B - 2 * P.k → zeros P n = P.B - 2 * P.k - (n % P.B + 1)) ∧
    (¬ n % P.B + 1 ≤ P.B - 2 * P.k → zeros P n = (P.B - (n % P.B + 1)) + (P.B - 2 * P.k)) := by
  have hB := Bpos ok
  have hr := ok.room
  have hml := Nat.mod_lt n hB
  have h1 : (n + 1 + 2 * P.k) % P.B = (n % P.B + 1 + 2 * P.k) % P.B := by
    rw [Nat.add_assoc, Nat.add_assoc, Nat.mod_add_mod]
  unfold zeros
  rw [h1]
  generalize n % P.B = r at *
  constructor
  · intro h
    by_cases he : r + 1 + 2 * P.k = P.B
    · rw [he, Nat.mod_self, Nat.sub_zero, Nat.mod_self]; omega
    · rw [Nat.mod_eq_of_lt (a := r + 1 + 2 * P.k) (by omega), Nat.mod_eq_of_lt (by omega)]; omega
  · intro h
    rw [Nat.mod_eq_sub_mod (a := r + 1 + 2 * P.k) (by omega), Nat.mod_eq_of_lt (a := r + 1 + 2 * P.k - P.B) (by omega),
      Nat.mod_eq_of_lt (by omega)]
    omega

include ok in
theorem pad_spec (h : State) (m : List Byte) (hinv : Inv P h m) :
    ∃ data st, padLastBlock P h (P.B - 2 * P.k) 0x80 = .ok { h with data := data, state := st } ∧ data.length = P.B ∧
      ∃ a b, m ++ 0x80 :: List.replicate (zeros P m.length) 0 = a ++ b ∧ a.length % P.B = 0 ∧ b.length = P.B - 2 * P.k ∧
        st = foldFrom P P.init a ∧ data.take (P.B - 2 * P.k) = b := by
  have hB := Bpos ok
  have hr := ok.room
  have hml := Nat.mod_lt m.length hB
  have hmle := Nat.mod_le m.length P.B
  have hd := hinv.buf.len
  have hbuf := hinv.buf.buf
  have hst := hinv.buf.st
  have hz := zeros_cases ok m.length
  have hwhole : (m.take (m.length - m.length % P.B)).length % P.B = 0 := by
    rw [List.length_take, Nat.min_eq_left (by omega), ← Nat.div_mul_self_eq_mod_sub_self]; exact Nat.mul_mod_left _ _
  have hmsplit : m.take (m.length - m.length % P.B) ++ m.drop (m.length - m.length % P.B) = m := List.take_append_drop _ _
  have hdl : (m.drop (m.length - m.length % P.B)).length = m.length % P.B := by rw [List.length_drop]; omega
  have hnum : m.length % P.W % P.B = m.length % P.B := Nat.mod_mod_of_dvd _ (Nat.dvd_of_mod_eq_zero (W_mod ok))
  unfold padLastBlock
  rw [hinv.lo, and_eq ok, hnum]
  generalize m.length % P.B = num at *
  dsimp only
  rw [write_ok _ _ _ (by simp; omega), bind_ok]
  have hw1l := write_length h.data num [0x80] (by simp; omega)
  have hw1 : (h.data.take num ++ [(0x80 : Byte)] ++ h.data.drop (num + [(0x80 : Byte)].length)).take (num + 1) = m.drop (m.length - num) ++ [0x80] := by
    rw [List.take_append_of_le_length (by simp; omega), List.take_of_length_le (by simp; omega), hbuf]
  generalize h.data.take num ++ [(0x80 : Byte)] ++ h.data.drop (num + [(0x80 : Byte)].length) = d1 at *
  by_cases hc : num + 1 ≤ P.B - 2 * P.k
  · rw [if_pos hc]
    rw [write_ok _ _ _ (by simp; omega), bind_ok]
    refine ⟨_, h.state, rfl, ?_, m.take (m.length - num), m.drop (m.length - num) ++ [0x80] ++ List.replicate (zeros P m.length) 0, ?_, hwhole, ?_, hst, ?_⟩
    · rw [write_length _ _ _ (by simp; omega)]; omega
    · rw [← List.append_assoc, ← List.append_assoc, hmsplit]; simp
    · simp only [List.length_append, hdl, List.length_replicate, List.length_singleton]; rw [hz.1 hc]; omega
    · rw [hw1, hz.1 hc]
      rw [List.take_append_of_le_length (by simp [hdl]; omega), List.take_of_length_le (by simp [hdl]; omega)]
  · rw [if_neg hc]
    rw [write_ok _ _ _ (by simp; omega), bind_ok]
    rw [hw1, List.drop_eq_nil_of_le (as := d1) (by simp; omega), List.append_nil]
    have hbl : (m.drop (m.length - num) ++ [(0x80 : Byte)] ++ List.replicate (P.B - (num + 1)) 0).length = P.B := by
      simp only [List.length_append, hdl, List.length_replicate, List.length_singleton]; omega
    obtain ⟨d2, e1, e2⟩ := block_spec ok _ h.state hbl
    rw [e1]
    dsimp only
    rw [write_ok _ _ _ (by simp; omega), bind_ok]
    refine ⟨_, _, rfl, ?_, m.take (m.length - num) ++ (m.drop (m.length - num) ++ [0x80] ++ List.replicate (P.B - (num + 1)) 0),
      List.replicate (P.B - 2 * P.k) 0, ?_, ?_, by simp, ?_, ?_⟩
    · rw [write_length _ _ _ (by simp; omega)]; exact e2
    · rw [← List.append_assoc, ← List.append_assoc, hmsplit, hz.2 hc, ← List.replicate_append_replicate]; simp
    · rw [List.length_append, Nat.add_mod, hwhole, hbl, Nat.mod_self]; simp
    · rw [foldFrom_append ok _ _ _ hwhole, ← hst, foldFrom_block ok _ _ hbl]
    · rw [List.take_zero, List.nil_append, List.take_append_of_le_length (by simp), List.take_of_length_le (by simp)]

include ok in
theorem storeReversed_eq (w : Nat) : storeReversed P w = P.order.bytes P.k w := by
  unfold storeReversed
  by_cases h : P.native = P.order
  · rw [if_pos h, h]
  · rw [if_neg h]
    cases hn : P.native <;> cases ho : P.order <;> simp [hn, ho, ByteOrder.bytes, beBytes] at h ⊢

theorem bytes_mod (o : ByteOrder) (k n : Nat) : o.bytes k (n % 256 ^ k) = o.bytes k n := by
  cases o
  · exact leBytes_mod k n
  · exact beBytes_mod k n

include ok in
theorem bitCount_spec (h : State) (n : Nat) (hlo : h.countLo = n % P.W) (hhi : h.countHi = n / P.W) :
    P.order.bytes P.k (bitCountLo P h) = P.order.bytes P.k (8 * n) ∧
    P.order.bytes P.k (bitCountHi P h) = P.order.bytes P.k (8 * n / P.W) := by
  have hk := ok.kpos
  have hW : P.W = 8 * 2 ^ (8 * P.k - 3) := by
    unfold Params.W
    rw [show (256 : Nat) ^ P.k = 2 ^ (8 * P.k) by rw [Nat.pow_mul], show (8 : Nat) = 2 ^ 3 from rfl, ← Nat.pow_add]
    congr 1; omega
  have hWp := W_pos ok
  constructor
  · unfold bitCountLo
    have : h.countLo * 8 % P.W = 8 * n % P.W := by rw [hlo, Nat.mod_mul_mod, Nat.mul_comm]
    rw [this]; exact bytes_mod _ _ _
  · unfold bitCountHi
    have : (h.countLo / 2 ^ (8 * P.k - 3) + h.countHi * 8 % P.W) % P.W = (8 * n / P.W) % P.W := by
      rw [Nat.add_mod_mod, hlo, hhi]
      congr 1
      have h1 := Nat.div_add_mod n P.W
      have h2 : 8 * n = 8 * (n % P.W) + P.W * (8 * (n / P.W)) := by
        conv => lhs; rw [← h1]
        rw [Nat.mul_add, Nat.mul_left_comm, Nat.add_comm]
      rw [h2, Nat.add_mul_div_left _ _ hWp]
      have h3 : 8 * (n % P.W) / P.W = n % P.W / 2 ^ (8 * P.k - 3) := by
        conv => lhs; rhs; rw [hW]
        rw [Nat.mul_div_mul_left _ _ (by omega)]
      rw [h3, Nat.mul_comm (n / P.W)]
    rw [this]; exact bytes_mod _ _ _

theorem flatMap_take (st : List Nat) (f : Nat → List Byte) (k q : Nat) (hf : ∀ x, (f x).length = k) (size : Nat) (hs : size ≤ q * k) (tail : List Byte)
    (ht : st.length < q → tail = []) :
    ((st.take q).flatMap f ++ tail).take size = (st.flatMap f).take size := by
  have hl : ∀ l : List Nat, (l.flatMap f).length = l.length * k := by
    intro l
    induction l with
    | nil => simp
    | cons x l ih => rw [List.flatMap_cons, List.length_append, ih, hf, List.length_cons, Nat.succ_mul]; omega
  by_cases hq : st.length < q
  · rw [ht hq, List.append_nil, List.take_of_length_le (l := st) (by omega)]
  · have h1 : ((st.take q).flatMap f).length = q * k := by rw [hl, List.length_take, Nat.min_eq_left (by omega)]
    rw [List.take_append_of_le_length (by omega)]
    conv => rhs; rw [← List.take_append_drop q st, List.flatMap_append]
    rw [List.take_append_of_le_length (by omega)]

include ok in
theorem final_spec (h : State) (m : List Byte) (hinv : Inv P h m) (size : Nat) (hs : size ≤ P.digestSize) (aligned : Bool) :
    ∃ h', truncatedFinal P h size aligned = .ok (h', (digest P m).take size) ∧ Inv P h' [] := by
  have hB := Bpos ok
  have hr := ok.room
  have hk := ok.kpos
  have hWp := W_pos ok
  obtain ⟨q, hq⟩ := ok.div
  have hqk : P.B / P.k = q := by rw [hq]; exact Nat.mul_div_cancel_left _ (by omega)
  have hq2 : 2 < q := by
    have : P.k * 2 < P.k * q := by rw [← hq]; omega
    exact Nat.lt_of_mul_lt_mul_left this
  unfold truncatedFinal
  rw [if_neg (by omega)]
  obtain ⟨d, st, e1, e2, a, b, e3, e4, e5, e6, e7⟩ := pad_spec ok h m hinv
  rw [e1, bind_ok]
  dsimp only
  obtain ⟨b1, b2⟩ := bitCount_spec ok { h with data := d, state := st } m.length hinv.lo hinv.hi
  rw [storeReversed_eq ok, storeReversed_eq ok, b1, b2]
  -- the last block
  have hlast : ∃ d2, (write d (P.k * (P.B / P.k - 2 + orderNum P.order)) (P.order.bytes P.k (8 * m.length)) >>= fun data =>
      write data (P.k * (P.B / P.k - 1 - orderNum P.order)) (P.order.bytes P.k (8 * m.length / P.W))) = .ok d2 ∧
      d2 = b ++ P.order.bytes (2 * P.k) (8 * m.length) := by
    rw [hqk]
    have p2 : P.k * (q - 2) = P.B - 2 * P.k := by rw [Nat.mul_sub, ← hq, Nat.mul_comm P.k 2]
    have p1 : P.k * (q - 1) = P.B - P.k := by rw [Nat.mul_sub, ← hq, Nat.mul_one]
    have hbd : d = b ++ d.drop (P.B - 2 * P.k) := by rw [← e7, List.take_append_drop]
    cases ho : P.order with
    | little =>
      simp only [orderNum, Nat.add_zero, Nat.sub_zero, p1, p2, ByteOrder.bytes]
      rw [write_ok _ _ _ (by simp; omega), bind_ok]
      rw [write_ok _ _ _ (by rw [write_length _ _ _ (by simp; omega)]; simp; omega)]
      refine ⟨_, rfl, ?_⟩
      rw [e7]
      simp only [leBytes_length]
      rw [List.append_assoc, List.take_append, List.take_append, e5]
      have t1 : P.B - P.k - (P.B - 2 * P.k) = P.k := by omega
      rw [t1, List.take_of_length_le (l := b) (by omega), List.take_of_length_le (l := leBytes P.k (8 * m.length)) (by simp)]
      rw [show P.B - P.k - (b ++ leBytes P.k (8 * m.length)).length = 0 by simp; omega, List.take_zero, List.append_nil]
      rw [List.drop_eq_nil_of_le (by simp; omega), List.append_nil, List.append_assoc]
      rw [show 2 * P.k = P.k + P.k by omega, leBytes_append]
      rfl
    | big =>
      have p3 : P.k * (q - 2 + 1) = P.B - P.k := by rw [← p1]; congr 1; omega
      have p4 : q - 1 - 1 = q - 2 := by omega
      simp only [orderNum, p3, p4, p2, ByteOrder.bytes]
      rw [write_ok _ _ _ (by simp; omega), bind_ok]
      rw [write_ok _ _ _ (by rw [write_length _ _ _ (by simp; omega)]; simp; omega)]
      refine ⟨_, rfl, ?_⟩
      simp only [beBytes_length]
      rw [List.append_assoc, List.append_assoc (d.take _), List.take_append_of_le_length (by simp; omega), List.take_take, Nat.min_eq_left (by omega), e7]
      rw [List.drop_append, List.drop_eq_nil_of_le (as := d.take (P.B - P.k)) (by simp; omega), List.nil_append]
      have t1 : P.B - 2 * P.k + P.k - (d.take (P.B - P.k)).length = 0 := by simp; omega
      rw [t1, List.drop_zero, List.drop_eq_nil_of_le (as := d) (by omega), List.append_nil]
      rw [show 2 * P.k = P.k + P.k by omega, beBytes_append]
      rfl
  obtain ⟨d2, f1, f2⟩ := hlast
  have hd2 : d2.length = P.B := by rw [f2, List.length_append, e5, ByteOrder.bytes_length]; omega
  obtain ⟨d3, g1, g2⟩ := block_spec ok d2 st hd2
  -- run the code
  cases hw : write d (P.k * (P.B / P.k - 2 + orderNum P.order)) (P.order.bytes P.k (8 * m.length)) with
  | error e => rw [hw] at f1; cases f1
  | ok d1 =>
    rw [hw, bind_ok] at f1
    rw [bind_ok, f1, bind_ok, g1]
    dsimp only
    have hfold : compressBlock P st d2 = fold P (m ++ mdPadding P m.length) := by
      have hm : m ++ mdPadding P m.length = a ++ d2 := by
        unfold mdPadding
        rw [f2, ← List.append_assoc a b, ← e3]
        simp [zeros]
      show _ = foldFrom P P.init _
      rw [hm, foldFrom_append ok _ _ _ e4, ← e6, foldFrom_block ok _ _ hd2]
    refine ⟨restart P { h with data := d3, state := compressBlock P st d2 }, ?_, ?_⟩
    · rw [hfold]
      have hsr : storeReversed P = P.order.bytes P.k := funext fun w => storeReversed_eq ok w
      rw [hsr]
      congr 2
      unfold digest
      rw [List.take_take, Nat.min_eq_left hs]
      obtain ⟨t, ht⟩ := ok.dig
      have htk : P.digestSize / P.k = t := by rw [ht]; exact Nat.mul_div_cancel_left _ (by omega)
      split
      · rename_i hc
        have hsz : size / P.k * P.k = size := Nat.div_mul_cancel (Nat.dvd_of_mod_eq_zero hc.2)
        have := flatMap_take (fold P (m ++ mdPadding P m.length)) (P.order.bytes P.k) P.k (size / P.k) (by simp) size (by omega) [] (by simp)
        rw [List.append_nil] at this
        rw [← this]
        symm
        apply List.take_of_length_le
        have hl : ∀ l : List Nat, (l.flatMap (P.order.bytes P.k)).length = l.length * P.k := by
          intro l
          induction l with
          | nil => simp
          | cons x l ih => rw [List.flatMap_cons, List.length_append, ih, ByteOrder.bytes_length, List.length_cons, Nat.succ_mul]; omega
        rw [hl, List.length_take]
        calc min (size / P.k) _ * P.k ≤ size / P.k * P.k := Nat.mul_le_mul_right _ (Nat.min_le_left _ _)
          _ = size := hsz
      · apply flatMap_take _ _ P.k _ (by simp)
        · rw [htk, Nat.mul_comm, ← ht]; exact hs
        · intro hlt
          rw [List.drop_eq_nil_of_le (by omega)]; rfl
    · exact ⟨Nat.mul_pos hWp hWp, by simp [restart], by simp [restart], g2, by simp, by simp [restart, foldFrom]⟩

include ok in
theorem counts_reject (n len : Nat) (hn : n < P.W * P.W) (hlen : len / P.W + 1 < P.W) (h : P.W * P.W ≤ n + len) :
    let lo := (n % P.W + len) % P.W
    let hi := if lo < n % P.W then (n / P.W + 1) % P.W else n / P.W
    let hi := (hi + len / P.W) % P.W
    hi < n / P.W := by
  have hW := W_pos ok
  generalize P.W = W at *
  intro lo hi1 hi
  have hnW : n / W < W := Nat.div_lt_of_lt_mul hn
  have d1 := Nat.div_add_mod n W
  have d2 := Nat.div_add_mod len W
  have m1 := Nat.mod_lt n hW
  have m2 := Nat.mod_lt len hW
  have hlo' : lo = (n % W + len % W) % W := by show (n % W + len) % W = _; rw [Nat.add_mod_mod]
  have hhi : hi = (hi1 + len / W) % W := rfl
  generalize len / W = q at *
  generalize len % W = r at *
  have hsum : ∀ c : Nat, (n % W + r < W → W * W ≤ W * (n / W + q) + (W - 1)) ∧ (W * W ≤ W * (n / W + q + 1) + (W - 1)) := by
    intro c; rw [Nat.mul_add, Nat.mul_add, Nat.mul_one, Nat.mul_add]; omega
  by_cases hc : n % W + r < W
  · have e : lo = n % W + r := by rw [hlo', Nat.mod_eq_of_lt hc]
    have h1 : hi1 = n / W := if_neg (by omega)
    have h2 : W ≤ n / W + q := by
      have := (hsum 0).1 hc
      rcases Nat.lt_or_ge (n / W + q) W with hlt | hge
      · have : W * (n / W + q + 1) ≤ W * W := Nat.mul_le_mul_left _ hlt
        rw [Nat.mul_add, Nat.mul_one] at this
        omega
      · exact hge
    rw [hhi, h1, Nat.mod_eq_sub_mod h2, Nat.mod_eq_of_lt (by omega)]
    omega
  · have e : lo = n % W + r - W := by
      rw [hlo', Nat.mod_eq_sub_mod (by omega), Nat.mod_eq_of_lt (by omega)]
    have h1 : hi1 = (n / W + 1) % W := if_pos (by omega)
    have h2 : W ≤ n / W + q + 1 := by
      have := (hsum 0).2
      rcases Nat.lt_or_ge (n / W + q + 1) W with hlt | hge
      · have : W * (n / W + q + 1 + 1) ≤ W * W := Nat.mul_le_mul_left _ hlt
        rw [Nat.mul_add _ _ 1, Nat.mul_one] at this
        omega
      · exact hge
    rw [hhi, h1, Nat.mod_add_mod, Nat.mod_eq_sub_mod (by omega), Nat.mod_eq_of_lt (by omega)]
    omega

end

end Verif.IterHash
