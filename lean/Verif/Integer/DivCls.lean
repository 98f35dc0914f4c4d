import Verif.Integer.DivProofs3

/-!
# `Integer::Divide`, division by a word and by a power of two
-/
namespace Verif.Integer

/-! ## Division by a single word and by powers of two -/

/-- integer.cpp:4318-4323: the schoolbook loop, most significant word first: quotient words (least significant first) and
remainder.  `DWord / word` and `DWord % word` are exact (native double word). -/
def divWordLoop (B d : Nat) : List Nat → Nat → List Nat × Nat
  | [], r => ([], r)
  | w :: ws, r =>
    let hi := divWordLoop B d ws r
    (((w + B * hi.2) / d) % B :: hi.1, (w + B * hi.2) % d)

/-- integer.cpp:4304-4338 `Integer::Divide(word &remainder, Integer &quotient, const Integer &dividend, word divisor)`, the
quotient a different object from the dividend. -/
def divideWord (ws : Nat) (a : Obj) (d : Nat) : Except Err (Nat × Obj) :=
  if d = 0 then .error .divideByZero
  else if d &&& (d - 1) = 0 then
    .ok (a.reg.getD 0 0 &&& (d - 1), shrAssign ws (copyCtor a) (Misc.bitLen d - 1))
  else
    let i := wordCount a
    let l := divWordLoop (base ws) d (a.reg.take i) 0
    let q := l.1 ++ List.replicate (roundupSize i - i) 0
    if a.neg = false then .ok (l.2, ⟨q, false⟩)
    else if l.2 ≠ 0 then .ok (d - l.2, preDec ws ⟨q, true⟩) else .ok (l.2, ⟨q, true⟩)

/-- integer.cpp:4361-4363: the remainder loop, most significant word first. -/
def modWordLoop (B d : Nat) : List Nat → Nat → Nat
  | [], r => r
  | w :: ws, r => (w + B * modWordLoop B d ws r) % d

/-- integer.cpp:4367-4370: the sum of the words in a double word. -/
def sumWords (B : Nat) : List Nat → Nat
  | [] => 0
  | w :: ws => (sumWords B ws + w) % (B * B)

/-- integer.cpp:4348-4383 `Integer::Modulo(word)`. -/
def moduloWord (ws : Nat) (a : Obj) (d : Nat) : Except Err Nat :=
  if d = 0 then .error .divideByZero
  else
    let r :=
      if d &&& (d - 1) ≠ 0 then
        let words := a.reg.take (wordCount a)
        if d > 5 then modWordLoop (base ws) d words 0 else sumWords (base ws) words % d
      else a.reg.getD 0 0 &&& (d - 1)
    .ok (if a.neg ∧ r ≠ 0 then d - r else r)

/-- integer.cpp:4262-4288 `Integer::DivideByPowerOf2(r, q, a, n)`, three different objects: remainder and quotient. -/
def divideByPowerOf2 (ws : Nat) (a : Obj) (n : Nat) : Obj × Obj :=
  let q := shrAssign ws (assign zero a) n
  let wc := bitsToWords ws n
  let r : List Nat :=
    if wc ≤ wordCount a then
      let r0 := a.reg.take wc ++ List.replicate (roundupSize wc - wc) 0
      if n % (8 * ws) ≠ 0 then r0.set (wc - 1) (r0.getD (wc - 1) 0 % 2 ^ (n % (8 * ws))) else r0
    else a.reg.take (roundupSize (wordCount a))
  if a.neg ∧ isZero ⟨r, false⟩ = false then (assign ⟨r, false⟩ (minus ws (power2 ws n) ⟨r, false⟩), preDec ws q)
  else (⟨r, false⟩, q)

/-! ## Correctness -/

theorem mval_of_zero {B : Nat} {m : WMem} {a n : Nat} (h : ∀ x, a ≤ x → x < a + n → m x = 0) : mval B m a n = 0 := by
  induction n with
  | zero => rfl
  | succ n ih => rw [mval_succ, ih (fun x h1 h2 => h x h1 (by omega)), h (a + n) (by omega) (by omega)]; simp

theorem mZero_at (m : WMem) (a n x : Nat) (h1 : a ≤ x) (h2 : x < a + n) : mZero m a n x = 0 := by
  have h3 : x - a < n := by omega
  simp [mZero, storeW, h1, h2, List.getElem?_replicate, h3]

theorem positiveDivide_spec {ws : Nat} (hw : 0 < ws) {junk : WMem} (hj : AllW (base ws) junk) {a b : Obj}
    (ha : Ok ws a) (hb : Ok ws b) (hbz : wval (base ws) b.reg ≠ 0) :
    ∃ r q, positiveDivide ws junk a b = .ok (r, q) ∧ Ok ws r ∧ Ok ws q ∧ r.neg = false ∧ q.neg = false ∧
      wval (base ws) r.reg = wval (base ws) a.reg % wval (base ws) b.reg ∧
      wval (base ws) q.reg = wval (base ws) a.reg / wval (base ws) b.reg := by
  have hB := base_ge hw
  have hB0 : 0 < base ws := by omega
  have hcb : wordCount b ≠ 0 := by unfold wordCount; rw [Ne, countWords_eq_zero hB0]; exact hbz
  unfold positiveDivide
  simp only
  rw [if_neg hcb]
  by_cases hlt : wordCount a < wordCount b
  · rw [if_pos hlt]
    obtain ⟨h1, h2⟩ := assign_spec hw zero ha
    have hv : wval (base ws) (assign zero a).reg = wval (base ws) a.reg := by
      rw [wval_eq_natAbs, wval_eq_natAbs, h2]
    have hl : wval (base ws) a.reg < wval (base ws) b.reg := by
      calc wval (base ws) a.reg < base ws ^ wordCount a := wval_lt_countWords ha.words
        _ ≤ base ws ^ (wordCount b - 1) := Nat.pow_le_pow_right hB0 (by omega)
        _ ≤ _ := countWords_pos_le hB0 hcb
    refine ⟨_, _, rfl, ⟨h1.words, h1.size, by simp⟩, (zero_ok hw).1, rfl, rfl, ?_, ?_⟩
    · simp only; rw [hv, Nat.mod_eq_of_lt hl]
    · rw [Nat.div_eq_of_lt hl, wval_eq_natAbs, (zero_ok hw).2]; rfl
  · rw [if_neg hlt]
    have ea := evenUp_spec (wordCount a)
    have eb := evenUp_spec (wordCount b)
    have la : evenUp (wordCount a) ≤ a.reg.length := evenUp_countWords_le (size_even ha.size).1
    have lb : evenUp (wordCount b) ≤ b.reg.length := evenUp_countWords_le (size_even hb.size).1
    have hab : evenUp (wordCount b) ≤ evenUp (wordCount a) := by unfold evenUp; omega
    have hcl : base ws ^ (wordCount b - 1) ≤ wval (base ws) b.reg := countWords_pos_le hB0 hcb
    have hcb1 : evenUp (wordCount b) - 2 ≤ wordCount b - 1 := by omega
    have va := wval_take_roundup hB0 ha.words _ ea.2.1
    have vb := wval_take_roundup hB0 hb.words _ eb.2.1
    obtain ⟨pr, gr, _⟩ := roundupSize_spec (evenUp (wordCount b))
    obtain ⟨pq, gq, _⟩ := roundupSize_spec (evenUp (wordCount a) - evenUp (wordCount b) + 2)
    generalize hna : evenUp (wordCount a) = NA at *
    generalize hnb : evenUp (wordCount b) = NB at *
    generalize hnr : roundupSize NB = rs at *
    generalize hnq : roundupSize (NA - NB + 2) = qs at *
    have hNB : 2 ≤ NB := by omega
    obtain ⟨A, hA⟩ : ∃ A, A = rs + qs + (NA + 3 * (NB + 2)) := ⟨_, rfl⟩
    obtain ⟨Bp, hBp⟩ : ∃ Bp, Bp = A + a.reg.length := ⟨_, rfl⟩
    rw [← hA, ← hBp]
    have w0 : AllW (base ws) (mZero junk 0 (rs + qs)) := (mZero_spec hB0 hj 0 (rs + qs)).1
    have w2 : AllW (base ws) (storeW (storeW (mZero junk 0 (rs + qs)) A a.reg) Bp b.reg) :=
      storeW_allW hB0 (storeW_allW hB0 w0 _ ha.words) _ hb.words
    have vB : mval (base ws) (storeW (storeW (mZero junk 0 (rs + qs)) A a.reg) Bp b.reg) Bp NB = wval (base ws) b.reg := by
      rw [mval, loadW_storeW_take _ _ _ _ lb, vb]
    have vA : mval (base ws) (storeW (storeW (mZero junk 0 (rs + qs)) A a.reg) Bp b.reg) A NA = wval (base ws) a.reg := by
      rw [mval_congr (m := storeW (mZero junk 0 (rs + qs)) A a.reg) (fun x h1 h2 => storeW_out _ _ _ _ (by omega)),
        mval, loadW_storeW_take _ _ _ _ la, va]
    have z2 : ∀ x, x < rs + qs → storeW (storeW (mZero junk 0 (rs + qs)) A a.reg) Bp b.reg x = 0 := by
      intro x hx
      rw [storeW_out _ _ _ _ (by omega), storeW_out _ _ _ _ (by omega), mZero_at _ _ _ _ (by omega) (by omega)]
    generalize storeW (storeW (mZero junk 0 (rs + qs)) A a.reg) Bp b.reg = m at *
    obtain ⟨w3, s3, q3, r3⟩ := divideM_spec (W := 8 * ws) (by omega) (m := m) w2 (R := 0) (Q := rs) (T := rs + qs) (A := A) (NA := NA)
      (Bp := Bp) (NB := NB) hNB eb.1 hab ea.1 (by omega) (by omega) (by omega) (by omega) (by omega) (by
        change base ws ^ (NB - 2) ≤ mval (base ws) m Bp NB
        rw [vB]
        exact Nat.le_trans (Nat.pow_le_pow_right hB0 hcb1) hcl)
    change AllW (base ws) (divideM (8 * ws) m 0 rs (rs + qs) A NA Bp NB) at w3
    change mval (base ws) (divideM (8 * ws) m 0 rs (rs + qs) A NA Bp NB) _ _ = mval (base ws) m A NA / mval (base ws) m Bp NB at q3
    change mval (base ws) (divideM (8 * ws) m 0 rs (rs + qs) A NA Bp NB) _ _ = mval (base ws) m A NA % mval (base ws) m Bp NB at r3
    generalize divideM (8 * ws) m 0 rs (rs + qs) A NA Bp NB = m' at *
    rw [vA, vB] at q3 r3
    refine ⟨_, _, rfl, ⟨loadW_words w3 _ _, by simpa using pr, by simp⟩, ⟨loadW_words w3 _ _, by simpa using pq, by simp⟩, rfl, rfl, ?_, ?_⟩
    · change mval (base ws) m' 0 rs = _
      rw [show rs = NB + (rs - NB) by omega, mval_add, r3, mval_of_zero (a := 0 + NB) (fun x h1 h2 => by
        rw [s3 x (by omega) (by omega) (by omega)]; exact z2 x (by omega))]
      simp
    · change mval (base ws) m' rs qs = _
      rw [show qs = (NA - NB + 2) + (qs - (NA - NB + 2)) by omega, mval_add, q3, mval_of_zero (a := rs + (NA - NB + 2)) (fun x h1 h2 => by
        rw [s3 x (by omega) (by omega) (by omega)]; exact z2 x (by omega))]
      simp

theorem value_natAbs_sign {ws : Nat} (x : Obj) : value ws x = if x.neg then -(wval (base ws) x.reg : Int) else wval (base ws) x.reg := rfl

theorem positiveDivide_zero {ws : Nat} (hw : 0 < ws) {junk : WMem} {a b : Obj} (hbz : wval (base ws) b.reg = 0) :
    positiveDivide ws junk a b = .error .divideByZero := by
  have hB0 : 0 < base ws := by have := base_ge hw; omega
  unfold positiveDivide
  simp only
  rw [if_pos (show wordCount b = 0 from (countWords_eq_zero hB0).mpr hbz)]

theorem divide_zero {ws : Nat} (hw : 0 < ws) {junk : WMem} {a b : Obj} (hbz : value ws b = 0) :
    divide ws junk a b = .error .divideByZero := by
  unfold divide
  rw [positiveDivide_zero hw (by rw [wval_eq_natAbs, hbz]; rfl)]
  rfl

theorem divide_spec {ws : Nat} (hw : 0 < ws) {junk : WMem} (hj : AllW (base ws) junk) {a b : Obj}
    (ha : Ok ws a) (hb : Ok ws b) (hbz : value ws b ≠ 0) :
    ∃ r q, divide ws junk a b = .ok (r, q) ∧ Ok ws r ∧ Ok ws q ∧
      value ws a = value ws b * value ws q + value ws r ∧ 0 ≤ value ws r ∧ value ws r < |value ws b| := by
  have hbz' : wval (base ws) b.reg ≠ 0 := by rw [wval_eq_natAbs]; omega
  obtain ⟨r, q, he, hr, hq, rn, qn, vr, vq⟩ := positiveDivide_spec hw hj ha hb hbz'
  have hdm := Nat.div_add_mod (wval (base ws) a.reg) (wval (base ws) b.reg)
  have hml := Nat.mod_lt (wval (base ws) a.reg) (Nat.pos_of_ne_zero hbz')
  rw [← vr, ← vq] at hdm
  rw [← vr] at hml
  have hrv : value ws r = wval (base ws) r.reg := value_pos rn
  have hqv : value ws q = wval (base ws) q.reg := value_pos qn
  have habs : |value ws b| = wval (base ws) b.reg := by
    unfold value; split
    · rw [abs_neg]; exact abs_of_nonneg (by omega)
    · exact abs_of_nonneg (by omega)
  have hdmI : (wval (base ws) b.reg : Int) * value ws q + value ws r = wval (base ws) a.reg := by
    rw [hrv, hqv]; exact_mod_cast hdm
  have hmlI : value ws r < (wval (base ws) b.reg : Int) := by rw [hrv]; exact_mod_cast hml
  have hr0 : 0 ≤ value ws r := by rw [hrv]; omega
  unfold divide
  rw [he]
  simp only [Bind.bind, Except.bind]
  -- the sign of the divisor is applied last
  have fin : ∀ r' q' : Obj, Ok ws r' → Ok ws q' →
      value ws a = (wval (base ws) b.reg : Int) * value ws q' + value ws r' → 0 ≤ value ws r' → value ws r' < (wval (base ws) b.reg : Int) →
      ∃ r'' q'', (Except.ok (r', if b.neg = true then negate q' else q') : Except Err (Obj × Obj)) = .ok (r'', q'') ∧ Ok ws r'' ∧ Ok ws q'' ∧
        value ws a = value ws b * value ws q'' + value ws r'' ∧ 0 ≤ value ws r'' ∧ value ws r'' < |value ws b| := by
    intro r' q' h1 h2 h3 h4 h5
    refine ⟨_, _, rfl, h1, ?_, ?_, h4, by rw [habs]; exact h5⟩
    · split
      · exact (negate_spec hw h2).1
      · exact h2
    · rw [h3]
      by_cases hn : b.neg = true
      · rw [if_pos hn, (negate_spec hw h2).2, value_neg hn]; ring
      · rw [if_neg hn, value_pos (x := b) (by simpa using hn)]
  by_cases hn : a.neg = true
  · have hav : value ws a = -(wval (base ws) a.reg : Int) := value_neg hn
    rw [if_pos hn]
    obtain ⟨nq, nqv⟩ := negate_spec hw hq
    by_cases hz : value ws r = 0
    · rw [isZero_spec hw hr, hz]
      simp only [decide_true, Bool.true_eq_false, ite_false]
      exact fin r (negate q) hr nq (by rw [hav, nqv, ← hdmI, hz]; ring) hr0 hmlI
    · rw [isZero_spec hw hr]
      rw [if_pos (by simpa using hz)]
      obtain ⟨bo, bv⟩ := absoluteValue_spec hw hb
      obtain ⟨mo, mv⟩ := minus_spec hw bo hr
      obtain ⟨ao, av⟩ := assign_spec hw r mo
      obtain ⟨po, pv⟩ := preDec_spec hw nq
      have bv' : value ws (absoluteValue b) = (wval (base ws) b.reg : Int) := by
        rw [bv, ← wval_eq_natAbs]
      refine fin _ _ ao po ?_ ?_ ?_
      · rw [av, mv, pv, nqv, bv', hav, ← hdmI]; ring
      · rw [av, mv, bv']; omega
      · rw [av, mv, bv']; omega
  · rw [if_neg hn]
    exact fin r q hr hq (by rw [value_pos (by simpa using hn), hdmI]) hr0 hmlI

/-! ### By a word -/

theorem divWordLoop_spec {B d : Nat} (hd : 0 < d) : ∀ (A : List Nat), Words B A → ∀ r, r < d →
    (divWordLoop B d A r).1.length = A.length ∧ Words B (divWordLoop B d A r).1 ∧ (divWordLoop B d A r).2 < d ∧
      wval B (divWordLoop B d A r).1 * d + (divWordLoop B d A r).2 = wval B A + B ^ A.length * r := by
  intro A
  induction A with
  | nil => intro _ r hr; simp [divWordLoop, hr, Words, wval]
  | cons w A ih =>
    intro hA r hr
    obtain ⟨h1, h2, h3, h4⟩ := ih (fun x h => hA x (by simp [h])) r hr
    have hwB : w < B := hA w (by simp)
    have hB0 : 0 < B := by omega
    simp only [divWordLoop]
    generalize divWordLoop B d A r = hi at *
    have hdm := Nat.div_add_mod (w + B * hi.2) d
    have hql : (w + B * hi.2) / d < B := by
      rw [Nat.div_lt_iff_lt_mul hd]
      have : B * (hi.2 + 1) ≤ B * d := Nat.mul_le_mul_left _ h3
      rw [Nat.mul_add] at this; omega
    refine ⟨by simp [h1], ?_, Nat.mod_lt _ hd, ?_⟩
    · intro x hx
      rcases List.mem_cons.mp hx with h | h
      · rw [h]; exact Nat.mod_lt _ hB0
      · exact h2 x h
    · rw [Nat.mod_eq_of_lt hql]
      simp only [wval, List.length_cons]
      generalize (w + B * hi.2) / d = qq at *
      generalize (w + B * hi.2) % d = rr at *
      have e : B * (wval B hi.1 * d + hi.2) = B * (wval B A + B ^ A.length * r) := by rw [h4]
      rw [pow_succ]
      linarith [e, hdm, Nat.mul_comm d qq, show (qq + B * wval B hi.1) * d = qq * d + B * (wval B hi.1 * d) by ring,
        show B ^ A.length * B * r = B * (B ^ A.length * r) by ring, Nat.mul_add B (wval B hi.1 * d) hi.2,
        Nat.mul_add B (wval B A) (B ^ A.length * r)]

theorem modWordLoop_spec (B d : Nat) : ∀ (A : List Nat), modWordLoop B d A 0 % d = wval B A % d := by
  intro A
  induction A with
  | nil => simp [modWordLoop, wval]
  | cons w A ih =>
    simp only [modWordLoop, wval]
    rw [Nat.mod_mod, Nat.add_mod, Nat.mul_mod, ih, ← Nat.mul_mod, ← Nat.add_mod]

theorem modWordLoop_lt {B d : Nat} (hd : 0 < d) (A : List Nat) : modWordLoop B d A 0 < d := by
  cases A with
  | nil => exact hd
  | cons w A => exact Nat.mod_lt _ hd

theorem sumWords_spec {B d : Nat} (h : B % d = 1 % d) : ∀ (A : List Nat), Words B A → A.length ≤ B →
    sumWords B A ≤ A.length * (B - 1) ∧ sumWords B A % d = wval B A % d := by
  intro A
  induction A with
  | nil => intro _ _; simp [sumWords, wval]
  | cons w A ih =>
    intro hA hl
    simp only [List.length_cons] at hl
    obtain ⟨h1, h2⟩ := ih (fun x h => hA x (by simp [h])) (by omega)
    have hwB : w < B := hA w (by simp)
    have hle : sumWords B A + w ≤ (A.length + 1) * (B - 1) := by rw [Nat.add_mul, Nat.one_mul]; omega
    have hlt : sumWords B A + w < B * B := by
      calc sumWords B A + w ≤ (A.length + 1) * (B - 1) := hle
        _ ≤ B * (B - 1) := Nat.mul_le_mul_right _ hl
        _ < B * B := Nat.mul_lt_mul_of_pos_left (by omega) (by omega)
    simp only [sumWords, wval, List.length_cons]
    rw [Nat.mod_eq_of_lt hlt]
    refine ⟨hle, ?_⟩
    rw [Nat.add_mod, h2, Nat.add_mod w, Nat.mul_mod, h, ← Nat.mul_mod, Nat.one_mul, ← Nat.add_mod, ← Nat.add_mod, Nat.add_comm]

theorem and_pred_pow2 {d : Nat} (hd : d ≠ 0) (h : d &&& (d - 1) = 0) : ∃ k, d = 2 ^ k := by
  refine ⟨d.log2, ?_⟩
  have hlt := Nat.lt_log2_self (n := d)
  have hle := Nat.log2_self_le hd
  by_contra hne
  have h1 : (d - 1).testBit d.log2 = true := by
    have : d - 1 = 2 ^ d.log2 + (d - 1 - 2 ^ d.log2) := by omega
    rw [this, Nat.testBit_two_pow_add_eq]
    rw [Nat.testBit_lt_two_pow (by rw [pow_succ] at hlt; omega)]; rfl
  have h2 : d.testBit d.log2 = true := by
    have : d = 2 ^ d.log2 + (d - 2 ^ d.log2) := by omega
    conv => lhs; arg 1; rw [this]
    rw [Nat.testBit_two_pow_add_eq, Nat.testBit_lt_two_pow (by rw [pow_succ] at hlt; omega)]; rfl
  have h3 : (d &&& (d - 1)).testBit d.log2 = true := by rw [Nat.testBit_and, h1, h2]; rfl
  rw [h] at h3
  simp at h3

theorem and_pred_mod (x k : Nat) : x &&& (2 ^ k - 1) = x % 2 ^ k := Nat.and_two_pow_sub_one_eq_mod x k

theorem low_word_mod {ws : Nat} {x : List Nat} {d k : Nat} (hd : d = 2 ^ k) (hk : d < base ws) :
    x.getD 0 0 % d = wval (base ws) x % d := by
  cases x with
  | nil => rfl
  | cons w x =>
    have hkw : k < 8 * ws := by
      rw [hd] at hk; exact (Nat.pow_lt_pow_iff_right (by omega)).mp hk
    have hdvd : base ws = d * 2 ^ (8 * ws - k) := by
      rw [hd, ← pow_add]; unfold base; congr 1; omega
    simp only [List.getD_cons_zero, wval]
    rw [hdvd, Nat.mul_assoc, Nat.add_mul_mod_self_left]

theorem moduloWord_spec {ws : Nat} (hw : 0 < ws) {a : Obj} (ha : Ok ws a) (hl : a.reg.length ≤ base ws) {d : Nat} (hd : d ≠ 0) (hdB : d < base ws) :
    moduloWord ws a d = .ok ((value ws a) % (d : Int)).toNat := by
  have hB0 : 0 < base ws := by have := base_ge hw; omega
  unfold moduloWord
  rw [if_neg hd]
  simp only
  have hr : ∀ r, r < d → r % d = wval (base ws) a.reg % d →
      (Except.ok (if a.neg = true ∧ r ≠ 0 then d - r else r) : Except Err Nat) = .ok ((value ws a) % (d : Int)).toNat := by
    intro r hrd hrm
    rw [Nat.mod_eq_of_lt hrd] at hrm
    congr 1
    have hI : (wval (base ws) a.reg : Int) % (d : Int) = (r : Int) := by rw [hrm]; exact (Int.natCast_mod _ _).symm
    by_cases hn : a.neg = true
    · rw [value_neg hn, Int.neg_emod, hI]
      by_cases h0 : r = 0
      · rw [if_neg (by simp [h0]), if_pos (by rw [Int.dvd_iff_emod_eq_zero, hI, h0]; rfl), h0]; rfl
      · rw [if_pos ⟨hn, h0⟩, if_neg (by rw [Int.dvd_iff_emod_eq_zero, hI]; omega)]
        simp only [Int.natAbs_natCast]; omega
    · rw [if_neg (by simp [hn]), value_pos (by simpa using hn), hI]; rfl
  have hwv : wval (base ws) (a.reg.take (wordCount a)) = wval (base ws) a.reg := wval_take_countWords (base ws) a.reg
  refine (fun (h : _ ∧ _) => hr _ h.1 h.2) ?_
  by_cases hp : d &&& (d - 1) = 0
  · rw [if_neg (by simpa using hp)]
    obtain ⟨k, hk⟩ := and_pred_pow2 hd hp
    have e : a.reg.getD 0 0 &&& (d - 1) = a.reg.getD 0 0 % d := by rw [hk]; exact and_pred_mod _ _
    rw [e]
    exact ⟨Nat.mod_lt _ (by omega), by rw [Nat.mod_mod, low_word_mod hk hdB]⟩
  · rw [if_pos (by simpa using hp)]
    by_cases h5 : d > 5
    · rw [if_pos h5]
      exact ⟨modWordLoop_lt (by omega) _, by rw [modWordLoop_spec, hwv]⟩
    · rw [if_neg h5]
      have hd35 : d = 3 ∨ d = 5 := by
        rcases (by omega : d = 1 ∨ d = 2 ∨ d = 3 ∨ d = 4 ∨ d = 5) with h | h | h | h | h <;> subst h <;> simp at hp ⊢
      have hB1 : base ws % d = 1 % d := by
        rw [base_eq, Nat.pow_mod]
        rcases hd35 with h | h <;> subst h <;> simp
      have hs := (sumWords_spec hB1 (a.reg.take (wordCount a)) (fun x h => ha.words x (List.mem_of_mem_take h))
        (by simp only [List.length_take]; omega)).2
      exact ⟨Nat.mod_lt _ (by omega), by rw [Nat.mod_mod, hs, hwv]⟩

theorem bitLen_two_pow (k : Nat) : Misc.bitLen (2 ^ k) = k + 1 :=
  Misc.bitLen_unique (Nat.pow_lt_pow_right (by omega) (by omega)) (Nat.le_refl _)

theorem divideWord_spec {ws : Nat} (hw : 0 < ws) {a : Obj} (ha : Ok ws a) {d : Nat} (hd : d ≠ 0) (hdB : d < base ws)
    (hc : a.neg = false ∨ ¬ ∃ k, d = 2 ^ k) :
    ∃ r q, divideWord ws a d = .ok (r, q) ∧ Ok ws q ∧ value ws a = d * value ws q + r ∧ r < d := by
  have hB0 : 0 < base ws := by have := base_ge hw; omega
  unfold divideWord
  rw [if_neg hd]
  by_cases hp : d &&& (d - 1) = 0
  · obtain ⟨k, hk⟩ := and_pred_pow2 hd hp
    have hn : a.neg = false := hc.resolve_right (fun h => h ⟨k, hk⟩)
    rw [if_pos hp]
    have hkI : (d : Int) = 2 ^ k := by rw [hk]; push_cast; rfl
    obtain ⟨co, cv⟩ := copyCtor_spec hw ha
    obtain ⟨so, sv⟩ := shrAssign_spec hw co k
    have e : a.reg.getD 0 0 &&& (d - 1) = a.reg.getD 0 0 % d := by rw [hk]; exact and_pred_mod _ _
    have e2 : Misc.bitLen d - 1 = k := by rw [hk, bitLen_two_pow]; omega
    rw [e, e2]
    refine ⟨_, _, rfl, so, ?_, Nat.mod_lt _ (by omega)⟩
    rw [low_word_mod hk hdB, sv, cv, value_pos hn, ← hkI, Int.tdiv_eq_ediv_of_nonneg (by omega)]
    push_cast
    exact (Int.mul_ediv_add_emod _ _).symm
  · rw [if_neg hp]
    simp only
    have hwv := wval_take_countWords (base ws) a.reg
    obtain ⟨l1, l2, l3, l4⟩ := divWordLoop_spec (B := base ws) (d := d) (by omega) (a.reg.take (wordCount a))
      (fun x h => ha.words x (List.mem_of_mem_take h)) 0 (by omega)
    obtain ⟨pq, gq, _⟩ := roundupSize_spec (wordCount a)
    have hcl := countWords_le a.reg
    have hlen : (a.reg.take (wordCount a)).length = wordCount a := by
      simp only [List.length_take, wordCount]; omega
    rw [hlen] at l1 l4
    rw [show wval (base ws) (a.reg.take (wordCount a)) = wval (base ws) a.reg from hwv, Nat.mul_zero, Nat.add_zero] at l4
    generalize divWordLoop (base ws) d (a.reg.take (wordCount a)) 0 = l at *
    have qlen : (l.1 ++ List.replicate (roundupSize (wordCount a) - wordCount a) 0).length = roundupSize (wordCount a) := by
      simp only [List.length_append, List.length_replicate, l1]; omega
    have qv : wval (base ws) (l.1 ++ List.replicate (roundupSize (wordCount a) - wordCount a) 0) = wval (base ws) l.1 := by
      rw [wval_append]; simp
    have qo : Ok ws ⟨l.1 ++ List.replicate (roundupSize (wordCount a) - wordCount a) 0, false⟩ :=
      ⟨l2.append (Words.replicate hB0 _), by simp only [qlen]; exact pq, by simp⟩
    generalize l.1 ++ List.replicate (roundupSize (wordCount a) - wordCount a) 0 = q at *
    have l4I : (wval (base ws) q : Int) * d + l.2 = wval (base ws) a.reg := by rw [qv]; exact_mod_cast l4
    by_cases hn : a.neg = false
    · rw [if_pos hn]
      exact ⟨_, _, rfl, qo, by rw [value_pos hn, value_pos rfl, ← l4I]; ring, l3⟩
    · rw [if_neg hn]
      have hn' : a.neg = true := by simpa using hn
      by_cases hr : l.2 = 0
      · rw [if_neg (by simpa using hr)]
        refine ⟨_, _, rfl, ⟨qo.words, qo.size, ?_⟩, ?_, l3⟩
        · intro _ h0
          rw [qv] at h0
          exact ha.sign hn' (by rw [← l4, h0, hr]; simp)
        · rw [value_neg hn', value_neg rfl, ← l4I, hr]; simp; ring
      · rw [if_pos hr]
        obtain ⟨g1, g2, g3⟩ := preInc_mag hw qo true
        refine ⟨_, _, rfl, ?_, ?_, by omega⟩
        · exact g1
        · have e : value ws (preDec ws ⟨q, true⟩) = -((wval (base ws) q : Int) + 1) := by
            unfold preDec
            rw [if_pos rfl]
            rw [value_neg g2, g3]; push_cast; rfl
          rw [e, value_neg hn', ← l4I]
          push_cast [Nat.sub_add_cancel, Int.ofNat_sub (Nat.le_of_lt l3)]
          ring

/-! ### By a power of two -/

theorem wval_take_mod {B : Nat} (hB : 0 < B) {A : List Nat} (hA : Words B A) (n : Nat) (h : n ≤ A.length) :
    wval B (A.take n) = wval B A % B ^ n := by
  have h1 : wval B A = wval B (A.take n) + B ^ n * wval B (A.drop n) := by
    conv => lhs; rw [← List.take_append_drop n A, wval_append]
    rw [List.length_take, Nat.min_eq_left h]
  rw [h1, Nat.add_mul_mod_self_left, Nat.mod_eq_of_lt (wval_take_lt hA n h)]

theorem base_pow (ws n : Nat) : base ws ^ n = 2 ^ (8 * ws * n) := by unfold base; rw [← pow_mul]

theorem divideByPowerOf2_spec {ws : Nat} (hw : 0 < ws) {a : Obj} (ha : Ok ws a) (n : Nat) :
    let d := divideByPowerOf2 ws a n
    Ok ws d.1 ∧ Ok ws d.2 ∧ value ws a = 2 ^ n * value ws d.2 + value ws d.1 ∧ 0 ≤ value ws d.1 ∧ value ws d.1 < 2 ^ n := by
  intro d
  have hB0 : 0 < base ws := by have := base_ge hw; omega
  have hd : d = divideByPowerOf2 ws a n := rfl
  unfold divideByPowerOf2 at hd
  simp only at hd
  obtain ⟨ao, av⟩ := assign_spec hw zero ha
  obtain ⟨qo, qv⟩ := shrAssign_spec hw ao n
  rw [av] at qv
  generalize shrAssign ws (assign zero a) n = q at *
  -- the remainder words
  have hr : ∃ r, (if bitsToWords ws n ≤ wordCount a then
      (if n % (8 * ws) ≠ 0 then
        (a.reg.take (bitsToWords ws n) ++ List.replicate (roundupSize (bitsToWords ws n) - bitsToWords ws n) 0).set (bitsToWords ws n - 1)
          ((a.reg.take (bitsToWords ws n) ++ List.replicate (roundupSize (bitsToWords ws n) - bitsToWords ws n) 0).getD (bitsToWords ws n - 1) 0
            % 2 ^ (n % (8 * ws)))
        else a.reg.take (bitsToWords ws n) ++ List.replicate (roundupSize (bitsToWords ws n) - bitsToWords ws n) 0)
      else a.reg.take (roundupSize (wordCount a))) = r ∧ Ok ws ⟨r, false⟩ ∧ wval (base ws) r = wval (base ws) a.reg % 2 ^ n := by
    refine ⟨_, rfl, ?_⟩
    have hnd := Nat.div_add_mod n (8 * ws)
    have hml := Nat.mod_lt n (show 8 * ws > 0 by omega)
    have hwc : bitsToWords ws n = if n % (8 * ws) = 0 then n / (8 * ws) else n / (8 * ws) + 1 := by
      unfold bitsToWords
      generalize hM : 8 * ws = M at *
      have hM0 : 0 < M := by omega
      generalize n / M = k at *
      generalize n % M = t at *
      split
      · rename_i h0
        subst h0
        rw [← hnd, show M * k + 0 + M - 1 = M * k + (M - 1) by omega, Nat.mul_add_div hM0, Nat.div_eq_of_lt (by omega), Nat.add_zero]
      · rename_i h0
        rw [← hnd, show M * k + t + M - 1 = M * (k + 1) + (t - 1) by rw [Nat.mul_add]; omega, Nat.mul_add_div hM0,
          Nat.div_eq_of_lt (by omega), Nat.add_zero]
    clear hd
    generalize n / (8 * ws) = k at *
    generalize n % (8 * ws) = t at *
    have hcw := countWords_le a.reg
    by_cases hc : bitsToWords ws n ≤ wordCount a
    · rw [if_pos hc]
      obtain ⟨pr, gr, _⟩ := roundupSize_spec (bitsToWords ws n)
      have hlen : bitsToWords ws n ≤ a.reg.length := Nat.le_trans hc hcw
      have rlen : (a.reg.take (bitsToWords ws n) ++ List.replicate (roundupSize (bitsToWords ws n) - bitsToWords ws n) 0).length
          = roundupSize (bitsToWords ws n) := by
        simp only [List.length_append, List.length_take, List.length_replicate]; omega
      have rv : wval (base ws) (a.reg.take (bitsToWords ws n) ++ List.replicate (roundupSize (bitsToWords ws n) - bitsToWords ws n) 0)
          = wval (base ws) a.reg % base ws ^ bitsToWords ws n := by
        rw [wval_append, wval_take_mod hB0 ha.words _ hlen]; simp
      have rw0 : Words (base ws) (a.reg.take (bitsToWords ws n) ++ List.replicate (roundupSize (bitsToWords ws n) - bitsToWords ws n) 0) :=
        Words.append (fun x h => ha.words x (List.mem_of_mem_take h)) (Words.replicate hB0 _)
      generalize a.reg.take (bitsToWords ws n) ++ List.replicate (roundupSize (bitsToWords ws n) - bitsToWords ws n) 0 = r0 at *
      by_cases h0 : t = 0
      · rw [if_neg (by simpa using h0)]
        rw [if_pos h0] at hwc
        refine ⟨⟨rw0, by simp only; rw [rlen]; exact pr, by simp⟩, ?_⟩
        rw [rv, hwc, base_pow, show 8 * ws * (k) = n by omega]
      · rw [if_pos h0]
        rw [if_neg h0] at hwc
        have hj : bitsToWords ws n - 1 = k := by omega
        have hjl : k < r0.length := by omega
        rw [hj]
        have hdig := digit rw0 (k) hjl
        refine ⟨⟨rw0.set _ _ (Nat.lt_of_le_of_lt (Nat.mod_le _ _) (by
            exact rw0.getD hB0 _)), by simp only [List.length_set]; rw [rlen]; exact pr, by simp⟩, ?_⟩
        have hset := wval_set (base ws) (k) (r0.getD (k) 0 % 2 ^ (t)) hjl
        have hrl : wval (base ws) r0 = wval (base ws) (r0.take (k)) + base ws ^ (k) * r0.getD (k) 0 := by
          rw [← wval_take_succ _ _ _ hjl, wval_take_mod hB0 rw0 _ (by omega), ← hwc, rv, Nat.mod_mod]
        have hlo := wval_take_lt rw0 (k) (by omega)
        have h2n : 2 ^ n = base ws ^ (k) * 2 ^ (t) := by
          rw [base_pow, ← pow_add, hnd]
        have hdvd : 2 ^ n ∣ base ws ^ bitsToWords ws n := by
          rw [base_pow]; exact pow_dvd_pow 2 (by rw [hwc, Nat.mul_add]; omega)
        have e1 : wval (base ws) r0 % base ws ^ k = wval (base ws) (r0.take k) := by
          rw [hrl, Nat.add_mul_mod_self_left, Nat.mod_eq_of_lt hlo]
        have e2 : wval (base ws) r0 / base ws ^ k = r0.getD k 0 := by
          rw [hrl, Nat.add_mul_div_left _ _ (Nat.pow_pos hB0), Nat.div_eq_of_lt hlo, Nat.zero_add]
        rw [← Nat.mod_mod_of_dvd _ hdvd, ← rv, h2n, Nat.mod_mul, e1, e2]
        omega
    · rw [if_neg hc]
      obtain ⟨t1, t2, t3⟩ := take_roundup hw ha
      refine ⟨⟨t1, by simp only; rw [t2]; exact (roundupSize_spec _).1, by simp⟩, ?_⟩
      rw [t3, Nat.mod_eq_of_lt]
      have h1 : wval (base ws) a.reg < base ws ^ wordCount a := wval_lt_countWords ha.words
      refine Nat.lt_of_lt_of_le h1 ?_
      rw [base_pow]
      apply Nat.pow_le_pow_right (by omega)
      have h2 : wordCount a ≤ k := by
        rw [hwc] at hc; split at hc <;> omega
      have h3 := Nat.mul_le_mul_left (8 * ws) h2
      omega
  obtain ⟨r, hre, ro, rv⟩ := hr
  rw [hre] at hd
  have hdm := Nat.div_add_mod (wval (base ws) a.reg) (2 ^ n)
  have hml := Nat.mod_lt (wval (base ws) a.reg) (Nat.two_pow_pos n)
  rw [← rv] at hdm hml
  have hdmI : (2 : Int) ^ n * ((wval (base ws) a.reg / 2 ^ n : Nat) : Int) + wval (base ws) r = wval (base ws) a.reg := by exact_mod_cast hdm
  have hmlI : (wval (base ws) r : Int) < 2 ^ n := by exact_mod_cast hml
  have hrv : value ws ⟨r, false⟩ = wval (base ws) r := value_pos rfl
  have hpI : ((2 : Int) ^ n) = ((2 ^ n : Nat) : Int) := by push_cast; rfl
  by_cases hn : a.neg = true
  · have hav : value ws a = -(wval (base ws) a.reg : Int) := value_neg hn
    have hqv : value ws q = -((wval (base ws) a.reg / 2 ^ n : Nat) : Int) := by
      rw [qv, hav, Int.neg_tdiv, hpI, ← Int.ofNat_tdiv]
    by_cases hz : wval (base ws) r = 0
    · rw [if_neg (by rw [isZero_spec hw ro, hrv, hz]; simp)] at hd
      rw [hd]
      refine ⟨ro, qo, ?_, by rw [hrv]; omega, by rw [hrv]; exact hmlI⟩
      rw [hrv, hqv, hav, ← hdmI, hz]; push_cast; ring
    · rw [if_pos ⟨hn, by rw [isZero_spec hw ro, hrv]; simpa using hz⟩] at hd
      rw [hd]
      obtain ⟨p1, p2⟩ := power2_spec hw n
      obtain ⟨m1, m2⟩ := minus_spec hw p1 ro
      obtain ⟨s1, s2⟩ := assign_spec hw ⟨r, false⟩ m1
      obtain ⟨d1, d2⟩ := preDec_spec hw qo
      refine ⟨s1, d1, ?_, ?_, ?_⟩
      · simp only; rw [s2, m2, p2, d2, hrv, hqv, hav, ← hdmI]; ring
      · simp only; rw [s2, m2, p2, hrv]; omega
      · simp only; rw [s2, m2, p2, hrv]; omega
  · rw [if_neg (by simp [hn])] at hd
    have hav : value ws a = (wval (base ws) a.reg : Int) := value_pos (by simpa using hn)
    have hqv : value ws q = ((wval (base ws) a.reg / 2 ^ n : Nat) : Int) := by
      rw [qv, hav, hpI, ← Int.ofNat_tdiv]
    rw [hd]
    refine ⟨ro, qo, ?_, by rw [hrv]; omega, by rw [hrv]; exact hmlI⟩
    rw [hrv, hqv, hav, ← hdmI]

end Verif.Integer
