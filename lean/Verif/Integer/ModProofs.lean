import Verif.Integer.ModModel
import Verif.Integer.MontProofs
import Verif.Integer.AlmostProofs3

/-!
# Proofs about `ModularArithmetic`
-/
namespace Verif.Integer

variable {ws : Nat}

/-! ## Register sizes -/

theorem roundup_mono {a b : Nat} (h : a ≤ b) : roundupSize a ≤ roundupSize b := by
  obtain ⟨_, _, m⟩ := roundupSize_spec a
  obtain ⟨⟨k, hk⟩, g, _⟩ := roundupSize_spec b
  rw [hk]; exact m k (by omega)

theorem roundup_evenUp (n : Nat) : roundupSize (evenUp n) = roundupSize n := by
  apply Nat.le_antisymm
  · obtain ⟨_, _, m⟩ := roundupSize_spec (evenUp n)
    obtain ⟨⟨k, hk⟩, g, _⟩ := roundupSize_spec n
    rw [hk]
    apply m k
    have := size_even (n := roundupSize n) ⟨k, hk⟩
    have := evenUp_spec n
    omega
  · exact roundup_mono (evenUp_spec n).2.1

theorem wordCount_mono (hw : 0 < ws) {x y : Obj} (hx : Ok ws x) (hy : Ok ws y) (h : wval (base ws) x.reg ≤ wval (base ws) y.reg) :
    wordCount x ≤ wordCount y := by
  have hB0 : 0 < base ws := by have := base_ge hw; omega
  by_contra hc
  have h1 : base ws ^ (wordCount x - 1) ≤ wval (base ws) x.reg := countWords_pos_le hB0 (show countWords x.reg ≠ 0 by unfold wordCount at hc; omega)
  have h2 : wval (base ws) y.reg < base ws ^ wordCount y := wval_lt_countWords hy.words
  have h3 : base ws ^ wordCount y ≤ base ws ^ (wordCount x - 1) := Nat.pow_le_pow_right hB0 (by omega)
  omega

theorem roundup_le_reg {x : Obj} (hx : Ok ws x) : roundupSize (wordCount x) ≤ x.reg.length := by
  obtain ⟨k, hk⟩ := hx.size
  rw [hk]; exact (roundupSize_spec _).2.2 k (by rw [← hk]; exact countWords_le _)

theorem copyCtor_length {x : Obj} (hx : Ok ws x) : (copyCtor x).reg.length = roundupSize (wordCount x) := by
  have := roundup_le_reg hx
  simp only [copyCtor, List.length_take]; omega

theorem wordCount_copyCtor (hw : 0 < ws) {x : Obj} (hx : Ok ws x) : wordCount (copyCtor x) = wordCount x := by
  obtain ⟨co, cv⟩ := copyCtor_spec hw hx
  have e : wval (base ws) (copyCtor x).reg = wval (base ws) x.reg := by rw [wval_eq_natAbs, wval_eq_natAbs, cv]
  exact Nat.le_antisymm (wordCount_mono hw co hx (by omega)) (wordCount_mono hw hx co (by omega))

theorem assign_length (hw : 0 < ws) (self : Obj) {t : Obj} (ht : Ok ws t) : (assign self t).reg.length = roundupSize (wordCount t) := by
  have hle := roundup_le_reg ht
  unfold assign
  split
  · simp only [List.length_take]; omega
  · rename_i h
    have e : self.reg.length = t.reg.length := by
      rcases Nat.decEq self.reg.length t.reg.length with h' | h'
      · exact absurd (Or.inl h') h
      · exact h'
    have hne : t.reg.getD (t.reg.length / 2) 0 ≠ 0 := fun h0 => h (Or.inr h0)
    simp only [List.length_take]
    rw [e, Nat.min_self]
    apply Nat.le_antisymm _ hle
    obtain ⟨k, hk⟩ := ht.size
    obtain ⟨⟨j, hj⟩, g, _⟩ := roundupSize_spec (wordCount t)
    have hhalf : t.reg.length / 2 = 2 ^ k := by rw [hk, Nat.pow_succ]; omega
    have hcw : t.reg.length / 2 < wordCount t := by
      by_contra hc
      have hB0 : 0 < base ws := by have := base_ge hw; omega
      have hh := drop_ge_countWords hB0 ht.words (t.reg.length / 2) (by unfold wordCount at hc; omega) (by omega)
      apply hne
      have h2 := wval_eq_zero hB0 hh.2
      have h3 := congrArg (fun l => l.getD 0 0) h2
      simp only [List.getD_eq_getElem?_getD, List.getElem?_drop, Nat.add_zero] at h3 ⊢
      rw [h3, List.getElem?_replicate]
      split <;> rfl
    rw [hk, hj] at *
    have : 2 ^ k < 2 ^ (j + 1) := by omega
    have := (Nat.pow_lt_pow_iff_right (a := 2) (by omega)).mp this
    exact Nat.pow_le_pow_right (by omega) (by omega)

/-- The remainder never has more words than a minimal copy of the divisor. -/
theorem divide_rem_length (hw : 0 < ws) {junk : WMem} (hj : AllW (base ws) junk) {a b r q : Obj}
    (ha : Ok ws a) (hb : Ok ws b) (hbz : value ws b ≠ 0) (h : divide ws junk a b = .ok (r, q)) :
    r.reg.length ≤ roundupSize (wordCount b) := by
  have hbz' : wval (base ws) b.reg ≠ 0 := by rw [wval_eq_natAbs]; omega
  obtain ⟨r0, q0, he, hr, hq, rn, qn, vr, vq⟩ := positiveDivide_spec hw hj ha hb hbz'
  have hml := Nat.mod_lt (wval (base ws) a.reg) (Nat.pos_of_ne_zero hbz')
  rw [← vr] at hml
  have hlen : r0.reg.length ≤ roundupSize (wordCount b) := by
    unfold positiveDivide at he
    simp only at he
    split at he
    · cases he
    · split at he
      · rename_i h1 h2
        cases he
        simp only
        rw [assign_length hw zero ha]
        exact roundup_mono (by omega)
      · cases he
        simp only [loadW_length]
        rw [roundup_evenUp]
  unfold divide at h
  rw [he] at h
  simp only [Bind.bind, Except.bind] at h
  split at h
  · split at h
    · cases h
      obtain ⟨bo, bv⟩ := absoluteValue_spec hw hb
      obtain ⟨mo, mv⟩ := minus_spec hw bo hr
      rw [assign_length hw _ mo]
      apply roundup_mono
      apply wordCount_mono hw mo hb
      rw [wval_eq_natAbs, wval_eq_natAbs (ws := ws) b, mv, bv, value_pos (x := r0) rn]
      have : wval (base ws) b.reg = (value ws b).natAbs := wval_eq_natAbs b
      omega
    · cases h; exact hlen
  · cases h; exact hlen

/-- `operator%` with a positive modulus. -/
theorem modulo_spec (hw : 0 < ws) {junk : WMem} (hj : AllW (base ws) junk) {a b : Obj} (ha : Ok ws a) (hb : Ok ws b)
    (hbz : 0 < value ws b) :
    ∃ r, modulo ws junk a b = .ok r ∧ Ok ws r ∧ value ws r = value ws a % value ws b ∧ r.reg.length ≤ roundupSize (wordCount b) := by
  obtain ⟨r, q, he, hr, hq, h1, h2, h3⟩ := divide_spec hw hj ha hb (by omega)
  rw [abs_of_pos hbz] at h3
  refine ⟨r, by unfold modulo; rw [he]; rfl, hr, ?_, divide_rem_length hw hj ha hb (by omega) he⟩
  rw [h1, Int.mul_add_emod_self_left, Int.emod_eq_of_lt h2 h3]

/-- `operator/` with a positive divisor is floor division. -/
theorem dividedBy_spec (hw : 0 < ws) {junk : WMem} (hj : AllW (base ws) junk) {a b : Obj} (ha : Ok ws a) (hb : Ok ws b)
    (hbz : 0 < value ws b) :
    ∃ q, dividedBy ws junk a b = .ok q ∧ Ok ws q ∧ value ws q = value ws a / value ws b := by
  obtain ⟨r, q, he, hr, hq, h1, h2, h3⟩ := divide_spec hw hj ha hb (by omega)
  rw [abs_of_pos hbz] at h3
  refine ⟨q, by unfold dividedBy; rw [he]; rfl, hq, ?_⟩
  rw [h1, Int.mul_add_ediv_left _ _ (by omega), Int.ediv_eq_zero_of_lt h2 h3, Int.add_zero]

theorem isOdd_spec (hw : 0 < ws) {x : Obj} (hx : Ok ws x) : isOdd ws x = decide (value ws x % 2 = 1) := by
  unfold isOdd
  rw [getBit_spec hw hx, Nat.testBit_zero]
  have : ((value ws x).natAbs % 2 = 1) ↔ (value ws x % 2 = 1) := by omega
  simp only [this]

theorem ofWord_one (hw : 0 < ws) : Ok ws (ofWord 1 2) ∧ value ws (ofWord 1 2) = 1 := by
  have hB := base_gt hw
  refine ⟨⟨Words.cons hB (Words.cons (by omega) Words.nil), ⟨0, rfl⟩, by simp [ofWord]⟩, ?_⟩
  simp [value, ofWord, wval, roundupSize, roundupSizeTable]

/-! ## `ModularArithmetic` -/

/-- The state of a `ModularArithmetic` object: a positive modulus in a minimal register, and result registers at least as large. -/
structure ModArith.Good (ws : Nat) (ma : ModArith) : Prop where
  okm : Ok ws ma.modulus
  pos : 0 < value ws ma.modulus
  norm : ma.modulus.reg.length = roundupSize (wordCount ma.modulus)
  rle : ma.modulus.reg.length ≤ ma.rsize
  rpow : ∃ k, ma.rsize = 2 ^ (k + 1)
  ok1 : Ok ws ma.result1

theorem mk'_good (hw : 0 < ws) {m : Obj} (hm : Ok ws m) (hp : 0 < value ws m) : (ModArith.mk' m).Good ws ∧
    value ws (ModArith.mk' m).modulus = value ws m := by
  obtain ⟨co, cv⟩ := copyCtor_spec hw hm
  refine ⟨⟨co, by simp only [ModArith.mk']; omega, ?_, ?_, (roundupSize_spec _).1, (zero_ok hw).1⟩, cv⟩
  · simp only [ModArith.mk']; rw [copyCtor_length hm, wordCount_copyCtor hw hm]
  · simp only [ModArith.mk']; rw [copyCtor_length hm]; exact roundup_mono (countWords_le _)

namespace ModArith

variable {ma : ModArith}

theorem Good.even (g : ma.Good ws) : ma.size % 2 = 0 ∧ 2 ≤ ma.size := size_even g.okm.size

theorem Good.neg (g : ma.Good ws) : ma.modulus.neg = false := by
  by_contra hn
  have hv : value ws ma.modulus = -(wval (base ws) ma.modulus.reg : Int) := value_neg (by simpa using hn)
  have := g.pos
  omega

theorem Good.val (g : ma.Good ws) : value ws ma.modulus = (wval (base ws) ma.modulus.reg : Int) := value_pos g.neg

/-- A copy of a reduced element always fits the modulus register. -/
theorem Good.fits (hw : 0 < ws) (g : ma.Good ws) {x : Obj} (hx : Ok ws x) (h0 : 0 ≤ value ws x) (h : value ws x < value ws ma.modulus) :
    roundupSize (wordCount x) ≤ ma.size := by
  unfold size
  rw [g.norm]
  apply roundup_mono
  apply wordCount_mono hw hx g.okm
  rw [wval_eq_natAbs, wval_eq_natAbs]
  omega

theorem Good.pow (g : ma.Good ws) : Pow2 ma.size := g.okm.size

theorem result_spec (hw : 0 < ws) (g : ma.Good ws) {l : List Nat} (hl : Words (base ws) l) (hn : l.length = ma.size) :
    Ok ws (ma.result l) ∧ value ws (ma.result l) = (wval (base ws) l : Int) ∧ (ma.result l).reg.length = ma.rsize := by
  have hB0 : 0 < base ws := by have := base_ge hw; omega
  have hlen : (ma.result l).reg.length = ma.rsize := by
    have := g.rle
    unfold size at hn
    simp only [result, List.length_append, List.length_replicate]; omega
  refine ⟨⟨hl.append (Words.replicate hB0 _), by rw [hlen]; exact g.rpow, by simp [result]⟩, ?_, hlen⟩
  rw [value_pos rfl]
  simp only [result]
  rw [wval_append]; simp

/-- Non-negative values are unsigned. -/
theorem neg_false {x : Obj} (hx : Ok ws x) (h : 0 ≤ value ws x) : x.neg = false := by
  by_contra hn
  have h1 : x.neg = true := by simpa using hn
  have h2 := hx.sign h1
  have hv : value ws x = -(wval (base ws) x.reg : Int) := value_neg h1
  omega

theorem val_nn {x : Obj} (hx : Ok ws x) (h : 0 ≤ value ws x) : value ws x = (wval (base ws) x.reg : Int) :=
  value_pos (neg_false hx h)

theorem emod_add {a b m : Int} (h : 0 ≤ a) (ha : a < m) (h' : 0 ≤ b) (hb : b < m) : (a + b) % m = if m ≤ a + b then a + b - m else a + b := by
  split
  · rw [← Int.sub_emod_right, Int.emod_eq_of_lt (by omega) (by omega)]
  · rw [Int.emod_eq_of_lt (by omega) (by omega)]

theorem emod_sub {a b m : Int} (h : 0 ≤ a) (ha : a < m) (h' : 0 ≤ b) (hb : b < m) : (a - b) % m = if a - b < 0 then a - b + m else a - b := by
  split
  · rw [← Int.add_emod_right, Int.emod_eq_of_lt (by omega) (by omega)]
  · rw [Int.emod_eq_of_lt (by omega) (by omega)]

theorem addReduce_spec {B N : Nat} (hB : 1 < B) (hN : N % 2 = 0) {a b m : List Nat} (ha : Words B a) (hb : Words B b) (hm : Words B m)
    (la : a.length = N) (lb : b.length = N) (lm : m.length = N) (h1 : wval B a < wval B m) (h2 : wval B b < wval B m) :
    (addReduce B N a b m).length = N ∧ Words B (addReduce B N a b m) ∧
      wval B (addReduce B N a b m) = if wval B m ≤ wval B a + wval B b then wval B a + wval B b - wval B m else wval B a + wval B b := by
  obtain ⟨l1, w1, c1, v1⟩ := baselineAdd_spec hB hN a b ha hb (by omega) (by omega)
  unfold addReduce
  simp only
  generalize baselineAdd B N a b = r at *
  obtain ⟨s, c⟩ := r
  simp only at *
  rw [List.take_of_length_le (by omega), List.take_of_length_le (by omega)] at v1
  have hcmp := compareW_spec w1 hm N (by omega) (by omega)
  rw [List.take_of_length_le (by omega), List.take_of_length_le (by omega)] at hcmp
  obtain ⟨l2, w2, c2, v2⟩ := baselineSub_spec hB hN s m w1 hm (by omega) (by omega)
  rw [List.take_of_length_le (by omega), List.take_of_length_le (by omega)] at v2
  have hs := wval_lt w1
  have hd := wval_lt w2
  rw [l1] at hs
  rw [l2] at hd
  have hml := wval_lt hm
  rw [lm] at hml
  generalize baselineSub B N s m = d at *
  obtain ⟨d, e⟩ := d
  simp only at *
  generalize B ^ N = P at *
  generalize wval B a = va at *
  generalize wval B b = vb at *
  generalize wval B m = vm at *
  have hc : c = 0 ∨ c = 1 := by omega
  have he : e = 0 ∨ e = 1 := by omega
  have hcond : (c ≠ 0 ∨ compareW s m N ≥ 0) ↔ vm ≤ va + vb := by
    rw [hcmp]
    generalize wval B s = vs at *
    rcases hc with rfl | rfl <;> rcases he with rfl | rfl <;> simp only [Nat.mul_zero, Nat.mul_one] at * <;> split <;> (try split) <;> omega
  split
  · rename_i h
    have h' := hcond.mp h
    rw [if_pos h']
    refine ⟨l2, w2, ?_⟩
    show wval B d = _
    generalize wval B s = vs at *
    generalize wval B d = vd at *
    rcases hc with rfl | rfl <;> rcases he with rfl | rfl <;> simp only [Nat.mul_zero, Nat.mul_one] at * <;> omega
  · rename_i h
    have h' := fun x => h (hcond.mpr x)
    rw [if_neg h']
    refine ⟨l1, w1, ?_⟩
    generalize wval B s = vs at *
    rcases hc with rfl | rfl <;> simp only [Nat.mul_zero, Nat.mul_one] at * <;> omega

theorem subReduce_spec {B N : Nat} (hB : 1 < B) (hN : N % 2 = 0) {a b m : List Nat} (ha : Words B a) (hb : Words B b) (hm : Words B m)
    (la : a.length = N) (lb : b.length = N) (lm : m.length = N) (h1 : wval B a < wval B m) (h2 : wval B b < wval B m) :
    (subReduce B N a b m).length = N ∧ Words B (subReduce B N a b m) ∧
      wval B (subReduce B N a b m) = if wval B a < wval B b then wval B a + wval B m - wval B b else wval B a - wval B b := by
  obtain ⟨l1, w1, c1, v1⟩ := baselineSub_spec hB hN a b ha hb (by omega) (by omega)
  unfold subReduce
  simp only
  generalize baselineSub B N a b = r at *
  obtain ⟨s, c⟩ := r
  simp only at *
  rw [List.take_of_length_le (by omega), List.take_of_length_le (by omega)] at v1
  obtain ⟨l2, w2, c2, v2⟩ := baselineAdd_spec hB hN s m w1 hm (by omega) (by omega)
  rw [List.take_of_length_le (by omega), List.take_of_length_le (by omega)] at v2
  have hs := wval_lt w1
  have hd := wval_lt w2
  rw [l1] at hs
  rw [l2] at hd
  have hml := wval_lt hm
  rw [lm] at hml
  generalize baselineAdd B N s m = d at *
  obtain ⟨d, e⟩ := d
  simp only at *
  generalize B ^ N = P at *
  have hc : c = 0 ∨ c = 1 := by omega
  have he : e = 0 ∨ e = 1 := by omega
  rcases hc with rfl | rfl
  · rw [if_neg (by omega)]
    refine ⟨l1, w1, ?_⟩
    show wval B s = _
    rw [Nat.mul_zero] at v1
    split <;> omega
  · rw [if_pos (by omega)]
    refine ⟨l2, w2, ?_⟩
    show wval B d = _
    rw [Nat.mul_one] at v1
    rcases he with rfl | rfl <;> simp only [Nat.mul_zero, Nat.mul_one] at v2 <;> split <;> omega

theorem add_spec (hw : 0 < ws) (g : ma.Good ws) {a b : Obj} (ha : Ok ws a) (hb : Ok ws b) (a0 : 0 ≤ value ws a)
    (a1 : value ws a < value ws ma.modulus) (b0 : 0 ≤ value ws b) (b1 : value ws b < value ws ma.modulus) :
    Ok ws (ma.add ws a b) ∧ value ws (ma.add ws a b) = (value ws a + value ws b) % value ws ma.modulus := by
  have hB := base_gt hw
  rw [emod_add a0 a1 b0 b1]
  unfold add
  split
  · rename_i h
    have va := val_nn ha a0
    have vb := val_nn hb b0
    have vm := g.val
    obtain ⟨l, w, v⟩ := addReduce_spec hB g.even.1 ha.words hb.words g.okm.words h.1 h.2 rfl (by omega) (by omega)
    obtain ⟨r1, r2, _⟩ := result_spec hw g w l
    refine ⟨r1, ?_⟩
    rw [r2, v, va, vb, vm]
    split <;> split <;> push_cast <;> omega
  · obtain ⟨po, pv⟩ := plus_spec hw ha hb
    obtain ⟨so, sv⟩ := assign_spec hw ma.result1 po
    obtain ⟨mo, mv⟩ := minusAssign_spec hw so g.okm
    simp only
    rw [compare_spec hw so g.okm]
    have e : ((if value ws (assign ma.result1 (plus ws a b)) > value ws ma.modulus then (1 : Int)
      else if value ws (assign ma.result1 (plus ws a b)) < value ws ma.modulus then -1 else 0) ≥ 0) ↔
        value ws ma.modulus ≤ value ws a + value ws b := by
      rw [sv, pv]; split <;> (try split) <;> omega
    by_cases hc : value ws ma.modulus ≤ value ws a + value ws b
    · rw [if_pos hc, if_pos (e.mpr hc)]
      exact ⟨mo, by rw [mv, sv, pv]⟩
    · rw [if_neg hc, if_neg (fun x => hc (e.mp x))]
      exact ⟨so, by rw [sv, pv]⟩

theorem accumulate_spec (hw : 0 < ws) (g : ma.Good ws) {a b : Obj} (ha : Ok ws a) (hb : Ok ws b) (a0 : 0 ≤ value ws a)
    (a1 : value ws a < value ws ma.modulus) (b0 : 0 ≤ value ws b) (b1 : value ws b < value ws ma.modulus) :
    Ok ws (ma.accumulate ws a b) ∧ value ws (ma.accumulate ws a b) = (value ws a + value ws b) % value ws ma.modulus := by
  have hB := base_gt hw
  rw [emod_add a0 a1 b0 b1]
  unfold accumulate
  split
  · rename_i h
    have va := val_nn ha a0
    have vb := val_nn hb b0
    have vm := g.val
    obtain ⟨l, w, v⟩ := addReduce_spec hB g.even.1 ha.words hb.words g.okm.words h.1 h.2 rfl (by omega) (by omega)
    rw [neg_false ha a0]
    refine ⟨⟨w, by simp only; rw [l]; exact g.okm.size, by simp⟩, ?_⟩
    rw [value_pos rfl]
    simp only
    rw [v, va, vb, vm]
    split <;> split <;> push_cast <;> omega
  · obtain ⟨so, sv⟩ := plusAssign_spec hw ha hb
    obtain ⟨mo, mv⟩ := minusAssign_spec hw so g.okm
    simp only
    rw [compare_spec hw so g.okm]
    have e : ((if value ws (plusAssign ws a b) > value ws ma.modulus then (1 : Int)
      else if value ws (plusAssign ws a b) < value ws ma.modulus then -1 else 0) ≥ 0) ↔
        value ws ma.modulus ≤ value ws a + value ws b := by
      rw [sv]; split <;> (try split) <;> omega
    by_cases hc : value ws ma.modulus ≤ value ws a + value ws b
    · rw [if_pos hc, if_pos (e.mpr hc)]
      exact ⟨mo, by rw [mv, sv]⟩
    · rw [if_neg hc, if_neg (fun x => hc (e.mp x))]
      exact ⟨so, by rw [sv]⟩

theorem neg_iff {x : Obj} (hx : Ok ws x) : x.neg = true ↔ value ws x < 0 := by
  constructor
  · intro h
    have h2 := hx.sign h
    have hv : value ws x = -(wval (base ws) x.reg : Int) := value_neg h
    omega
  · intro h
    by_contra hn
    have hv : value ws x = (wval (base ws) x.reg : Int) := value_pos (by simpa using hn)
    omega

theorem subtract_spec (hw : 0 < ws) (g : ma.Good ws) {a b : Obj} (ha : Ok ws a) (hb : Ok ws b) (a0 : 0 ≤ value ws a)
    (a1 : value ws a < value ws ma.modulus) (b0 : 0 ≤ value ws b) (b1 : value ws b < value ws ma.modulus) :
    Ok ws (ma.subtract ws a b) ∧ value ws (ma.subtract ws a b) = (value ws a - value ws b) % value ws ma.modulus := by
  have hB := base_gt hw
  rw [emod_sub a0 a1 b0 b1]
  unfold subtract
  split
  · rename_i h
    have va := val_nn ha a0
    have vb := val_nn hb b0
    have vm := g.val
    obtain ⟨l, w, v⟩ := subReduce_spec hB g.even.1 ha.words hb.words g.okm.words h.1 h.2 rfl (by omega) (by omega)
    obtain ⟨r1, r2, _⟩ := result_spec hw g w l
    refine ⟨r1, ?_⟩
    rw [r2, v, va, vb, vm]
    split <;> split <;> push_cast <;> omega
  · obtain ⟨po, pv⟩ := minus_spec hw ha hb
    obtain ⟨so, sv⟩ := assign_spec hw ma.result1 po
    obtain ⟨mo, mv⟩ := plusAssign_spec hw so g.okm
    simp only
    by_cases hc : value ws a - value ws b < 0
    · rw [if_pos hc, if_pos ((neg_iff so).mpr (by omega))]
      exact ⟨mo, by rw [mv, sv, pv]⟩
    · rw [if_neg hc, if_neg (fun x => hc (by have := (neg_iff so).mp x; omega))]
      exact ⟨so, by rw [sv, pv]⟩

theorem reduce_spec (hw : 0 < ws) (g : ma.Good ws) {a b : Obj} (ha : Ok ws a) (hb : Ok ws b) (a0 : 0 ≤ value ws a)
    (a1 : value ws a < value ws ma.modulus) (b0 : 0 ≤ value ws b) (b1 : value ws b < value ws ma.modulus) :
    Ok ws (ma.reduce ws a b) ∧ value ws (ma.reduce ws a b) = (value ws a - value ws b) % value ws ma.modulus := by
  have hB := base_gt hw
  rw [emod_sub a0 a1 b0 b1]
  unfold reduce
  split
  · rename_i h
    have va := val_nn ha a0
    have vb := val_nn hb b0
    have vm := g.val
    obtain ⟨l, w, v⟩ := subReduce_spec hB g.even.1 ha.words hb.words g.okm.words h.1 h.2 rfl (by omega) (by omega)
    rw [neg_false ha a0]
    refine ⟨⟨w, by simp only; rw [l]; exact g.okm.size, by simp⟩, ?_⟩
    rw [value_pos rfl]
    simp only
    rw [v, va, vb, vm]
    split <;> split <;> push_cast <;> omega
  · obtain ⟨so, sv⟩ := minusAssign_spec hw ha hb
    obtain ⟨mo, mv⟩ := plusAssign_spec hw so g.okm
    simp only
    by_cases hc : value ws a - value ws b < 0
    · rw [if_pos hc, if_pos ((neg_iff so).mpr (by omega))]
      exact ⟨mo, by rw [mv, sv]⟩
    · rw [if_neg hc, if_neg (fun x => hc (by have := (neg_iff so).mp x; omega))]
      exact ⟨so, by rw [sv]⟩

theorem multiply_spec (hw : 0 < ws) (g : ma.Good ws) {junk : WMem} (hj : AllW (base ws) junk) {same : Bool} {a b : Obj}
    (ha : Ok ws a) (hb : Ok ws b) (hs : same = true → a = b) :
    ∃ r, ma.multiply ws junk same a b = .ok r ∧ Ok ws r ∧ value ws r = value ws a * value ws b % value ws ma.modulus := by
  obtain ⟨t1, tv⟩ := times_spec hw hj ha hb hs
  obtain ⟨r, he, ro, rv, _⟩ := modulo_spec hw hj t1 g.okm g.pos
  obtain ⟨so, sv⟩ := assign_spec hw ma.result1 ro
  exact ⟨_, by unfold multiply; rw [he]; rfl, so, by rw [sv, rv, tv]⟩

theorem square_spec (hw : 0 < ws) (g : ma.Good ws) {junk : WMem} (hj : AllW (base ws) junk) {a : Obj} (ha : Ok ws a) :
    ∃ r, ma.square ws junk a = .ok r ∧ Ok ws r ∧ value ws r = value ws a * value ws a % value ws ma.modulus :=
  multiply_spec hw g hj ha ha (same := true) (fun _ => rfl)

end ModArith

end Verif.Integer
