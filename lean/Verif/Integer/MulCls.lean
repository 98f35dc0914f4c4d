import Verif.Integer.MulProofs4
import Verif.Integer.ClsProofs3

/-!
# `Integer` multiplication (integer.cpp:4166-4191)

The operands' word arrays, the product's array and the workspace are placed in one word memory.  The workspace is
uninitialised, so the contents of memory before the call are a parameter (`junk`).
-/
namespace Verif.Integer

/-- integer.cpp:4166-4176 `PositiveMultiply(product, a, b)`: the product's word array.  `same` says that `a` and `b` are one
object, so that `a.reg` and `b.reg` are the same pointer; the product is a different object (that is how `Times` calls it). -/
def positiveMultiply (ws : Nat) (junk : WMem) (same : Bool) (a b : Obj) : List Nat :=
  let aSize := roundupSize (wordCount a)
  let bSize := roundupSize (wordCount b)
  let pSize := roundupSize (aSize + bSize)
  let T := pSize
  let A := T + (aSize + bSize)
  let Bp := if same then A else A + a.reg.length
  let m := storeW (storeW (mZero junk 0 pSize) A a.reg) Bp b.reg
  loadW (asymmetricMultiply (base ws) m 0 T A aSize Bp bSize) 0 pSize

/-- integer.cpp:4178-4191 `Multiply(product, a, b)` and `Integer::Times`. -/
def times (ws : Nat) (junk : WMem) (same : Bool) (a b : Obj) : Obj :=
  let p : Obj := ⟨positiveMultiply ws junk same a b, false⟩
  if a.neg ≠ b.neg then negate p else p

/-- integer.h:609 `Squared()`: `Times(*this)`. -/
def squared (ws : Nat) (junk : WMem) (a : Obj) : Obj := times ws junk true a a

theorem loadW_storeW_take (m : WMem) (a : Nat) (r : List Nat) (n : Nat) (h : n ≤ r.length) :
    loadW (storeW m a r) a n = r.take n := by
  rw [← loadW_take _ _ _ _ h, loadW_storeW]

theorem wval_take_roundup {B : Nat} {x : List Nat} (hB : 0 < B) (hx : Words B x) (n : Nat) (h : countWords x ≤ n) :
    wval B (x.take n) = wval B x := by
  rcases Nat.le_total n x.length with h2 | h2
  · exact (drop_ge_countWords hB hx n h h2).1
  · rw [List.take_of_length_le h2]

theorem pow2_dvd {a b : Nat} (ha : Pow2 a) (hb : Pow2 b) (h : a ≤ b) : b % a = 0 := by
  obtain ⟨i, rfl⟩ := ha
  obtain ⟨j, rfl⟩ := hb
  have : i + 1 ≤ j + 1 := (Nat.pow_le_pow_iff_right (by omega)).mp h
  exact Nat.mod_eq_zero_of_dvd (pow_dvd_pow 2 this)

theorem base_ge {ws : Nat} (h : 0 < ws) : 256 ≤ base ws := by
  unfold base
  calc 256 = 2 ^ 8 := rfl
    _ ≤ 2 ^ (8 * ws) := Nat.pow_le_pow_right (by omega) (by omega)

theorem base_even {ws : Nat} (h : 0 < ws) : base ws % 2 = 0 := by
  unfold base
  obtain ⟨k, hk⟩ : ∃ k, 8 * ws = k + 1 := ⟨8 * ws - 1, by omega⟩
  rw [hk, pow_succ]; omega

theorem positiveMultiply_spec {ws : Nat} (hw : 0 < ws) {junk : WMem} (hj : AllW (base ws) junk) {same : Bool} {a b : Obj}
    (ha : Ok ws a) (hb : Ok ws b) (hs : same = true → a = b) :
    Ok ws ⟨positiveMultiply ws junk same a b, false⟩ ∧
      wval (base ws) (positiveMultiply ws junk same a b) = wval (base ws) a.reg * wval (base ws) b.reg := by
  have hB := base_ge hw
  have hB0 : 0 < base ws := by omega
  obtain ⟨pa, ga, ma⟩ := roundupSize_spec (wordCount a)
  obtain ⟨pb, gb, mb⟩ := roundupSize_spec (wordCount b)
  have la : roundupSize (wordCount a) ≤ a.reg.length := by
    obtain ⟨k, hk⟩ := ha.size
    rw [hk]; exact ma k (by rw [← hk]; exact countWords_le _)
  have lb : roundupSize (wordCount b) ≤ b.reg.length := by
    obtain ⟨k, hk⟩ := hb.size
    rw [hk]; exact mb k (by rw [← hk]; exact countWords_le _)
  obtain ⟨pp, gp, _⟩ := roundupSize_spec (roundupSize (wordCount a) + roundupSize (wordCount b))
  unfold positiveMultiply
  simp only
  have va : wval (base ws) (a.reg.take (roundupSize (wordCount a))) = wval (base ws) a.reg :=
    wval_take_roundup hB0 ha.words _ ga
  have vb : wval (base ws) (b.reg.take (roundupSize (wordCount b))) = wval (base ws) b.reg :=
    wval_take_roundup hB0 hb.words _ gb
  generalize hna : roundupSize (wordCount a) = na at *
  generalize hnb : roundupSize (wordCount b) = nb at *
  generalize hnp : roundupSize (na + nb) = np at *
  obtain ⟨w0, s0, v0⟩ := mZero_spec hB0 hj 0 np
  have hBp : ∃ Bp, (if same then np + (na + nb) else np + (na + nb) + a.reg.length) = Bp ∧ np + (na + nb) ≤ Bp ∧
      (same = true → Bp = np + (na + nb)) ∧ (same = false → Bp = np + (na + nb) + a.reg.length) := by
    refine ⟨_, rfl, ?_, ?_, ?_⟩
    · split <;> omega
    · intro h; rw [if_pos h]
    · intro h; rw [h]; rfl
  obtain ⟨Bp, hBpe, hBp1, hBp2, hBp3⟩ := hBp
  rw [hBpe]
  have w1 : AllW (base ws) (storeW (mZero junk 0 np) (np + (na + nb)) a.reg) := storeW_allW hB0 w0 _ ha.words
  have w2 : AllW (base ws) (storeW (storeW (mZero junk 0 np) (np + (na + nb)) a.reg) Bp b.reg) := storeW_allW hB0 w1 _ hb.words
  have mb2 : mval (base ws) (storeW (storeW (mZero junk 0 np) (np + (na + nb)) a.reg) Bp b.reg) Bp nb = wval (base ws) b.reg := by
    rw [mval, loadW_storeW_take _ _ _ _ lb, vb]
  have ma2 : mval (base ws) (storeW (storeW (mZero junk 0 np) (np + (na + nb)) a.reg) Bp b.reg) (np + (na + nb)) na
      = wval (base ws) a.reg := by
    cases same with
    | true =>
      have hab := hs rfl
      subst hab
      have : nb = na := by rw [← hna, ← hnb]
      subst this
      have hb2 := hBp2 rfl
      subst hb2
      exact mb2
    | false =>
      rw [mval_congr (m := storeW (mZero junk 0 np) (np + (na + nb)) a.reg) (fun x h1 h2 =>
        storeW_out _ _ _ _ (by have := hBp3 rfl; omega))]
      rw [mval, loadW_storeW_take _ _ _ _ la, va]
  have z2 : mval (base ws) (storeW (storeW (mZero junk 0 np) (np + (na + nb)) a.reg) Bp b.reg) 0 np = 0 := by
    rw [mval_congr (m := mZero junk 0 np) (fun x h1 h2 => by
      rw [storeW_out _ _ _ _ (by omega), storeW_out _ _ _ _ (by omega)]), v0]
  obtain ⟨w3, s3, v3⟩ := asymmetricMultiply_spec hB (base_even hw) w2 (R := 0) (T := np) (A := np + (na + nb)) (NA := na)
    (Bp := Bp) (NB := nb) (by
      rcases Nat.le_total na nb with h | h
      · exact Or.inl ⟨h, pa, pow2_dvd pa pb h⟩
      · exact Or.inr ⟨h, pb, pow2_dvd pb pa h⟩) (by omega) (by omega) (by omega) (by omega) (by omega)
  generalize storeW (storeW (mZero junk 0 np) (np + (na + nb)) a.reg) Bp b.reg = m2 at *
  generalize asymmetricMultiply (base ws) m2 0 np (np + (na + nb)) na Bp nb = m3 at *
  have hsplit := mval_add (base ws) m2 0 (na + nb) (np - (na + nb))
  rw [show na + nb + (np - (na + nb)) = np by omega, z2] at hsplit
  have hhi : mval (base ws) m2 (0 + (na + nb)) (np - (na + nb)) = 0 := by
    rcases Nat.eq_zero_or_pos (mval (base ws) m2 (0 + (na + nb)) (np - (na + nb))) with h | h
    · exact h
    · have : 0 < base ws ^ (na + nb) * mval (base ws) m2 (0 + (na + nb)) (np - (na + nb)) :=
        Nat.mul_pos (Nat.pow_pos hB0) h
      omega
  refine ⟨⟨loadW_words w3 _ _, by simpa using pp, by simp⟩, ?_⟩
  change mval (base ws) m3 0 np = _
  rw [show np = na + nb + (np - (na + nb)) by omega, mval_add, v3, mval_fr s3 (by omega) (by omega), hhi, ma2, mb2]
  simp

theorem times_spec {ws : Nat} (hw : 0 < ws) {junk : WMem} (hj : AllW (base ws) junk) {same : Bool} {a b : Obj}
    (ha : Ok ws a) (hb : Ok ws b) (hs : same = true → a = b) :
    Ok ws (times ws junk same a b) ∧ value ws (times ws junk same a b) = value ws a * value ws b := by
  obtain ⟨h1, h2⟩ := positiveMultiply_spec hw hj ha hb hs
  unfold times
  simp only
  have hv : value ws ⟨positiveMultiply ws junk same a b, false⟩ = (wval (base ws) a.reg : Int) * wval (base ws) b.reg := by
    rw [value_pos rfl]; simp only; rw [h2]; push_cast; rfl
  by_cases hn : a.neg = b.neg
  · rw [if_neg (by simpa using hn)]
    refine ⟨h1, ?_⟩
    rw [hv]
    unfold value
    rw [hn]
    split <;> ring
  · rw [if_pos (by simpa using hn)]
    obtain ⟨h3, h4⟩ := negate_spec hw h1
    refine ⟨h3, ?_⟩
    rw [h4, hv]
    unfold value
    cases ha' : a.neg <;> cases hb' : b.neg <;> simp_all

end Verif.Integer
