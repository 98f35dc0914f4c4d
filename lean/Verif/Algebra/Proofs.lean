import Verif.Algebra.Spec
import Mathlib.Algebra.Group.Basic
import Mathlib.Tactic.Abel
import Mathlib.Tactic.Ring
import Mathlib.Tactic.Linarith

namespace Verif.Algebra
open Verif.Misc

variable {S E : Type} {Inv : S → Prop}

theorem Post.bind {α β : Type} {m : M S α} {f : α → M S β} {P : α → Prop} {Q : β → Prop} (h : Post Inv m P)
    (hf : ∀ a, P a → Post Inv (f a) Q) : Post Inv (m >>= f) Q := by
  intro s hs
  obtain ⟨a, s', h1, h2, h3⟩ := h s hs
  obtain ⟨b, s'', k1, k2, k3⟩ := hf a h3 s' h2
  refine ⟨b, s'', ?_, k2, k3⟩
  show (m s >>= fun p => f p.1 p.2) = _
  rw [h1]; exact k1

theorem Post.pure {α : Type} {a : α} {P : α → Prop} (h : P a) : Post Inv (pure a : M S α) P :=
  fun s hs => ⟨a, s, rfl, hs, h⟩

theorem Post.mono {α : Type} {m : M S α} {P Q : α → Prop} (h : Post Inv m P) (hpq : ∀ a, P a → Q a) : Post Inv m Q := by
  intro s hs
  obtain ⟨a, s', h1, h2, h3⟩ := h s hs
  exact ⟨a, s', h1, h2, hpq a h3⟩

theorem at_post {l : List E} {i : Nat} (h : i < l.length) {P : E → Prop} (hp : P l[i]) : Post Inv (at' l i : M S E) P := by
  unfold at'
  rw [List.getElem?_eq_getElem h]
  exact Post.pure hp

/-! ## Buckets -/

variable {G : Type} [AddCommMonoid G]

/-- `Σ_{i<k} (2i+1) • gs i`. -/
def wsum (gs : Nat → G) : Nat → G
  | 0 => 0
  | k + 1 => wsum gs k + (2 * k + 1) • gs k

theorem wsum_congr {gs hs : Nat → G} : ∀ {k : Nat}, (∀ i < k, gs i = hs i) → wsum gs k = wsum hs k
  | 0, _ => rfl
  | k + 1, h => by
    unfold wsum
    rw [wsum_congr (fun i hi => h i (by omega)), h k (by omega)]

theorem wsum_zero : ∀ k, wsum (fun _ => (0 : G)) k = 0
  | 0 => rfl
  | k + 1 => by unfold wsum; rw [wsum_zero k]; simp

/-- `gs` with one entry increased. -/
def bump (gs : Nat → G) (j : Nat) (v : G) : Nat → G := fun i => if i = j then gs j + v else gs i

theorem wsum_bump (gs : Nat → G) (j : Nat) (v : G) : ∀ k, j < k → wsum (bump gs j v) k = wsum gs k + (2 * j + 1) • v
  | 0, h => by omega
  | k + 1, h => by
    unfold wsum
    by_cases hj : j = k
    · subst hj
      rw [wsum_congr (hs := gs) (fun i hi => by unfold bump; rw [if_neg (by omega)])]
      have : bump gs j v j = gs j + v := by unfold bump; rw [if_pos rfl]
      rw [this, nsmul_add]; abel
    · rw [wsum_bump gs j v k (by omega)]
      have : bump gs j v k = gs k := by unfold bump; rw [if_neg (by omega)]
      rw [this]; abel

/-- The buckets stand for `gs`. -/
def Bk (Rep : E → G → Prop) (bs : List E) (gs : Nat → G) : Prop := ∀ i (h : i < bs.length), Rep bs[i] (gs i)

theorem Bk.set {Rep : E → G → Prop} {bs : List E} {gs : Nat → G} (h : Bk Rep bs gs) {j : Nat} {b : E} {v : G} (hb : Rep b (gs j + v)) :
    Bk Rep (bs.set j b) (bump gs j v) := by
  intro i hi
  rw [List.length_set] at hi
  rw [List.getElem_set]
  unfold bump
  by_cases hj : j = i
  · subst hj; rw [if_pos rfl, if_pos rfl]; exact hb
  · rw [if_neg hj, if_neg (fun h => hj h.symm)]; exact h i hi

variable {grp : Grp S E} {Rep Ref Src : E → G → Prop}

theorem Laws.src (L : Laws grp Inv Rep Ref Src) {e : E} {x : G} (h : Rep e x) : Src e x := L.toSrc (L.toRef h)

theorem combLoop_spec (L : Laws grp Inv Rep Ref Src) : ∀ (j : Nat) (bs : List E) (gs : Nat → G) (r : E) (x : G), j + 1 < bs.length →
    Bk Rep bs gs → Rep r x →
    Post Inv (combLoop grp j bs r) (fun p => p.1.length = bs.length ∧ ∃ gs' x', Bk Rep p.1 gs' ∧ Rep p.2 x' ∧
      2 • x' + gs' 1 + gs' 0 = 2 • x + (2 * j + 1) • gs (j + 1) + wsum gs (j + 1))
  | 0, bs, gs, r, x, hj, hb, hr => by
    refine Post.pure ⟨rfl, gs, x, hb, hr, ?_⟩
    simp [wsum, one_nsmul]
  | j + 1, bs, gs, r, x, hj, hb, hr => by
    refine Post.bind (at_post (P := fun b => Rep b (gs (j + 1))) (by omega) (hb _ (by omega))) fun b h1 => ?_
    refine Post.bind (at_post (P := fun b => Rep b (gs (j + 2))) (by omega) (hb _ (by omega))) fun c h2 => ?_
    refine Post.bind (L.acc h1 (L.src h2)) fun b' h3 => ?_
    refine Post.bind (L.acc hr (L.src h3)) fun r' h4 => ?_
    refine (combLoop_spec L j (bs.set (j + 1) b') (bump gs (j + 1) (gs (j + 2))) r' _ (by rw [List.length_set]; omega) (hb.set h3) h4).mono ?_
    rintro ⟨bs', r''⟩ ⟨k1, gs', x', k2, k3, k4⟩
    refine ⟨by rw [k1, List.length_set], gs', x', k2, k3, ?_⟩
    rw [k4]
    have e1 : bump gs (j + 1) (gs (j + 2)) (j + 1) = gs (j + 1) + gs (j + 2) := by unfold bump; rw [if_pos rfl]
    have e2 : wsum (bump gs (j + 1) (gs (j + 2))) (j + 1) = wsum gs (j + 1) :=
      wsum_congr (fun i hi => by unfold bump; rw [if_neg (by omega)])
    rw [e1, e2]
    show _ = 2 • x + (2 * (j + 1) + 1) • gs (j + 2) + (wsum gs (j + 1) + (2 * (j + 1) + 1) • gs (j + 1))
    have e3 : 2 * (j + 1) + 1 = 2 + (2 * j + 1) := by ring
    rw [e3]
    simp only [add_nsmul, nsmul_add]
    abel

theorem combine_spec (L : Laws grp Inv Rep Ref Src) {bs : List E} {gs : Nat → G} (hl : 0 < bs.length) (hb : Bk Rep bs gs) :
    Post Inv (combine grp bs) (fun r => Rep r (wsum gs bs.length)) := by
  unfold combine
  refine Post.bind (at_post (P := fun b => Rep b (gs (bs.length - 1))) (by omega) (hb _ (by omega))) fun l h1 => ?_
  have h2 := L.cp (L.toRef h1)
  simp only
  split
  · rename_i hgt
    refine Post.bind (combLoop_spec L (bs.length - 2) bs gs _ _ (by omega) hb h2) ?_
    rintro ⟨bs', r⟩ ⟨k1, gs', x', k2, k3, k4⟩
    simp only at k1 k2 k3 ⊢
    refine Post.bind (at_post (P := fun b => Rep b (gs' 0)) (by omega) (k2 _ (by omega))) fun b0 h3 => ?_
    refine Post.bind (at_post (P := fun b => Rep b (gs' 1)) (by omega) (k2 _ (by omega))) fun b1 h4 => ?_
    refine Post.bind (L.acc h3 (L.src h4)) fun b0' h5 => ?_
    refine Post.bind (L.dbl (L.src k3)) fun d h6 => ?_
    refine Post.bind (L.add h6 h5) fun res h7 => ?_
    refine Post.pure ?_
    have e : x' + x' + (gs' 0 + gs' 1) = wsum gs bs.length := by
      obtain ⟨k, hk⟩ : ∃ k, bs.length = k + 2 := ⟨bs.length - 2, by omega⟩
      rw [hk] at k4 ⊢
      simp only [Nat.add_sub_cancel] at k4
      show _ = wsum gs (k + 1) + (2 * (k + 1) + 1) • gs (k + 1)
      have e2 : k + 2 - 1 = k + 1 := by omega
      rw [e2] at k4
      rw [two_nsmul, two_nsmul] at k4
      have e3 : 2 * (k + 1) + 1 = 1 + 1 + (2 * k + 1) := by ring
      rw [e3, add_nsmul, add_nsmul, one_nsmul]
      have : x' + x' + (gs' 0 + gs' 1) = x' + x' + gs' 1 + gs' 0 := by abel
      rw [this, k4]; abel
    rw [← e]; exact L.cp h7
  · rename_i hgt
    have : bs.length = 1 := by omega
    rw [this] at h2 ⊢
    refine Post.pure ?_
    show Rep _ (wsum gs 0 + (2 * 0 + 1) • gs 0)
    simpa [wsum, one_nsmul] using h2

/-! ## The sliding window -/

theorem skipZeros_spec (exp expLen : Nat) : ∀ skip,
    match skipZeros exp expLen skip with
    | none => ∀ i, skip ≤ i → i ≤ expLen → exp.testBit i = false
    | some k => skip ≤ k ∧ exp.testBit k = true ∧ ∀ i, skip ≤ i → i < k → exp.testBit i = false := by
  intro skip
  induction hn : expLen - skip generalizing skip with
  | zero =>
    unfold skipZeros
    by_cases h : exp.testBit skip
    · rw [if_pos h]; exact ⟨Nat.le_refl _, h, fun i h1 h2 => by omega⟩
    · rw [if_neg h, if_pos (by omega)]
      intro i h1 h2
      have : i = skip := by omega
      subst this; simpa using h
  | succ n ih =>
    unfold skipZeros
    by_cases h : exp.testBit skip
    · rw [if_pos h]; exact ⟨Nat.le_refl _, h, fun i h1 h2 => by omega⟩
    · rw [if_neg h, if_neg (by omega)]
      have := ih (skip + 1) (by omega)
      revert this
      cases skipZeros exp expLen (skip + 1) with
      | none =>
        intro h2 i h3 h4
        by_cases hi : i = skip
        · subst hi; simpa using h
        · exact h2 i (by omega) h4
      | some k =>
        rintro ⟨h2, h3, h4⟩
        refine ⟨by omega, h3, fun i h5 h6 => ?_⟩
        by_cases hi : i = skip
        · subst hi; simpa using h
        · exact h4 i (by omega) h6

theorem shift_of_zeros {exp skip k : Nat} (h : skip ≤ k) (hz : ∀ i, skip ≤ i → i < k → exp.testBit i = false) :
    exp / 2 ^ skip = exp / 2 ^ k * 2 ^ (k - skip) := by
  induction k with
  | zero => have : skip = 0 := by omega
            subst this; simp
  | succ k ih =>
    by_cases hs : skip = k + 1
    · subst hs; simp
    · rw [ih (by omega) (fun i h1 h2 => hz i h1 (by omega))]
      have hb := hz k (by omega) (by omega)
      rw [Nat.testBit_eq_decide_div_mod_eq] at hb
      have hb' : exp / 2 ^ k % 2 = 0 := by
        have := of_decide_eq_false hb; omega
      have e1 : exp / 2 ^ (k + 1) = exp / 2 ^ k / 2 := by rw [Nat.pow_succ, Nat.div_div_eq_div_mul]
      have e2 : k + 1 - skip = (k - skip) + 1 := by omega
      rw [e1, e2, Nat.pow_succ]
      have : exp / 2 ^ k = exp / 2 ^ k / 2 * 2 := by omega
      calc exp / 2 ^ k * 2 ^ (k - skip) = (exp / 2 ^ k / 2 * 2) * 2 ^ (k - skip) := by rw [← this]
        _ = _ := by ring

theorem zero_of_zeros {exp L skip : Nat} (hL : exp < 2 ^ L) (hz : ∀ i, skip ≤ i → i ≤ L → exp.testBit i = false) : exp / 2 ^ skip = 0 := by
  by_cases h : skip ≤ L
  · rw [shift_of_zeros h (fun i h1 h2 => hz i h1 (by omega)), Nat.div_eq_of_lt hL, Nat.zero_mul]
  · exact Nat.div_eq_of_lt (Nat.lt_of_lt_of_le hL (Nat.pow_le_pow_right (by decide) (by omega)))

/-- What remains of the exponent above the current window. -/
def Slider.rest (s : Slider) : Nat := s.exp / 2 ^ s.windowSize * 2 ^ s.windowSize

/-- A slider in the middle of its work, with a window pending. -/
structure Pending (L : Nat) (s : Slider) : Prop where
  win : 0 < s.windowSize
  first : s.firstTime = false
  odd : s.expWindow % 2 = 1
  lt : s.expWindow < 2 ^ s.windowSize
  bound : s.rest * 2 ^ s.windowBegin ≤ 2 ^ L
  begin' : s.windowBegin ≤ L
  neg : s.negateNext = true → s.fastNegate = true

/-- `FindNextWindow`: `R` is what remained of the exponent in units of `2^windowBegin`. -/
theorem next_spec {wb : Nat} (hwb : 0 < wb) {L : Nat} {s : Slider} (hw : 0 < s.windowSize) (hf : s.finished = false) {R : Nat}
    (hR : if s.firstTime then R = s.exp else R = s.rest) (hb : R * 2 ^ s.windowBegin ≤ 2 ^ L) :
    (s.next wb).windowSize = s.windowSize ∧ (s.next wb).fastNegate = s.fastNegate ∧
    (((s.next wb).finished = true ∧ R = 0) ∨
     ((s.next wb).finished = false ∧ s.windowBegin ≤ (s.next wb).windowBegin ∧
      (s.firstTime = false → s.windowBegin < (s.next wb).windowBegin) ∧ Pending L (s.next wb) ∧
      R * 2 ^ s.windowBegin + (if (s.next wb).negateNext then (s.next wb).expWindow * 2 ^ (s.next wb).windowBegin else 0) =
        (s.next wb).rest * 2 ^ (s.next wb).windowBegin +
        (if (s.next wb).negateNext then 0 else (s.next wb).expWindow * 2 ^ (s.next wb).windowBegin))) := by
  set sk := if s.firstTime then 0 else s.windowSize with hsk
  have hR' : R = s.exp / 2 ^ sk * 2 ^ sk := by
    rw [hsk]; cases hft : s.firstTime
    · rw [hft] at hR; exact hR
    · rw [hft] at hR; simpa using hR
  have hlen : s.exp < 2 ^ ((bitLen s.exp + wb - 1) / wb * wb) := by
    refine Nat.lt_of_lt_of_le (bitLen_lt s.exp) (Nat.pow_le_pow_right (by decide) ?_)
    have h1 := Nat.div_add_mod (bitLen s.exp + wb - 1) wb
    have h2 := Nat.mod_lt (bitLen s.exp + wb - 1) hwb
    rw [Nat.mul_comm] at h1
    omega
  have hz := skipZeros_spec s.exp ((bitLen s.exp + wb - 1) / wb * wb) sk
  unfold Slider.next
  simp only [← hsk]
  revert hz
  cases hsz : skipZeros s.exp ((bitLen s.exp + wb - 1) / wb * wb) sk with
  | none =>
    intro hz
    refine ⟨rfl, rfl, Or.inl ⟨rfl, ?_⟩⟩
    rw [hR', zero_of_zeros hlen hz, Nat.zero_mul]
  | some k =>
    rintro ⟨h1, h2, h3⟩
    have e1 := shift_of_zeros h1 h3
    set q := s.exp / 2 ^ k with hq
    have hqs : s.exp >>> k = q := by rw [Nat.shiftRight_eq_div_pow]
    have hodd : q % 2 = 1 := by
      rw [Nat.testBit_eq_decide_div_mod_eq] at h2
      exact of_decide_eq_true h2
    have hRq : R = q * 2 ^ k := by
      rw [hR', e1, Nat.mul_assoc, ← Nat.pow_add]; congr 2; omega
    have hwin : q % 2 ^ s.windowSize % 2 = 1 := by
      obtain ⟨t, ht⟩ : ∃ t, s.windowSize = t + 1 := ⟨s.windowSize - 1, by omega⟩
      rw [ht, Nat.pow_succ, Nat.mul_comm, Nat.mod_mul_right_mod]; exact hodd
    have hwlt : q % 2 ^ s.windowSize < 2 ^ s.windowSize := Nat.mod_lt _ (Nat.two_pow_pos _)
    have hdm := Nat.div_add_mod q (2 ^ s.windowSize)
    have hb2 : q * 2 ^ (s.windowBegin + k) ≤ 2 ^ L := by
      calc q * 2 ^ (s.windowBegin + k) = R * 2 ^ s.windowBegin := by rw [hRq, Nat.pow_add]; ring
        _ ≤ _ := hb
    have hbeg : s.windowBegin + k ≤ L := by
      have h5 : 1 * 2 ^ (s.windowBegin + k) ≤ q * 2 ^ (s.windowBegin + k) := Nat.mul_le_mul_right _ (by omega)
      exact (Nat.pow_le_pow_iff_right (by decide : 1 < 2)).1 (by omega)
    have hRe : R * 2 ^ s.windowBegin = q * 2 ^ (s.windowBegin + k) := by rw [hRq, Nat.pow_add]; ring
    have hstrict : s.firstTime = false → s.windowBegin < s.windowBegin + k := by
      intro hft; rw [hft] at hsk
      have : sk = s.windowSize := hsk
      omega
    simp only [hqs]
    by_cases hneg : (s.fastNegate && q.testBit s.windowSize) = true
    · simp only [if_pos hneg]
      rw [Bool.and_eq_true] at hneg
      obtain ⟨hn1, hn2⟩ := hneg
      have hrest : (q + 2 ^ s.windowSize) / 2 ^ s.windowSize * 2 ^ s.windowSize = q / 2 ^ s.windowSize * 2 ^ s.windowSize + 2 ^ s.windowSize := by
        rw [Nat.add_div_right _ (Nat.two_pow_pos _)]; ring
      have hbnd : (q / 2 ^ s.windowSize * 2 ^ s.windowSize + 2 ^ s.windowSize) * 2 ^ (s.windowBegin + k) ≤ 2 ^ L := by
        -- q + (something positive) is the next multiple of 2^windowSize, and 2^(L-begin) is such a multiple
        obtain ⟨d, hd⟩ : ∃ d, L = s.windowBegin + k + d := ⟨L - (s.windowBegin + k), by omega⟩
        have hq2 : q ≤ 2 ^ d := by
          rw [hd, Nat.pow_add 2 (s.windowBegin + k), Nat.mul_comm] at hb2
          exact Nat.le_of_mul_le_mul_left hb2 (Nat.two_pow_pos _)
        have hqge : 2 ^ s.windowSize ≤ q := Nat.ge_two_pow_of_testBit hn2
        have hwd : s.windowSize ≤ d := (Nat.pow_le_pow_iff_right (by decide : 1 < 2)).1 (by omega)
        obtain ⟨f, hf'⟩ : ∃ f, d = s.windowSize + f := ⟨d - s.windowSize, by omega⟩
        have hq3 : q < 2 ^ d := by
          rcases Nat.lt_or_ge q (2 ^ d) with h | h
          · exact h
          · have : q = 2 ^ d := by omega
            have hd0 : 0 < d := by omega
            rw [this] at hodd
            obtain ⟨d', rfl⟩ : ∃ d', d = d' + 1 := ⟨d - 1, by omega⟩
            rw [Nat.pow_succ] at hodd; omega
        have hq4 : q / 2 ^ s.windowSize < 2 ^ f := by
          apply Nat.div_lt_of_lt_mul
          rw [← Nat.pow_add, ← hf']; exact hq3
        rw [hd, Nat.pow_add 2 (s.windowBegin + k), Nat.mul_comm (2 ^ (s.windowBegin + k))]
        apply Nat.mul_le_mul_right
        rw [hf', Nat.pow_add]
        calc q / 2 ^ s.windowSize * 2 ^ s.windowSize + 2 ^ s.windowSize = 2 ^ s.windowSize * (q / 2 ^ s.windowSize + 1) := by ring
          _ ≤ _ := Nat.mul_le_mul_left _ hq4
      refine ⟨trivial, trivial, Or.inr ⟨hf, by omega, hstrict, ⟨hw, rfl, ?_, ?_, ?_, hbeg, fun _ => hn1⟩, ?_⟩⟩
      · show (2 ^ s.windowSize - q % 2 ^ s.windowSize) % 2 = 1
        obtain ⟨t, ht⟩ : ∃ t, s.windowSize = t + 1 := ⟨s.windowSize - 1, by omega⟩
        have : 2 ^ s.windowSize % 2 = 0 := by rw [ht, Nat.pow_succ]; omega
        omega
      · show 2 ^ s.windowSize - q % 2 ^ s.windowSize < 2 ^ s.windowSize
        have : 0 < q % 2 ^ s.windowSize := by omega
        omega
      · show (q + 2 ^ s.windowSize) / 2 ^ s.windowSize * 2 ^ s.windowSize * 2 ^ (s.windowBegin + k) ≤ 2 ^ L
        rw [hrest]; exact hbnd
      · show R * 2 ^ s.windowBegin + (2 ^ s.windowSize - q % 2 ^ s.windowSize) * 2 ^ (s.windowBegin + k) =
          (q + 2 ^ s.windowSize) / 2 ^ s.windowSize * 2 ^ s.windowSize * 2 ^ (s.windowBegin + k) + 0
        rw [hRe, hrest, ← Nat.add_mul, Nat.add_zero]
        congr 1
        rw [Nat.mul_comm] at hdm
        omega
    · simp only [if_neg hneg]
      refine ⟨trivial, trivial, Or.inr ⟨hf, by omega, hstrict, ⟨hw, rfl, hwin, hwlt, ?_, hbeg, fun h => by simp at h⟩, ?_⟩⟩
      · show q / 2 ^ s.windowSize * 2 ^ s.windowSize * 2 ^ (s.windowBegin + k) ≤ 2 ^ L
        refine Nat.le_trans (Nat.mul_le_mul_right _ ?_) hb2
        rw [Nat.mul_comm]; exact Nat.mul_div_le _ _
      · show R * 2 ^ s.windowBegin + 0 = q / 2 ^ s.windowSize * 2 ^ s.windowSize * 2 ^ (s.windowBegin + k) +
          q % 2 ^ s.windowSize * 2 ^ (s.windowBegin + k)
        rw [hRe, ← Nat.add_mul, Nat.add_zero]
        congr 1
        rw [Nat.mul_comm] at hdm
        omega

end Verif.Algebra
