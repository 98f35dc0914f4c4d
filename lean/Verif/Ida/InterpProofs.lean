import Verif.Ida.Interp
import Mathlib.LinearAlgebra.Lagrange

/-! # The bulk interpolation evaluates the interpolating polynomial -/
namespace Verif.Ida
open Polynomial Finset

variable {E F : Type} [Field F] {R : RingOps E} {φ : E → F}

/-- The ring operations are those of a field, seen through `φ`. -/
structure Models (R : RingOps E) (φ : E → F) : Prop where
  inj : Function.Injective φ
  zero : φ R.zero = 0
  one : φ R.one = 1
  add : ∀ a b, φ (R.add a b) = φ a + φ b
  sub : ∀ a b, φ (R.sub a b) = φ a - φ b
  mul : ∀ a b, φ (R.mul a b) = φ a * φ b
  inv : ∀ a, ∃ b, R.inv a = .ok b ∧ φ b = (φ a)⁻¹

/-- The value of `x[i]`. -/
def at' (φ : E → F) (x : List E) (i : Nat) : F := match x[i]? with | some e => φ e | none => 0

theorem othersProd_spec (h : Models R φ) (xi : E) (i : Nat) (xs : List E) : ∀ (j : Nat) (t : E),
    φ (othersProd R xi i j xs t) = φ t * ∏ k ∈ (range xs.length).filter (fun k => j + k ≠ i), (φ xi - at' φ xs k) := by
  induction xs with
  | nil => intro j t; simp [othersProd]
  | cons x xs ih =>
    intro j t
    rw [othersProd, ih, List.length_cons, Finset.prod_filter, Finset.prod_filter, Finset.prod_range_succ']
    have e : ∀ k, at' φ (x :: xs) (k + 1) = at' φ xs k := fun k => by simp [at']
    have e0 : at' φ (x :: xs) 0 = φ x := by simp [at']
    have c : ∀ k, j + 1 + k = j + (k + 1) := fun k => by omega
    simp only [e, e0, c, Nat.add_zero]
    by_cases hij : i = j
    · subst hij; simp
    · rw [if_pos hij, if_pos (fun h => hij h.symm), h.mul, h.sub]; ring

theorem prepareLoop_spec (h : Models R φ) (x : List E) (xs : List E) : ∀ (i : Nat), xs = x.drop i →
    ∃ w, prepareLoop R x i xs = .ok w ∧ w.length = xs.length ∧
      ∀ k, k < xs.length → at' φ w k = (∏ j ∈ (range x.length).filter (fun j => j ≠ i + k), (at' φ x (i + k) - at' φ x j))⁻¹ := by
  induction xs with
  | nil => intro i _; exact ⟨[], rfl, rfl, fun k hk => absurd hk (Nat.not_lt_zero _)⟩
  | cons xi xs ih =>
    intro i hx
    have h1 : x[i]? = some xi := by
      have := congrArg (fun l => l[0]?) hx
      simpa [List.getElem?_drop] using this.symm
    have h2 : xs = x.drop (i + 1) := by
      have := congrArg List.tail hx
      simpa [List.tail_drop] using this
    obtain ⟨b, hb, hb'⟩ := h.inv (othersProd R xi i 0 x R.one)
    obtain ⟨w, hw, hl, hk⟩ := ih (i + 1) h2
    refine ⟨b :: w, by simp [prepareLoop, hb, hw], by simp [hl], ?_⟩
    intro k hk'
    cases k with
    | zero =>
      have : at' φ (b :: w) 0 = φ b := by simp [at']
      rw [this, hb', othersProd_spec h, h.one, one_mul]
      have : at' φ x (i + 0) = φ xi := by simp [at', h1]
      rw [this]
      simp only [Nat.zero_add, Nat.add_zero]
    | succ k =>
      have : at' φ (b :: w) (k + 1) = at' φ w k := by simp [at']
      rw [this, hk k (by simpa using hk')]
      have : i + 1 + k = i + (k + 1) := by omega
      rw [this]

/-- `prepare` succeeds and gives the reciprocals of the products of differences. -/
theorem prepare_spec (h : Models R φ) (x : List E) : ∃ w, prepare R x = .ok w ∧ w.length = x.length ∧
    ∀ k, k < x.length → at' φ w k = (∏ j ∈ (range x.length).erase k, (at' φ x k - at' φ x j))⁻¹ := by
  obtain ⟨w, e, l, hk⟩ := prepareLoop_spec h x x 0 rfl
  refine ⟨w, e, l, fun k hk' => ?_⟩
  rw [hk k hk', Nat.zero_add]
  congr 1
  apply Finset.prod_congr
  · ext j; simp [and_comm]
  · intros; rfl

/-! ## The product tree -/

/-- The product over the leaves below position `k` of the heap with leaves `L 0 .. L (n-1)` at `n-1 ..`. -/
def P (n : Nat) (L : Nat → F) (k : Nat) : F := if n - 1 ≤ k then L (k - (n - 1)) else P n L (2 * k + 1) * P n L (2 * k + 2)
termination_by n - 1 - k

theorem P_leaf (n : Nat) (L : Nat → F) (i : Nat) : P n L (n - 1 + i) = L i := by
  rw [P, if_pos (by omega)]; congr 1; omega

theorem P_node (n : Nat) (L : Nat → F) (k : Nat) (h : k < n - 1) : P n L k = P n L (2 * k + 1) * P n L (2 * k + 2) := by
  rw [P, if_neg (by omega)]

theorem frontier (n : Nat) (L : Nat → F) (k : Nat) (hk : k ≤ n - 1) : ∏ j ∈ Ico k (2 * k + 1), P n L j = P n L 0 := by
  induction k with
  | zero => simp
  | succ k ih =>
    rw [← ih (by omega)]
    rw [Finset.prod_eq_prod_Ico_succ_bot (show k < 2 * k + 1 by omega), P_node n L k (by omega)]
    have : 2 * (k + 1) + 1 = (2 * k + 2) + 1 := by omega
    rw [this, Finset.prod_Ico_succ_top (by omega), Finset.prod_Ico_succ_top (by omega)]
    ring

theorem P_root (n : Nat) (hn : 0 < n) (L : Nat → F) : P n L 0 = ∏ i ∈ range n, L i := by
  rw [← frontier n L (n - 1) (Nat.le_refl _)]
  have : 2 * (n - 1) + 1 = (n - 1) + n := by omega
  rw [this, Finset.prod_Ico_eq_prod_range]
  have : n - 1 + n - (n - 1) = n := by omega
  rw [this]
  exact Finset.prod_congr rfl (fun i _ => P_leaf n L i)

/-- What pass two leaves at position `k`: the product of the leaves not below `k`. -/
def C (n : Nat) (L : Nat → F) (k : Nat) : F :=
  if h : k = 0 then 1 else C n L ((k - 1) / 2) * P n L (if k % 2 = 1 then k + 1 else k - 1)
termination_by k
decreasing_by omega

theorem C_zero (n : Nat) (L : Nat → F) : C n L 0 = 1 := by rw [C]; simp
theorem C_left (n : Nat) (L : Nat → F) (i : Nat) : C n L (2 * i + 1) = C n L i * P n L (2 * i + 2) := by
  rw [C, dif_neg (by omega), if_pos (by omega)]
  have : (2 * i + 1 - 1) / 2 = i := by omega
  rw [this]
theorem C_right (n : Nat) (L : Nat → F) (i : Nat) : C n L (2 * i + 2) = C n L i * P n L (2 * i + 1) := by
  rw [C, dif_neg (by omega), if_neg (by omega)]
  have : (2 * i + 2 - 1) / 2 = i := by omega
  rw [this]; rfl

theorem C_mul_P (n : Nat) (L : Nat → F) (k : Nat) (hk : k ≤ 2 * (n - 1)) : C n L k * P n L k = P n L 0 := by
  induction k using Nat.strongRecOn with
  | _ k ih =>
    rcases Nat.eq_zero_or_pos k with rfl | hpos
    · rw [C_zero, one_mul]
    · obtain ⟨i, hi | hi⟩ : ∃ i, k = 2 * i + 1 ∨ k = 2 * i + 2 := ⟨(k - 1) / 2, by omega⟩
      · subst hi; rw [C_left, mul_assoc, mul_comm (P n L (2 * i + 2)), ← P_node n L i (by omega)]; exact ih i (by omega) (by omega)
      · subst hi; rw [C_right, mul_assoc, ← P_node n L i (by omega)]; exact ih i (by omega) (by omega)

theorem leaves_spec (h : Models R φ) (position : E) (n : Nat) (xs : List E) : ∀ (i : Nat) (a : Nat → E) (k : Nat),
    φ (leaves R position n i xs a k) = if n - 1 + i ≤ k ∧ k < n - 1 + i + xs.length then φ position - at' φ xs (k - (n - 1 + i)) else φ (a k) := by
  induction xs with
  | nil => intro i a k; rw [leaves, if_neg (by simp)]
  | cons x xs ih =>
    intro i a k
    rw [leaves, ih, List.length_cons]
    by_cases h1 : k = n - 1 + i
    · rw [if_neg (by omega), if_pos (by omega), h1, Nat.sub_self]
      simp [upd, h.sub, at']
    · by_cases h2 : n - 1 + (i + 1) ≤ k ∧ k < n - 1 + (i + 1) + xs.length
      · rw [if_pos h2, if_pos (by omega)]
        obtain ⟨d, hd⟩ : ∃ d, k - (n - 1 + i) = d + 1 := ⟨k - (n - 1 + i) - 1, by omega⟩
        have : k - (n - 1 + (i + 1)) = d := by omega
        rw [this, hd]; simp [at']
      · rw [if_neg h2, if_neg (by omega)]
        simp [upd, h1]

theorem up_spec (h : Models R φ) (n : Nat) (L : Nat → F) (i : Nat) : ∀ (a : Nat → E), i ≤ n - 1 →
    (∀ k, i ≤ k → k ≤ 2 * (n - 1) → φ (a k) = P n L k) → ∀ k, 1 ≤ k → k ≤ 2 * (n - 1) → φ (up R i a k) = P n L k := by
  induction i with
  | zero => intro a _ ha k _ h2; exact ha k (by omega) h2
  | succ i ih =>
    intro a hi ha k h1 h2
    rw [up]
    by_cases hc : 1 < i + 1
    · rw [if_pos hc]
      apply ih _ (by omega) _ k h1 h2
      intro k hk1 hk2
      unfold upd
      by_cases he : k = i + 1 - 1
      · rw [if_pos he, h.mul, ha _ (by omega) (by omega), ha _ (by omega) (by omega), he, P_node n L (i + 1 - 1) (by omega)]
        have e1 : 2 * (i + 1) = 2 * (i + 1 - 1) + 2 := by omega
        have e2 : 2 * (i + 1) - 1 = 2 * (i + 1 - 1) + 1 := by omega
        rw [e2, e1, mul_comm]
      · rw [if_neg he]; exact ha k (by omega) hk2
    · rw [if_neg hc]; exact ha k (by omega) h2

theorem down_spec (h : Models R φ) (n : Nat) (L : Nat → F) (a : Nat → E) (h0 : φ (a 0) = 1)
    (ha : ∀ k, 1 ≤ k → k ≤ 2 * (n - 1) → φ (a k) = P n L k) (m : Nat) : m ≤ n - 1 →
    (∀ k, k ≤ 2 * m → φ (down R m a k) = C n L k) ∧ (∀ k, 2 * m < k → k ≤ 2 * (n - 1) → φ (down R m a k) = P n L k) := by
  induction m with
  | zero =>
    intro _
    refine ⟨fun k hk => ?_, fun k h1 h2 => ha k (by omega) h2⟩
    have : k = 0 := by omega
    subst this
    rw [down, h0, C_zero]
  | succ m ih =>
    intro hm
    obtain ⟨i1, i2⟩ := ih (by omega)
    have hi := i1 m (by omega)
    have hl := i2 (2 * m + 1) (by omega) (by omega)
    have hr := i2 (2 * m + 2) (by omega) (by omega)
    have other : ∀ k, k ≠ 2 * m + 1 → k ≠ 2 * m + 2 → down R (m + 1) a k = down R m a k := by
      intro k h1 h2; simp [down, downStep, upd, h1, h2]
    have left : φ (down R (m + 1) a (2 * m + 1)) = C n L (2 * m + 1) := by
      have : down R (m + 1) a (2 * m + 1) = R.mul (down R m a m) (down R m a (2 * m + 2)) := by
        simp only [down, downStep, upd]
        have g1 : 2 * m + 1 ≠ 2 * m + 2 := by omega
        have g3 : m ≠ 2 * m + 1 := by omega
        have g4 : m ≠ 2 * m + 2 := by omega
        simp only [g1, g3, g4, if_false, if_true]
      rw [this, h.mul, hi, hr, C_left]
    have right : φ (down R (m + 1) a (2 * m + 2)) = C n L (2 * m + 2) := by
      have : down R (m + 1) a (2 * m + 2) = R.mul (down R m a m) (down R m a (2 * m + 1)) := by
        simp only [down, downStep, upd]
        have g1 : 2 * m + 1 ≠ 2 * m + 2 := by omega
        have g3 : m ≠ 2 * m + 1 := by omega
        have g4 : m ≠ 2 * m + 2 := by omega
        simp only [g1, g1.symm, g3, g4, if_false, if_true]
      rw [this, h.mul, hi, hl, C_right]
    refine ⟨fun k hk => ?_, fun k h1 h2 => ?_⟩
    · rcases Nat.lt_or_ge (2 * m) k with hk1 | hk1
      · have : k = 2 * m + 1 ∨ k = 2 * m + 2 := by omega
        rcases this with rfl | rfl
        · exact left
        · exact right
      · rw [other k (by omega) (by omega)]; exact i1 k hk1
    · rw [other k (by omega) (by omega)]; exact i2 k (by omega) h2

theorem prepareAt_spec (h : Models R φ) (position : E) (x w : List E) (hn : 0 < x.length) (hw : w.length = x.length)
    (hne : ∀ i, i < x.length → at' φ x i ≠ φ position) (i : Nat) (hi : i < x.length) :
    at' φ (prepareAt R position x w) i = (∏ j ∈ (range x.length).erase i, (φ position - at' φ x j)) * at' φ w i := by
  obtain ⟨n, hnx⟩ : ∃ n, n = x.length := ⟨_, rfl⟩
  obtain ⟨L, hL⟩ : ∃ L : Nat → F, L = fun j => φ position - at' φ x j := ⟨_, rfl⟩
  unfold prepareAt
  simp only
  rw [← hnx] at hn hw hne hi ⊢
  have h1 : ∀ k, n - 1 ≤ k → k ≤ 2 * (n - 1) → φ (leaves R position n 0 x (fun _ => R.zero) k) = P n L k := by
    intro k hk1 hk2
    rw [leaves_spec h, if_pos (by omega), P, if_pos hk1, hL]
    rfl
  have h2 := up_spec h n L (n - 1) _ (Nat.le_refl _) h1
  obtain ⟨a, hadef⟩ : ∃ a, a = upd (up R (n - 1) (leaves R position n 0 x fun _ => R.zero)) 0 R.one := ⟨_, rfl⟩
  have h3 : φ (a 0) = 1 := by rw [hadef]; simp [upd, h.one]
  have h4 : ∀ k, 1 ≤ k → k ≤ 2 * (n - 1) → φ (a k) = P n L k := by
    intro k hk1 hk2
    rw [hadef]; simp only [upd]; rw [if_neg (by omega)]; exact h2 k hk1 hk2
  rw [← hadef]
  have h5 := (down_spec h n L a h3 h4 (n - 1) (Nat.le_refl _)).1 (n - 1 + i) (by omega)
  have hwi : w[i]? = some w[i] := List.getElem?_eq_getElem (by omega)
  have : at' φ (w.zipIdx.map fun wi => R.mul (down R (n - 1) a (n - 1 + wi.2)) wi.1) i = φ (down R (n - 1) a (n - 1 + i)) * at' φ w i := by
    simp only [at', List.getElem?_map, List.getElem?_zipIdx, hwi, Option.map_some, Nat.zero_add, h.mul]
  rw [this, h5]
  congr 1
  have key := C_mul_P n L (n - 1 + i) (by omega)
  rw [P_leaf, P_root n hn, ← Finset.prod_erase_mul (range n) L (Finset.mem_range.mpr hi)] at key
  have hLi : L i ≠ 0 := by rw [hL]; exact sub_ne_zero.mpr (fun h => hne i hi h.symm)
  rw [mul_right_cancel₀ hLi key, hL]

theorem interpolateAt_spec (h : Models R φ) (ys : List E) : ∀ (vs : List E) (r : E), vs.length = ys.length →
    φ (interpolateAt R ys vs r) = φ r + ∑ i ∈ range ys.length, at' φ ys i * at' φ vs i := by
  induction ys with
  | nil => intro vs r _; simp [interpolateAt]
  | cons y ys ih =>
    intro vs r hl
    cases vs with
    | nil => simp at hl
    | cons v vs =>
      rw [interpolateAt, ih vs _ (by simpa using hl), h.add, h.mul, List.length_cons, Finset.sum_range_succ']
      have e : ∀ (z : E) zs k, at' φ (z :: zs) (k + 1) = at' φ zs k := fun z zs k => by simp [at']
      have e0 : ∀ (z : E) zs, at' φ (z :: zs) 0 = φ z := fun z zs => by simp [at']
      simp only [e, e0]
      ring

theorem prepareAt_length (position : E) (x w : List E) : (prepareAt R position x w).length = w.length := by
  simp [prepareAt]

/-- **The interpolation is exact.** With distinct `x` and a new position, the three functions together give the value at the position
of the polynomial of degree below `n` through the points. -/
theorem interpolation_exact (h : Models R φ) (x y w : List E) (hn : 0 < x.length) (hx : x.Nodup) (hy : y.length = x.length)
    (hw : prepare R x = .ok w) (position : E) (hp : position ∉ x) (f : F[X]) (hf : f.degree < x.length)
    (hfy : ∀ i, i < x.length → f.eval (at' φ x i) = at' φ y i) :
    φ (interpolateAt R y (prepareAt R position x w) R.zero) = f.eval (φ position) := by
  obtain ⟨w', e, hl, hk⟩ := prepare_spec h x
  rw [hw] at e
  have : w = w' := by injection e
  subst this
  have hat : ∀ i, i < x.length → ∃ e ∈ x, x[i]? = some e ∧ at' φ x i = φ e := fun i hi =>
    ⟨x[i], List.getElem_mem hi, List.getElem?_eq_getElem hi, by simp [at', hi]⟩
  have hne : ∀ i, i < x.length → at' φ x i ≠ φ position := by
    intro i hi he
    obtain ⟨e, he1, _, he2⟩ := hat i hi
    rw [he2] at he
    exact hp (h.inj he ▸ he1)
  have inj : Set.InjOn (at' φ x) (range x.length : Set Nat) := by
    intro i hi j hj hij
    simp only [Finset.coe_range, Set.mem_Iio] at hi hj
    simp only [at', List.getElem?_eq_getElem hi, List.getElem?_eq_getElem hj] at hij
    exact (List.Nodup.getElem_inj_iff hx).mp (h.inj hij)
  have key := Lagrange.eq_interpolate_of_eval_eq (s := range x.length) (v := at' φ x) (f := f) (r := at' φ y) inj (by simpa using hf) (fun i hi => hfy i (Finset.mem_range.mp hi))
  rw [interpolateAt_spec h y _ _ (by rw [prepareAt_length, hl, hy]), h.zero, zero_add, key, Lagrange.interpolate_apply, Polynomial.eval_finset_sum, hy]
  apply Finset.sum_congr rfl
  intro i hi
  have hi' := Finset.mem_range.mp hi
  rw [prepareAt_spec h position x w hn hl hne i hi', hk i hi', Polynomial.eval_mul, Polynomial.eval_C]
  congr 1
  unfold Lagrange.basis Lagrange.basisDivisor
  rw [Polynomial.eval_prod, ← Finset.prod_inv_distrib, ← Finset.prod_mul_distrib]
  apply Finset.prod_congr rfl
  intro j _
  simp [mul_comm]

end Verif.Ida
