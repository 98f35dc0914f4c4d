import Verif.Rng.Spec
import Mathlib.Data.List.Nodup

namespace Verif.Rng
open Verif.Misc

theorem crop_eq (w v b : Nat) (hv : v < 2 ^ w) : crop w v b = v % 2 ^ b := by
  unfold crop
  split
  · rw [Nat.one_shiftLeft, Nat.and_two_pow_sub_one_eq_mod]
  · rename_i h
    rw [Nat.mod_eq_of_lt]
    exact Nat.lt_of_lt_of_le hv (Nat.pow_le_pow_right (by omega) (by omega))

/-- Exactly `k` of the numbers below `k * m` have remainder `r`. -/
theorem ways_mod (m r : Nat) (hr : r < m) (k : Nat) : ways (k * m) (fun x => x % m == r) = k := by
  unfold ways
  induction k with
  | zero => simp
  | succ k ih =>
    rw [Nat.succ_mul, List.range_add, List.filter_append, List.length_append, ih]
    congr 1
    rw [List.filter_map, List.length_map]
    have : (List.range m).filter ((fun x => x % m == r) ∘ fun x => k * m + x) = (List.range m).filter (fun x => x == r) := by
      apply List.filter_congr
      intro x hx
      have hx := List.mem_range.mp hx
      simp only [Function.comp]
      rw [Nat.mul_comm, Nat.mul_add_mod, Nat.mod_eq_of_lt hx]
    rw [this]
    have hc : (List.range m).filter (fun x => x == r) = [r] := by
      clear this ih
      induction m with
      | zero => omega
      | succ m ih =>
        rw [List.range_succ, List.filter_append]
        by_cases h : r < m
        · rw [ih h]
          have : ¬ m = r := by omega
          simp [this]
        · have hrm : m = r := by omega
          have : (List.range m).filter (fun x => x == r) = [] := by
            rw [List.filter_eq_nil_iff]
            intro x hx
            have := List.mem_range.mp hx
            simp; omega
          rw [this]; simp [hrm]
    rw [hc]; rfl

theorem ways_congr (n : Nat) (p q : Nat → Bool) (h : ∀ x, x < n → p x = q x) : ways n p = ways n q := by
  unfold ways
  rw [List.filter_congr fun x hx => h x (List.mem_range.mp hx)]

theorem tryWord_eq (order : ByteOrder) (min max : W32) (bytes : List Byte) (hb : bytes.length = 4) :
    tryWord order min max bytes =
      let r := (max - min).toNat
      let v := order.val bytes % 2 ^ bitLen r
      if r < v then none else some (BitVec.ofNat 32 v + min) := by
  have hv : order.val bytes < 2 ^ 32 := by
    have : order.val bytes < 256 ^ bytes.length := by cases order; exact leVal_lt _; exact beVal_lt _
    rw [hb] at this
    exact this
  simp only [tryWord]
  rw [crop_eq 32 _ _ hv, bitPrecision_eq 4 _ (max - min).isLt]
  have hlt : order.val bytes % 2 ^ bitLen (max - min).toNat < 2 ^ 32 := Nat.lt_of_le_of_lt (Nat.mod_le _ _) hv
  have : (max - min < BitVec.ofNat 32 (order.val bytes % 2 ^ bitLen (max - min).toNat)) ↔ (max - min).toNat < order.val bytes % 2 ^ bitLen (max - min).toNat := by
    rw [BitVec.lt_def, BitVec.toNat_ofNat, Nat.mod_eq_of_lt hlt]
  simp only [this]

theorem toNat_range {min max : W32} (h : min ≤ max) : (max - min).toNat = max.toNat - min.toNat := by
  rw [BitVec.toNat_sub_of_le h]

theorem tryWord_range (order : ByteOrder) {min max : W32} (h : min ≤ max) (bytes : List Byte) (hb : bytes.length = 4) (v : W32)
    (e : tryWord order min max bytes = some v) : min ≤ v ∧ v ≤ max := by
  rw [tryWord_eq order min max bytes hb] at e
  simp only [toNat_range h] at e
  have hmm : min.toNat ≤ max.toNat := h
  split at e
  · cases e
  · rename_i hlt
    injection e with e
    have := max.isLt
    generalize order.val bytes % 2 ^ bitLen (max.toNat - min.toNat) = x at *
    have hv : v.toNat = x + min.toNat := by
      rw [← e, BitVec.toNat_add, BitVec.toNat_ofNat, Nat.mod_eq_of_lt (a := x) (by omega), Nat.mod_eq_of_lt (by omega)]
    exact ⟨by rw [BitVec.le_def]; omega, by rw [BitVec.le_def]; omega⟩

theorem tryWord_ways (order : ByteOrder) {min max : W32} (h : min ≤ max) (v : W32) (h1 : min ≤ v) (h2 : v ≤ max) :
    ways (2 ^ 32) (fun x => tryWord order min max (order.bytes 4 x) == some v) = 2 ^ (32 - bitLen (max.toNat - min.toNat)) := by
  have hmm : min.toNat ≤ max.toNat := h
  have a1 : min.toNat ≤ v.toNat := h1
  have a2 : v.toNat ≤ max.toNat := h2
  have hmax := max.isLt
  have hbl : bitLen (max.toNat - min.toNat) ≤ 32 := bitLen_le (by omega)
  have hr := bitLen_lt (max.toNat - min.toNat)
  rw [ways_congr _ _ (fun x => x % 2 ^ bitLen (max.toNat - min.toNat) == v.toNat - min.toNat)]
  · have e : 2 ^ 32 = 2 ^ (32 - bitLen (max.toNat - min.toNat)) * 2 ^ bitLen (max.toNat - min.toNat) := by
      rw [← Nat.pow_add, Nat.sub_add_cancel hbl]
    rw [e]
    apply ways_mod
    omega
  · intro x hx
    rw [tryWord_eq order min max _ (ByteOrder.bytes_length _ _ _), ByteOrder.val_bytes]
    have : x % 256 ^ 4 = x := Nat.mod_eq_of_lt hx
    simp only [this, toNat_range h]
    generalize hy : x % 2 ^ bitLen (max.toNat - min.toNat) = y
    by_cases hlt : max.toNat - min.toNat < y
    · simp only [hlt, if_true]
      have : ¬ y = v.toNat - min.toNat := by omega
      simp [this]
    · simp only [hlt, if_false]
      have hval : (BitVec.ofNat 32 y + min).toNat = y + min.toNat := by
        rw [BitVec.toNat_add, BitVec.toNat_ofNat, Nat.mod_eq_of_lt (a := y) (by omega), Nat.mod_eq_of_lt (by omega)]
      by_cases he : y = v.toNat - min.toNat
      · have : BitVec.ofNat 32 y + min = v := by
          apply BitVec.eq_of_toNat_eq; rw [hval]; omega
        rw [this, beq_iff_eq.mpr he, beq_iff_eq.mpr rfl]
      · have : ¬ BitVec.ofNat 32 y + min = v := by
          intro hh
          have := congrArg BitVec.toNat hh
          rw [hval] at this
          omega
        rw [beq_eq_false_iff_ne.mpr he, beq_eq_false_iff_ne.mpr]
        intro hh
        exact this (Option.some.inj hh)

theorem generateWord32_range {σ : Type} (g : Gen σ) (hg : g.Ok) (order : ByteOrder) {min max : W32} (h : min ≤ max) (fuel : Nat) :
    ∀ (s : σ) (v : W32) (s' : σ), generateWord32 g order min max fuel s = .ok (v, s') → min ≤ v ∧ v ≤ max := by
  induction fuel with
  | zero => intro s v s' e; cases e
  | succ f ih =>
    intro s v s' e
    simp only [generateWord32] at e
    cases ht : tryWord order min max (g.block s 4).1 with
    | none => rw [ht] at e; exact ih _ v s' e
    | some w =>
      rw [ht] at e
      injection e with e
      have := tryWord_range order h _ (hg s 4) w ht
      rw [show v = w from (congrArg Prod.fst e).symm]
      exact this

/-- The state after `k` rounds. -/
def Gen.after {σ : Type} (g : Gen σ) (s : σ) (n : Nat) : Nat → σ
  | 0 => s
  | k + 1 => (g.block (g.after s n k) n).2

theorem after_succ {σ : Type} (g : Gen σ) (n : Nat) (k : Nat) : ∀ s, g.after s n (k + 1) = g.after (g.block s n).2 n k := by
  induction k with
  | zero => intro s; rfl
  | succ k ih =>
    intro s
    rw [Gen.after, ih]
    rfl

theorem generateWord32_first {σ : Type} (g : Gen σ) (order : ByteOrder) (min max : W32) (k : Nat) :
    ∀ (fuel : Nat) (s : σ) (v : W32), k < fuel → (∀ j < k, tryWord order min max (g.block (g.after s 4 j) 4).1 = none) →
      tryWord order min max (g.block (g.after s 4 k) 4).1 = some v →
      generateWord32 g order min max fuel s = .ok (v, g.after s 4 (k + 1)) := by
  induction k with
  | zero =>
    intro fuel s v hf _ hv
    obtain ⟨f, rfl⟩ := Nat.exists_eq_succ_of_ne_zero (n := fuel) (by omega)
    simp only [Gen.after] at hv
    simp only [generateWord32, hv, Gen.after]
  | succ k ih =>
    intro fuel s v hf hn hv
    obtain ⟨f, rfl⟩ := Nat.exists_eq_succ_of_ne_zero (n := fuel) (by omega)
    have h0 := hn 0 (by omega)
    simp only [Gen.after] at h0
    simp only [generateWord32, h0]
    rw [after_succ]
    exact ih f _ v (by omega) (fun j hj => by rw [← after_succ]; exact hn (j + 1) (by omega)) (by rw [← after_succ]; exact hv)

/-! ## Shuffle -/

theorem iterSwap_eq {α : Type} (a : α) (t : List α) (r : Nat) (hr : r ≤ t.length) :
    iterSwap (a :: t) r = some ((a :: t).getD r a :: if r = 0 then t else t.set (r - 1) a) := by
  cases r with
  | zero => simp [iterSwap]
  | succ r =>
    have : r < t.length := by omega
    simp [iterSwap, this, List.getElem?_eq_getElem this]

theorem choose_perm {α : Type} : ∀ (cs : List Nat) (l : List α), Choices l.length cs → (choose cs l).Perm l
  | [], l, _ => by cases l <;> exact List.Perm.refl _
  | c :: cs, [], _ => List.Perm.refl _
  | c :: cs, a :: t, h => by
    obtain ⟨c', t', e, hc, ht⟩ := h
    injection e with e1 e2
    subst e1; subst e2
    simp only [choose]
    cases c with
    | zero =>
      simp only [if_true]
      exact List.Perm.cons _ (choose_perm cs t ht)
    | succ c =>
      have hlt : c < t.length := by omega
      simp only [Nat.succ_ne_zero, if_false, Nat.add_sub_cancel]
      have ih := choose_perm cs (t.set c a) (by rw [List.length_set]; exact ht)
      refine (List.Perm.cons _ ih).trans ?_
      have hg : (a :: t).getD (c + 1) a = t[c] := by simp [hlt]
      rw [hg]
      have h1 : t = t.take c ++ t[c] :: t.drop (c + 1) := by
        rw [List.getElem_cons_drop, List.take_append_drop]
      have h2 : t.set c a = t.take c ++ a :: t.drop (c + 1) := by
        rw [List.set_eq_take_append_cons_drop, if_pos hlt]
      rw [h2]
      conv => rhs; rw [h1]
      generalize t.take c = u
      generalize t.drop (c + 1) = w
      refine (List.Perm.cons _ List.perm_middle).trans ?_
      refine (List.Perm.swap _ _ _).trans ?_
      exact List.Perm.cons _ List.perm_middle.symm

theorem choose_nil {α : Type} (cs : List Nat) : choose cs ([] : List α) = [] := by cases cs <;> rfl

theorem shuffle_choose {σ α : Type} (g : Gen σ) (hg : g.Ok) (order : ByteOrder) (fuel : Nat) :
    ∀ (n : Nat) (l : List α) (s : σ) (l' : List α) (s' : σ), l.length = n → shuffle g order fuel n l s = .ok (l', s') →
      ∃ cs, Choices l.length cs ∧ l' = choose cs l := by
  intro n
  induction n with
  | zero =>
    intro l s l' s' hl e
    have : l = [] := List.length_eq_zero_iff.mp hl
    subst this
    refine ⟨[], rfl, ?_⟩
    simp only [shuffle] at e
    injection e with e
    exact (congrArg Prod.fst e).symm
  | succ n ih =>
    intro l s l' s' hl e
    obtain ⟨a, t, rfl⟩ := List.exists_cons_of_length_eq_add_one hl
    simp only [List.length_cons, Nat.add_right_cancel_iff] at hl
    simp only [shuffle, List.length_cons, Nat.succ_ne_zero, if_false, Nat.add_sub_cancel] at e
    cases hw : generateWord32 g order 0 (BitVec.ofNat 32 t.length) fuel s with
    | error x => rw [hw] at e; cases e
    | ok p =>
      obtain ⟨r, s1⟩ := p
      rw [hw] at e
      simp only at e
      have hr := (generateWord32_range g hg order (min := 0) (max := BitVec.ofNat 32 t.length) (by rw [BitVec.le_def]; exact Nat.zero_le _) fuel s r s1 hw).2
      have hr : r.toNat ≤ t.length := by
        rw [BitVec.le_def, BitVec.toNat_ofNat] at hr
        exact Nat.le_trans hr (Nat.mod_le _ _)
      rw [iterSwap_eq a t r.toNat hr] at e
      simp only [List.tail_cons] at e
      cases hs : shuffle g order fuel n (if r.toNat = 0 then t else t.set (r.toNat - 1) a) s1 with
      | error x => rw [hs] at e; cases e
      | ok p =>
        obtain ⟨t', s2⟩ := p
        rw [hs] at e
        injection e with e
        have hlen : (if r.toNat = 0 then t else t.set (r.toNat - 1) a).length = t.length := by split <;> simp
        obtain ⟨cs, hcs, ht'⟩ := ih _ _ _ _ (by rw [hlen]; exact hl) hs
        rw [hlen] at hcs
        refine ⟨r.toNat :: cs, ⟨_, _, rfl, hr, hcs⟩, ?_⟩
        rw [show l' = _ from (congrArg Prod.fst e).symm]
        simp [choose, ht']

theorem shuffle_never_out_of_bounds {σ α : Type} (g : Gen σ) (hg : g.Ok) (order : ByteOrder) (fuel : Nat) :
    ∀ (n : Nat) (l : List α) (s : σ), l.length = n → ∀ e, shuffle g order fuel n l s = .error e → e = .diverges := by
  intro n
  induction n with
  | zero => intro l s _ e h; simp [shuffle] at h
  | succ n ih =>
    intro l s hl x e
    obtain ⟨a, t, rfl⟩ := List.exists_cons_of_length_eq_add_one hl
    simp only [List.length_cons, Nat.add_right_cancel_iff] at hl
    simp only [shuffle, List.length_cons, Nat.succ_ne_zero, if_false, Nat.add_sub_cancel] at e
    have hdiv : ∀ (f : Nat) (s : σ) (m : W32) (y : Err), generateWord32 g order 0 m f s = .error y → y = .diverges := by
      intro f
      induction f with
      | zero => intro s m y h; injection h with h; exact h.symm
      | succ f ih =>
        intro s m y h
        simp only [generateWord32] at h
        split at h
        · cases h
        · exact ih _ _ _ h
    cases hw : generateWord32 g order 0 (BitVec.ofNat 32 t.length) fuel s with
    | error y => rw [hw] at e; injection e with e; rw [← e]; exact hdiv _ _ _ _ hw
    | ok p =>
      obtain ⟨r, s1⟩ := p
      rw [hw] at e
      simp only at e
      have hr := (generateWord32_range g hg order (min := 0) (max := BitVec.ofNat 32 t.length) (by rw [BitVec.le_def]; exact Nat.zero_le _) fuel s r s1 hw).2
      have hr : r.toNat ≤ t.length := by
        rw [BitVec.le_def, BitVec.toNat_ofNat] at hr
        exact Nat.le_trans hr (Nat.mod_le _ _)
      rw [iterSwap_eq a t r.toNat hr] at e
      simp only [List.tail_cons] at e
      have hlen : (if r.toNat = 0 then t else t.set (r.toNat - 1) a).length = t.length := by split <;> simp
      cases hs : shuffle g order fuel n (if r.toNat = 0 then t else t.set (r.toNat - 1) a) s1 with
      | error y => rw [hs] at e; injection e with e; rw [← e]; exact ih _ _ (by rw [hlen]; exact hl) _ hs
      | ok p => rw [hs] at e; cases e

/-- Every permutation is obtained from exactly one sequence of choices. -/
theorem choose_unique {α : Type} : ∀ (n : Nat) (l p : List α), l.length = n → l.Nodup → p.Perm l → ∃ cs, Choices n cs ∧ choose cs l = p ∧
    ∀ cs', Choices n cs' → choose cs' l = p → cs' = cs := by
  intro n
  induction n with
  | zero =>
    intro l p hl _ hp
    have : l = [] := List.length_eq_zero_iff.mp hl
    subst this
    rw [List.perm_nil] at hp
    subst hp
    exact ⟨[], rfl, rfl, fun cs' h _ => h⟩
  | succ n ih =>
    intro l p hl hnd hp
    obtain ⟨a, t, rfl⟩ := List.exists_cons_of_length_eq_add_one hl
    simp only [List.length_cons, Nat.add_right_cancel_iff] at hl
    cases p with
    | nil => have := hp.length_eq; simp at this
    | cons b u =>
      have hb : b ∈ a :: t := hp.subset (List.mem_cons_self ..)
      obtain ⟨c, hc, hcb⟩ := List.getElem_of_mem hb
      simp only [List.length_cons] at hc
      let rest := if c = 0 then t else t.set (c - 1) a
      have hrl : rest.length = n := by simp only [rest]; split <;> simp [hl]
      have hg : (a :: t).getD c a = b := by
        rw [List.getD_eq_getElem?_getD, List.getElem?_eq_getElem (by simpa using hc)]; exact hcb
      have hstep : (b :: rest).Perm (a :: t) := by
        have hch : ∀ n, Choices n (List.replicate n 0) := by
          intro n
          induction n with
          | zero => rfl
          | succ n ih => exact ⟨0, List.replicate n 0, by simp [List.replicate_succ], Nat.zero_le _, ih⟩
        have := choose_perm (c :: List.replicate n 0) (a :: t) ⟨c, List.replicate n 0, rfl, by omega, by rw [hl]; exact hch n⟩
        simp only [choose, hg] at this
        have hz : ∀ (k : Nat) (m : List α), choose (List.replicate k 0) m = m := by
          intro k
          induction k with
          | zero => intro m; cases m <;> rfl
          | succ k ih => intro m; cases m with
            | nil => rfl
            | cons x m => simp [List.replicate_succ, choose, ih]
        rw [hz] at this
        exact this
      have hu : u.Perm rest := (List.perm_cons b).mp (hp.trans hstep.symm)
      have hndr : rest.Nodup := (List.nodup_cons.mp (hstep.nodup_iff.mpr hnd)).2
      obtain ⟨cs, h1, h2, h3⟩ := ih rest u hrl hndr hu
      refine ⟨c :: cs, ⟨c, cs, rfl, by omega, h1⟩, ?_, ?_⟩
      · simp only [choose, hg]
        exact congrArg (b :: ·) h2
      · intro cs' hcs' he
        obtain ⟨c', t', rfl, hc', ht'⟩ := hcs'
        simp only [choose] at he
        injection he with he1 he2
        have hcc : c' = c := by
          have hc'l : c' < (a :: t).length := by simp; omega
          rw [List.getD_eq_getElem?_getD, List.getElem?_eq_getElem hc'l] at he1
          simp only [Option.getD_some] at he1
          exact (hnd.getElem_inj_iff).mp (he1.trans hcb.symm)
        subst hcc
        rw [h3 t' ht' he2]

/-! ## Integers -/

theorem bitsValue_eq (nbits : Nat) (buf : List Byte) (hb : buf.length = nbits / 8 + 1) : bitsValue nbits buf = beVal buf % 2 ^ nbits := by
  cases buf with
  | nil => simp at hb
  | cons b bs =>
    simp only [List.length_cons, Nat.add_right_cancel_iff] at hb
    simp only [bitsValue, beVal_cons, hb]
    rw [crop_eq 8 _ _ b.isLt]
    have hlt : b.toNat % 2 ^ (nbits % 8) < 2 ^ 8 := Nat.lt_of_le_of_lt (Nat.mod_le _ _) b.isLt
    rw [BitVec.toNat_ofNat, Nat.mod_eq_of_lt hlt]
    have e : 2 ^ nbits = 256 ^ (nbits / 8) * 2 ^ (nbits % 8) := by
      conv => lhs; rw [← Nat.div_add_mod nbits 8]
      rw [Nat.pow_add, Nat.pow_mul]
    rw [e]
    have hbs := beVal_lt bs
    rw [hb] at hbs
    rw [Nat.mod_mul, Nat.add_comm (b.toNat * _), Nat.add_mul_mod_self_right, Nat.add_mul_div_right _ _ (by omega), Nat.mod_eq_of_lt hbs,
      Nat.div_eq_of_lt hbs, Nat.zero_add, Nat.add_comm, Nat.mul_comm]

theorem tryInteger_eq (min max : Int) (buf : List Byte) (hb : buf.length = bitLen (max - min).toNat / 8 + 1) :
    tryInteger min max buf =
      if max - min < (beVal buf % 2 ^ bitLen (max - min).toNat : Nat) then none else some ((beVal buf % 2 ^ bitLen (max - min).toNat : Nat) + min) := by
  simp only [tryInteger]
  rw [bitsValue_eq _ _ hb]

theorem tryInteger_range (min max : Int) (buf : List Byte) (hb : buf.length = bitLen (max - min).toNat / 8 + 1) (v : Int)
    (e : tryInteger min max buf = some v) : min ≤ v ∧ v ≤ max := by
  rw [tryInteger_eq min max buf hb] at e
  split at e
  · cases e
  · injection e with e; omega

theorem tryInteger_ways (min max : Int) (h : min ≤ max) (v : Int) (h1 : min ≤ v) (h2 : v ≤ max) :
    let n := bitLen (max - min).toNat
    ways (256 ^ (n / 8 + 1)) (fun x => tryInteger min max (beBytes (n / 8 + 1) x) == some v) = 2 ^ (8 - n % 8) := by
  intro n
  have hn : bitLen (max - min).toNat = n := rfl
  have hlt := bitLen_lt (max - min).toNat
  rw [hn] at hlt
  rw [ways_congr _ _ (fun x => x % 2 ^ n == (v - min).toNat)]
  · have e : 256 ^ (n / 8 + 1) = 2 ^ (8 - n % 8) * 2 ^ n := by
      rw [← Nat.pow_add, show 256 = 2 ^ 8 from rfl, ← Nat.pow_mul]
      congr 1; omega
    rw [e]
    apply ways_mod
    omega
  · intro x hx
    rw [tryInteger_eq _ _ _ (by rw [beBytes_length, hn]), beVal_beBytes, Nat.mod_eq_of_lt hx, hn]
    generalize x % 2 ^ n = y
    by_cases hy : max - min < (y : Int)
    · simp only [hy, if_true]
      have : ¬ y = (v - min).toNat := by omega
      simp [this]
    · simp only [hy, if_false]
      by_cases he : y = (v - min).toNat
      · have : (y : Int) + min = v := by omega
        rw [this, beq_iff_eq.mpr he, beq_iff_eq.mpr rfl]
      · rw [beq_eq_false_iff_ne.mpr he, beq_eq_false_iff_ne.mpr]
        intro hh
        have := Option.some.inj hh
        omega

theorem randomizeLoop_range {σ : Type} (g : Gen σ) (hg : g.Ok) (min max : Int) (fuel : Nat) :
    ∀ (s : σ) (v : Int) (s' : σ), randomizeLoop g min max fuel s = .ok (v, s') → min ≤ v ∧ v ≤ max := by
  induction fuel with
  | zero => intro s v s' e; cases e
  | succ f ih =>
    intro s v s' e
    simp only [randomizeLoop] at e
    cases ht : tryInteger min max (g.block s (bitLen (max - min).toNat / 8 + 1)).1 with
    | none => rw [ht] at e; exact ih _ v s' e
    | some w =>
      rw [ht] at e
      injection e with e
      have := tryInteger_range min max _ (hg s _) w ht
      rw [show v = w from (congrArg Prod.fst e).symm]
      exact this

theorem randomizeLoop_first {σ : Type} (g : Gen σ) (min max : Int) (k : Nat) :
    ∀ (fuel : Nat) (s : σ) (v : Int), let n := bitLen (max - min).toNat / 8 + 1
      k < fuel → (∀ j < k, tryInteger min max (g.block (g.after s n j) n).1 = none) →
      tryInteger min max (g.block (g.after s n k) n).1 = some v →
      randomizeLoop g min max fuel s = .ok (v, g.after s n (k + 1)) := by
  induction k with
  | zero =>
    intro fuel s v n hf _ hv
    obtain ⟨f, rfl⟩ := Nat.exists_eq_succ_of_ne_zero (n := fuel) (by omega)
    simp only [Gen.after] at hv
    simp only [randomizeLoop, Gen.after]
    simp only [n] at hv
    rw [hv]
  | succ k ih =>
    intro fuel s v n hf hn hv
    obtain ⟨f, rfl⟩ := Nat.exists_eq_succ_of_ne_zero (n := fuel) (by omega)
    have h0 := hn 0 (by omega)
    simp only [Gen.after] at h0
    simp only [randomizeLoop]
    simp only [n] at h0 hn hv ⊢
    rw [h0, after_succ]
    exact ih f _ v (by omega) (fun j hj => by rw [← after_succ]; exact hn (j + 1) (by omega)) (by rw [← after_succ]; exact hv)

end Verif.Rng
