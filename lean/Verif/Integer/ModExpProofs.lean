import Verif.Integer.ModExp
import Verif.Algebra.Proofs3
import Mathlib.Algebra.Group.TypeTags.Basic
import Mathlib.Algebra.Group.Int.Defs

namespace Verif.Integer
open Verif.Algebra

variable {ws : Nat}

/-- Integers under multiplication, written additively. -/
abbrev Mz := Additive Int

/-- A Montgomery element for the residue of `z`; `i` inverts the radix modulo the modulus. -/
def MRep (ws : Nat) (M : Obj) (i : Int) (e : Obj) (z : Mz) : Prop :=
  Ok ws e ∧ 0 ≤ value ws e ∧ value ws e < value ws M ∧ e.reg.length ≤ M.reg.length ∧
    value ws e * i % value ws M = z.toMul % value ws M

def MInv (ws : Nat) (M : Obj) (s : Mont × Nat) : Prop := s.1.Good ws ∧ s.1.modulus = M ∧ s.1.rsize = M.reg.length

theorem MRep.copy (hw : 0 < ws) {M : Obj} {i : Int} {e : Obj} {z : Mz} (h : MRep ws M i e z) : MRep ws M i (copyCtor e) z := by
  obtain ⟨h1, h2, h3, h4, h5⟩ := h
  obtain ⟨co, cv⟩ := copyCtor_spec hw h1
  exact ⟨co, by omega, by omega, by rw [copyCtor_length h1]; exact Nat.le_trans (roundup_le_reg h1) h4, by rw [cv]; exact h5⟩

theorem mulmod {m a b c d : Int} (h1 : a % m = c % m) (h2 : b % m = d % m) : a * b % m = c * d % m := by
  rw [Int.mul_emod, h1, h2, ← Int.mul_emod]

theorem montLaws (hw : 0 < ws) {junk : Nat → WMem} (hj : ∀ n, AllW (base ws) (junk n)) {M : Obj} {i : Int}
    (hR : 2 ^ (8 * ws * M.reg.length) * i ≡ 1 [ZMOD value ws M]) :
    Laws (G := Mz) (montGrp ws junk) (MInv ws M) (MRep ws M i) (MRep ws M i) (MRep ws M i) := by
  have radixM : ∀ mr : Mont, mr.modulus = M → Mont.radix ws mr = 2 ^ (8 * ws * M.reg.length) := by
    intro mr h; unfold Mont.radix ModArith.size; rw [h]
  have mul : ∀ (s : Mont × Nat), MInv ws M s → ∀ {a b : Obj} {x y : Mz}, MRep ws M i a x → MRep ws M i b y →
      ∃ r, s.1.multiply ws (junk s.2) false a b = .ok r ∧ MRep ws M i r (x + y) := by
    rintro s ⟨g, hm, hr⟩ a b x y ⟨a1, a2, a3, a4, a5⟩ ⟨b1, b2, b3, b4, b5⟩
    obtain ⟨r, h1, h2, h3, h4, h5, h6⟩ := Mont.multiply_spec hw g (hj s.2) (same := false) a1 b1 (by simp) a2 (by rw [hm]; exact a3) b2
      (by rw [hm]; exact b3) (by unfold ModArith.size; rw [hm]; exact a4) (by unfold ModArith.size; rw [hm]; exact b4)
    rw [hm] at h4 h5
    rw [radixM s.1 hm] at h5
    refine ⟨r, h1, h2, h3, h4, by omega, ?_⟩
    rw [out_mul hR h5, toMul_add, a5, b5, ← Int.mul_emod]
  refine ⟨fun h => h, fun h => h, fun h => h.copy hw, fun h => h.copy hw, ?_, ?_, ?_, ?_, ?_⟩
  · rintro s ⟨g, hm, hr⟩
    obtain ⟨r, he, ro, rv, rl⟩ := Mont.one_spec hw g (hj s.2)
    have hp := g.pos
    rw [hm] at rv hp
    obtain ⟨b0, b1⟩ := emod_bounds (a := Mont.radix ws s.1) hp
    refine ⟨r, (s.1.upd (s.1.toModArith.after false r), s.2 + 1), by simp only [montGrp]; rw [he]; rfl,
      ⟨upd_good g _ ro, hm, hr⟩, ro, by omega, by omega, ?_, ?_⟩
    · unfold ModArith.size at rl; rw [hm] at rl; exact rl
    · rw [rv, radixM s.1 hm]
      have := out_const (a := 1) hR
      rw [Int.one_mul] at this
      rw [this]; rfl
  · intro a b x y ha hb s hs
    obtain ⟨r, h1, h2⟩ := mul s hs ha hb
    exact ⟨r, (s.1, s.2 + 1), by simp only [montGrp, montCall]; rw [h1]; rfl, hs, h2⟩
  · intro a b x y ha hb s hs
    obtain ⟨r, h1, h2⟩ := mul s hs ha hb
    exact ⟨copyCtor r, (s.1, s.2 + 1), by simp only [montGrp, montCall]; rw [h1]; rfl, hs, h2.copy hw⟩
  · rintro a x ⟨a1, a2, a3, a4, a5⟩ s ⟨g, hm, hr⟩
    obtain ⟨r, h1, h2, h3, h4, h5, h6⟩ := Mont.square_spec hw g (hj s.2) a1 a2 (by rw [hm]; exact a3) (by unfold ModArith.size; rw [hm]; exact a4)
    rw [hm] at h4 h5
    rw [radixM s.1 hm] at h5
    refine ⟨r, (s.1, s.2 + 1), by simp only [montGrp, montCall]; rw [h1]; rfl, ⟨g, hm, hr⟩, h2, h3, h4, by omega, ?_⟩
    rw [out_mul hR h5, toMul_add, a5, ← Int.mul_emod]
  · intro h; cases h

/-- A plain element congruent to `z` (reduced, or as the client passed it). -/
def PSrc (ws : Nat) (M : Obj) (e : Obj) (z : Mz) : Prop := Ok ws e ∧ value ws e % value ws M = z.toMul % value ws M
def PRep (ws : Nat) (M : Obj) (e : Obj) (z : Mz) : Prop := Ok ws e ∧ value ws e = z.toMul % value ws M

def PInv (ws : Nat) (M : Obj) (s : ModArith × Nat) : Prop := s.1.Good ws ∧ s.1.modulus = M

theorem plainLaws (hw : 0 < ws) {junk : Nat → WMem} (hj : ∀ n, AllW (base ws) (junk n)) {M : Obj} (h1 : 1 < value ws M) :
    Laws (G := Mz) (plainGrp ws junk) (PInv ws M) (PRep ws M) (PRep ws M) (PSrc ws M) := by
  have toSrc : ∀ {e : Obj} {x : Mz}, PRep ws M e x → PSrc ws M e x := by
    rintro e x ⟨a, b⟩
    exact ⟨a, by rw [b, Int.emod_emod_of_dvd _ (dvd_refl _)]⟩
  have mul : ∀ (s : ModArith × Nat), PInv ws M s → ∀ {a b : Obj} {x y : Mz}, PSrc ws M a x → PSrc ws M b y →
      ∃ r, s.1.multiply ws (junk s.2) false a b = .ok r ∧ PRep ws M r (x + y) := by
    rintro s ⟨g, hm⟩ a b x y ⟨a1, a2⟩ ⟨b1, b2⟩
    obtain ⟨r, k1, k2, k3⟩ := ModArith.multiply_spec hw g (hj s.2) (same := false) a1 b1 (by simp)
    rw [hm] at k3
    exact ⟨r, k1, k2, by rw [k3]; exact mulmod a2 b2⟩
  have cp : ∀ {e : Obj} {x : Mz}, PRep ws M e x → PRep ws M (copyCtor e) x := by
    rintro e x ⟨a, b⟩
    obtain ⟨co, cv⟩ := copyCtor_spec hw a
    exact ⟨co, by rw [cv, b]⟩
  refine ⟨fun h => h, toSrc, cp, ?_, ?_, ?_, ?_, ?_, ?_⟩
  · rintro e x ⟨a, b⟩
    obtain ⟨co, cv⟩ := copyCtor_spec hw a
    exact ⟨co, by show value ws (copyCtor e) % _ = _; rw [cv, b]⟩
  · rintro s hs
    obtain ⟨oo, ov⟩ := ofWord_one hw
    refine ⟨ofWord 1 2, s, rfl, hs, oo, ?_⟩
    rw [ov]; exact (Int.emod_eq_of_lt (by omega) h1).symm
  · intro a b x y ha hb s hs
    obtain ⟨r, k1, k2⟩ := mul s hs (toSrc ha) (toSrc hb)
    exact ⟨r, (s.1.after false r, s.2 + 1), by simp only [plainGrp, plainCall]; rw [k1]; rfl, ⟨after_good hs.1 false k2.1, by show (s.1.after false r).modulus = M; rw [after_mod]; exact hs.2⟩, k2⟩
  · intro a b x y ha hb s hs
    obtain ⟨r, k1, k2⟩ := mul s hs (toSrc ha) hb
    exact ⟨copyCtor r, (s.1.after false r, s.2 + 1), by simp only [plainGrp, plainCall]; rw [k1]; rfl, ⟨after_good hs.1 false k2.1, by show (s.1.after false r).modulus = M; rw [after_mod]; exact hs.2⟩, cp k2⟩
  · rintro a x ⟨a1, a2⟩ s ⟨g, hm⟩
    obtain ⟨r, k1, k2, k3⟩ := ModArith.square_spec hw g (hj s.2) a1
    rw [hm] at k3
    exact ⟨r, (s.1.after false r, s.2 + 1), by simp only [plainGrp, plainCall]; rw [k1]; rfl, ⟨after_good g false k2, by show (s.1.after false r).modulus = M; rw [after_mod]; exact hm⟩, k2,
      by rw [k3]; exact mulmod a2 a2⟩
  · intro h; cases h

theorem outAll_spec (hw : 0 < ws) {junk : Nat → WMem} (hj : ∀ n, AllW (base ws) (junk n)) {M : Obj} {i : Int}
    (hR : 2 ^ (8 * ws * M.reg.length) * i ≡ 1 [ZMOD value ws M]) {mr : Mont} (g : mr.Good ws) (hm : mr.modulus = M) {f : Nat → Mz} :
    ∀ {es : List Nat} {rs : List Obj} (n : Nat), List.Forall₂ (fun e r => MRep ws M i r (f e)) es rs →
    ∃ os, outAll ws junk mr n rs = .ok os ∧ List.Forall₂ (fun e o => Ok ws o ∧ value ws o = (f e).toMul % value ws M) es os
  | _, _, _, .nil => ⟨[], rfl, .nil⟩
  | _, _, n, .cons h t => by
    obtain ⟨h1, h2, h3, h4, h5⟩ := h
    obtain ⟨o, k1, k2, k3, k4, k5, _⟩ := Mont.convertOut_spec hw g (hj n) h1 h2 (by rw [hm]; exact h3)
      (by unfold ModArith.size; rw [hm]; omega)
    obtain ⟨os, l1, l2⟩ := outAll_spec hw hj hR g hm (n + 1) t
    obtain ⟨co, cv⟩ := copyCtor_spec hw k2
    refine ⟨copyCtor o :: os, by rw [outAll, k1]; simp only [Bind.bind, Except.bind]; rw [l1], .cons ⟨co, ?_⟩ l2⟩
    have hr : Mont.radix ws mr = 2 ^ (8 * ws * M.reg.length) := by unfold Mont.radix ModArith.size; rw [hm]
    rw [hm, hr] at k5
    rw [hm] at k4
    rw [cv, ← h5, ← out_out hR k5, Int.emod_eq_of_lt k3 k4]

theorem copy_rsize (hw : 0 < ws) {m : Obj} (hm : Ok ws m) :
    (ModArith.mk' (copyCtor m)).rsize = (ModArith.mk' (copyCtor m)).modulus.reg.length := by
  obtain ⟨co, _⟩ := copyCtor_spec hw hm
  simp only [ModArith.mk']
  have hpow := (roundupSize_spec (wordCount m)).1
  rw [copyCtor_length co, wordCount_copyCtor hw hm, copyCtor_length hm]
  apply Nat.le_antisymm
  · obtain ⟨k, hk⟩ := hpow
    rw [hk]
    exact (roundupSize_spec _).2.2 k (Nat.le_refl _)
  · exact (roundupSize_spec _).2.1

/-- The Montgomery ring that `ModularArithmetic` builds from its own modulus. -/
theorem inner_mont (hw : 0 < ws) {junk : WMem} (hj : AllW (base ws) junk) {m : Obj} (hm : Ok ws m) (hp : 0 < value ws m)
    (hodd : value ws m % 2 = 1) :
    ∃ mr, Mont.mk' ws junk (ModArith.mk' m).modulus = .ok mr ∧ (∀ n, MInv ws mr.modulus (mr, n)) ∧ value ws mr.modulus = value ws m := by
  obtain ⟨co, cv⟩ := copyCtor_spec hw hm
  obtain ⟨mr, h1, g, ht, gv⟩ := mont_mk'_good hw hj co (by omega) (by rw [cv]; exact hodd)
  refine ⟨mr, h1, fun n => ⟨g, rfl, ?_⟩, by rw [gv, cv]⟩
  show mr.toModArith.rsize = mr.toModArith.modulus.reg.length
  rw [ht]
  exact copy_rsize hw hm

theorem mz_pow (z : Int) (n : Nat) : (n • (Additive.ofMul z : Mz)).toMul = z ^ n := by
  rw [toMul_nsmul]; rfl

theorem simExp_spec (hw : 0 < ws) {junk : Nat → WMem} (hj : ∀ n, AllW (base ws) (junk n)) {m x : Obj} (hm : Ok ws m) (hp : 0 < value ws m)
    (hx : Ok ws x) (es : List Nat) :
    ∃ rs, (ModArith.mk' m).simultaneousExponentiate ws junk x es = .ok rs ∧
      List.Forall₂ (fun e r => Ok ws r ∧ value ws r = value ws x ^ e % value ws m) es rs := by
  obtain ⟨gm, gv⟩ := mk'_good hw hm hp
  unfold ModArith.simultaneousExponentiate
  rw [isOdd_spec hw gm.okm, gv]
  by_cases hodd : value ws m % 2 = 1
  · rw [if_pos (by simpa using hodd)]
    obtain ⟨mr, h1, h2, h3⟩ := inner_mont hw (hj 0) hm hp hodd
    obtain ⟨i, hi⟩ := radix_inv (m := value ws mr.modulus) (by omega) (by rw [h3]; exact hodd) (8 * ws * mr.modulus.reg.length)
    obtain ⟨b, k1, k2, k3, k4⟩ := Mont.convertIn_spec hw (mr := mr) (h2 0).1 (hj 1) hx
    have hp' : 0 < value ws mr.modulus := by omega
    obtain ⟨b0, b1⟩ := emod_bounds (a := value ws x * Mont.radix ws mr) hp'
    have hr : Mont.radix ws mr = 2 ^ (8 * ws * mr.modulus.reg.length) := rfl
    have hb : MRep ws mr.modulus i b (Additive.ofMul (value ws x)) :=
      ⟨k2, by omega, by omega, k4, by rw [k3, hr]; exact out_const hi⟩
    obtain ⟨rs, s, l1, ⟨g', m', _⟩, l3⟩ := simultaneousMultiply_spec (wb := 8 * ws) (by omega) (montLaws hw hj hi) hb es (mr, 2) (h2 2)
    obtain ⟨os, o1, o2⟩ := outAll_spec hw hj hi g' m' (f := fun e => e • (Additive.ofMul (value ws x) : Mz)) s.2 l3
    refine ⟨os, ?_, ?_⟩
    · rw [h1]; simp only [Bind.bind, Except.bind]; rw [k1]; simp only; rw [l1]; exact o1
    · refine o2.imp fun e o h => ⟨h.1, ?_⟩
      rw [h.2, mz_pow, h3]
  · rw [if_neg (by simpa using hodd)]
    obtain ⟨rs, s, l1, _, l3⟩ := simultaneousMultiply_spec (wb := 8 * ws) (by omega) (plainLaws hw hj (M := (ModArith.mk' m).modulus) (by rw [gv]; omega))
      (b := x) (x := Additive.ofMul (value ws x)) ⟨hx, rfl⟩ es (ModArith.mk' m, 0) ⟨gm, rfl⟩
    refine ⟨rs, by rw [l1]; rfl, l3.imp fun e o h => ⟨h.1, ?_⟩⟩
    rw [h.2, mz_pow, gv]

theorem exponentiate_spec (hw : 0 < ws) {junk : Nat → WMem} (hj : ∀ n, AllW (base ws) (junk n)) {m x : Obj} (hm : Ok ws m) (hp : 0 < value ws m)
    (hx : Ok ws x) (e : Nat) :
    ∃ r, (ModArith.mk' m).exponentiate ws junk x e = .ok r ∧ Ok ws r ∧ value ws r = value ws x ^ e % value ws m := by
  obtain ⟨rs, h1, h2⟩ := simExp_spec hw hj hm hp hx [e]
  cases h2 with
  | cons h t => exact ⟨_, by unfold ModArith.exponentiate; rw [h1]; rfl, h⟩

theorem cascExp_spec (hw : 0 < ws) {junk : Nat → WMem} (hj : ∀ n, AllW (base ws) (junk n)) {m x y : Obj} (hm : Ok ws m) (hp : 0 < value ws m)
    (hx : Ok ws x) (hy : Ok ws y) (e1 e2 : Nat)
    (hred : value ws m % 2 = 1 ∨ (0 ≤ value ws x ∧ value ws x < value ws m ∧ 0 ≤ value ws y ∧ value ws y < value ws m)) :
    ∃ r, (ModArith.mk' m).cascadeExponentiate ws junk x e1 y e2 = .ok r ∧ Ok ws r ∧
      value ws r = value ws x ^ e1 * value ws y ^ e2 % value ws m := by
  obtain ⟨gm, gv⟩ := mk'_good hw hm hp
  unfold ModArith.cascadeExponentiate
  rw [isOdd_spec hw gm.okm, gv]
  by_cases hodd : value ws m % 2 = 1
  · rw [if_pos (by simpa using hodd)]
    obtain ⟨mr, h1, h2, h3⟩ := inner_mont hw (hj 0) hm hp hodd
    obtain ⟨i, hi⟩ := radix_inv (m := value ws mr.modulus) (by omega) (by rw [h3]; exact hodd) (8 * ws * mr.modulus.reg.length)
    have hp' : 0 < value ws mr.modulus := by omega
    have hr : Mont.radix ws mr = 2 ^ (8 * ws * mr.modulus.reg.length) := rfl
    have inn : ∀ {b : Obj}, Ok ws b → ∀ n, ∃ b', mr.convertIn ws (junk n) b = .ok b' ∧ MRep ws mr.modulus i b' (Additive.ofMul (value ws b)) := by
      intro b hb n
      obtain ⟨b', k1, k2, k3, k4⟩ := Mont.convertIn_spec hw (mr := mr) (h2 0).1 (hj n) hb
      obtain ⟨b0, b1⟩ := emod_bounds (a := value ws b * Mont.radix ws mr) hp'
      exact ⟨b', k1, k2, by omega, by omega, k4, by rw [k3, hr]; exact out_const hi⟩
    obtain ⟨x', x1, x2⟩ := inn hx 1
    obtain ⟨y', y1, y2⟩ := inn hy 2
    obtain ⟨r, s, l1, ⟨g', m', _⟩, l3⟩ := cascadeScalarMultiply_spec (montLaws hw hj hi) x2 y2 e1 e2 (mr, 3) (h2 3)
    obtain ⟨r1, r2, r3, r4, r5⟩ := l3
    obtain ⟨o, k1, k2, k3, k4, k5, _⟩ := Mont.convertOut_spec hw g' (hj s.2) r1 r2 (by rw [m']; exact r3)
      (by unfold ModArith.size; rw [m']; omega)
    obtain ⟨co, cv⟩ := copyCtor_spec hw k2
    refine ⟨copyCtor o, ?_, co, ?_⟩
    · rw [h1]; simp only [Bind.bind, Except.bind]; rw [x1]; simp only; rw [y1]; simp only; rw [l1]; simp only; rw [k1]
    · have hr : Mont.radix ws s.1 = 2 ^ (8 * ws * mr.modulus.reg.length) := by unfold Mont.radix ModArith.size; rw [m']
      rw [m', hr] at k5
      rw [m'] at k4
      rw [cv, ← Int.emod_eq_of_lt k3 k4, out_out hi k5, r5, toMul_add, mz_pow, mz_pow, h3]
  · rw [if_neg (by simpa using hodd)]
    obtain ⟨a0, a1, b0, b1⟩ := hred.resolve_left hodd
    obtain ⟨r, s, l1, _, l3⟩ := cascadeScalarMultiply_spec (plainLaws hw hj (M := (ModArith.mk' m).modulus) (by rw [gv]; omega))
      (ex := x) (x := Additive.ofMul (value ws x)) (ey := y) (y := Additive.ofMul (value ws y)) ⟨hx, by rw [gv]; exact (Int.emod_eq_of_lt a0 a1).symm⟩
      ⟨hy, by rw [gv]; exact (Int.emod_eq_of_lt b0 b1).symm⟩ e1 e2 (ModArith.mk' m, 0) ⟨gm, rfl⟩
    refine ⟨r, by rw [l1]; rfl, l3.1, ?_⟩
    rw [l3.2, toMul_add, mz_pow, mz_pow, gv]

end Verif.Integer
