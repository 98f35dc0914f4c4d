import Verif.Ida.InterpProofs
import Verif.Ida.Core
import Verif.Gf.Props

/-! # The words of a `RawIDA` as values of polynomials over GF(2^32) -/
namespace Verif.Ida
open Verif.Gf Verif.Poly2 Polynomial

/-- The field. -/
abbrev F32 := Res (M32 0x8D#32)

noncomputable instance : Field F32 := Res.field gf2_32_default_modulus

/-- A word as a field element. -/
def φ32 (a : W32) : F32 := ⟨poly a, poly_lt a⟩

/-- A field element as a word. -/
def word32 (r : F32) : W32 := BitVec.ofNat 32 r.val.bits

theorem φ32_inj : Function.Injective φ32 := fun _ _ h => poly_inj (congrArg Res.val h)

theorem φ32_word32 (r : F32) : φ32 (word32 r) = r := by
  have : r.val.bits < 2 ^ 32 := r.lt
  apply Res.ext
  apply P2.ext
  show (BitVec.ofNat 32 r.val.bits).toNat = _
  rw [BitVec.toNat_ofNat, Nat.mod_eq_of_lt this]

theorem φ32_add (a b : W32) : φ32 (add32 a b) = φ32 a + φ32 b := by
  apply Res.ext; exact poly_xor a b

theorem φ32_mul (fr : Bool) (a b : W32) : φ32 (mul32 fr 0x8D a b) = φ32 a * φ32 b := by
  apply Res.ext; exact mul32_spec fr 0x8D a b

theorem φ32_zero : φ32 0 = 0 := by apply Res.ext; rfl
theorem φ32_one : φ32 1 = 1 := by apply Res.ext; rfl

theorem gf32_models (fr : Bool) : Models (gf32 fr) φ32 where
  inj := φ32_inj
  zero := φ32_zero
  one := φ32_one
  add := φ32_add
  sub := fun a b => by rw [sub_eq_add_neg]; exact φ32_add a b
  mul := φ32_mul fr
  inv := fun a => by
    obtain ⟨inv, h1, h2, h0, _⟩ := gf2_32_inverse fr 0x8D#32 gf2_32_default_modulus
    refine ⟨inv a, h1 64 (Nat.le_refl _) a, ?_⟩
    by_cases ha : a = 0
    · subst ha
      rw [h0, φ32_zero]; exact inv_zero.symm
    · have := h2.mul_inv a ha
      apply eq_inv_of_mul_eq_one_right
      exact (φ32_mul fr a (inv a)).symm.trans ((congrArg φ32 this).trans φ32_one)

theorem gf32_prepare (fr : Bool) (x : List W32) : ∃ w, prepare (gf32 fr) x = .ok w := by
  obtain ⟨w, h, _⟩ := prepare_spec (gf32_models fr) x
  exact ⟨w, h⟩

/-- The word at `o` of the polynomial `f`. -/
noncomputable def evalAt (f : F32[X]) (o : W32) : W32 := word32 (f.eval (φ32 o))

theorem getD_lt {α : Type} (l : List α) (d : α) {i : Nat} (h : i < l.length) : l.getD i d = l[i] := by simp [List.getD, h]

theorem interpVal_exact (fr : Bool) {ids y w : List W32} (hn : 0 < ids.length) (hnd : ids.Nodup) (hy : y.length = ids.length)
    (hw : prepare (gf32 fr) ids = .ok w) (o : W32) (f : F32[X]) (hf : f.degree < ids.length)
    (hfy : ∀ i, i < ids.length → f.eval (φ32 (ids.getD i 0)) = φ32 (y.getD i 0)) : interpVal (gf32 fr) ids w y o = evalAt f o := by
  apply φ32_inj
  rw [evalAt, φ32_word32]
  unfold interpVal
  by_cases ho : o ∈ ids
  · rw [if_pos ho]
    have hlt := List.idxOf_lt_length_iff.mpr ho
    have := hfy _ hlt
    rw [← this]
    congr 2
    rw [getD_lt _ _ hlt, List.getElem_idxOf hlt]
  · rw [if_neg ho]
    refine interpolation_exact (gf32_models fr) ids y w hn hnd hy hw o ho f hf ?_
    intro i hi
    have := hfy i hi
    rw [getD_lt _ _ hi, getD_lt _ _ (by omega)] at this
    simpa [at', hi, hy] using this

/-- Through the words of any channels with distinct identifiers passes a polynomial of degree below their number. -/
theorem exists_poly (ids : List W32) (v : W32 → W32) : ∃ f : F32[X], f.degree < ids.length ∧ ∀ id ∈ ids, f.eval (φ32 id) = φ32 (v id) := by
  classical
  refine ⟨Lagrange.interpolate ids.toFinset φ32 (fun id => φ32 (v id)), ?_, ?_⟩
  · refine lt_of_lt_of_le (Lagrange.degree_interpolate_lt _ (φ32_inj.injOn)) ?_
    exact_mod_cast List.toFinset_card_le ids
  · intro id hm
    exact Lagrange.eval_interpolate_at_node _ (φ32_inj.injOn) (List.mem_toFinset.mpr hm)

/-- All columns of a message are values of polynomials through the input words. -/
theorem cols_exact (fr : Bool) {chans : List Chan} {w : List W32} (hn : 0 < chans.length) (hnd : (chans.map Chan.id).Nodup)
    (hw : prepare (gf32 fr) (chans.map Chan.id) = .ok w) (outIds : List W32) (f : Nat → F32[X]) (hf : ∀ k, (f k).degree < chans.length)
    (n : Nat) (hfy : ∀ k < n, ∀ ch ∈ chans, (f k).eval (φ32 ch.id) = φ32 (wordAt ch.data k)) :
    cols (gf32 fr) (chans.map Chan.id) w outIds chans 0 n = (List.range n).map fun k => outIds.map (evalAt (f k)) := by
  unfold cols colOut
  rw [Nat.sub_zero, ← List.range_eq_range']
  apply List.map_congr_left
  intro k hk
  apply List.map_congr_left
  intro o _
  refine interpVal_exact fr (by simpa using hn) hnd (by simp) hw o (f k) (by simpa using hf k) ?_
  intro i hi
  rw [List.length_map] at hi
  rw [getD_lt _ _ (by simpa using hi), getD_lt _ _ (by simpa using hi)]
  simpa using hfy k (List.mem_range.mp hk) chans[i] (List.getElem_mem hi)

end Verif.Ida
