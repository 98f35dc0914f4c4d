import Verif.Ecp.Codec
import Verif.Ecp.Props
import Verif.Nbt.Props

/-! # Lemmas about encodings of points -/
namespace Verif.Ecp
open Verif.Dl (encodeInt decodeInt byteCount encodeInt_length decode_encodeInt lt_byteCount)
open Verif.Algebra
open NumberTheorySymbols

variable {p : Nat} [hp : Fact p.Prime] {C : Ec}

theorem modulus_eq (h : IsCurve p C) : C.F.modulus = p := by rw [h.field]; rfl

theorem readInt_encodeInt (h : IsCurve p C) {x : Int} (h0 : 0 ≤ x) (hx : x < p) (rest : List Byte) :
    readInt (encodeInt x (elemLen C) ++ rest) (elemLen C) = .ok (x, rest) := by
  unfold readInt
  have hl := encodeInt_length x (elemLen C)
  rw [if_neg (by simp [hl]), List.take_left' hl, List.drop_left' hl, decode_encodeInt x _ h0]
  unfold elemLen
  rw [modulus_eq h]
  exact lt_byteCount x _ h0 (by omega)

theorem encodePoint_length (C : Ec) (P : Pt) (c : Bool) : (encodePoint C P c).length = pointSize C c := by
  unfold encodePoint pointSize
  cases P.identity <;> cases c <;> simp [encodeInt_length] <;> omega

theorem decode_type (t : Byte) (C : Ec) (fuel : Nat) (bt : List Byte) (len : Nat) (ht : t = 2 ∨ t = 3) (hp2 : 2 * p < fuel) (h : IsCurve p C) (hl : len = pointSize C true) :
    decodePoint fuel C (t :: bt) len =
      match readInt bt (elemLen C) with
      | .error e => .error e
      | .ok (x, _) =>
          match Nbt.jacobi fuel (((x * x + C.a) * x + C.b) % p) p with
          | .error e => .error e
          | .ok j =>
            if j ≠ 1 then .ok none else
            match Nbt.modularSquareRoot fuel (((x * x + C.a) * x + C.b) % p) p with
            | .error e => .error e
            | .ok y => .ok (some ⟨false, x, if t.toNat % 2 ≠ y.natAbs % 2 then p - y else y⟩) := by
  unfold decodePoint
  rw [if_neg (by rw [hl]; unfold pointSize; omega)]
  simp only []
  rw [if_neg (by rcases ht with rfl | rfl <;> decide), if_pos ht, if_neg (by simpa using hl), modulus_eq h, Nbt.isPrime_accepts p hp.out fuel hp2]
  rfl

/-- The coordinate belongs to an element of the field with a root. -/
theorem compressed_eq (h : IsCurve p C) (t : Byte) (fuel : Nat) (bt : List Byte) (ht : t = 2 ∨ t = 3) (hp2 : 2 * p < fuel) (hb : elemLen C ≤ bt.length) :
    (∃ y : Int, decodePoint fuel C (t :: bt) (pointSize C true) = .ok (some ⟨false, decodeInt (bt.take (elemLen C)), y⟩) ∧ 0 < y ∧ y < p ∧ y % 2 = t.toNat % 2 ∧
        (y : ZMod p) ^ 2 = (decodeInt (bt.take (elemLen C)) : ZMod p) ^ 3 + C.a * decodeInt (bt.take (elemLen C)) + C.b) ∨
      decodePoint fuel C (t :: bt) (pointSize C true) = .ok none ∧
        ∀ z : ZMod p, z ≠ 0 → z ^ 2 ≠ (decodeInt (bt.take (elemLen C)) : ZMod p) ^ 3 + C.a * decodeInt (bt.take (elemLen C)) + C.b := by
  rw [decode_type t C fuel bt _ ht hp2 h rfl]
  generalize hx : decodeInt (bt.take (elemLen C)) = x
  have hr : readInt bt (elemLen C) = .ok (x, bt.drop (elemLen C)) := by unfold readInt; rw [if_neg (by omega), hx]
  rw [hr]
  simp only []
  have hodd : p % 2 = 1 := hp.out.eq_two_or_odd.resolve_left h.odd
  rw [Nbt.jacobi_exact _ p hodd fuel (by omega)]
  simp only []
  generalize hY : ((x * x + C.a) * x + C.b) % (p : Int) = Y
  have hYe : (Y : ZMod p) = (x : ZMod p) ^ 3 + C.a * x + C.b := by
    rw [← hY, ZMod.intCast_mod]; push_cast; ring
  rw [← hYe]
  have hj : J(Y | p) = legendreSym p Y := (jacobiSym.legendreSym.to_jacobiSym p Y).symm
  by_cases h1 : J(Y | p) = 1
  · left
    rw [if_neg (by simp [h1])]
    have hY0 : (Y : ZMod p) ≠ 0 := by
      intro e
      rw [hj, legendreSym, e] at h1
      simp at h1
    have hsq : IsSquare (Y : ZMod p) := by
      rw [hj] at h1
      exact (legendreSym.eq_one_iff p hY0).1 h1
    obtain ⟨r, hr⟩ := hsq
    have hex : ∃ x : Int, x * x ≡ Y [ZMOD p] := by
      refine ⟨r.val, ?_⟩
      rw [← ZMod.intCast_eq_intCast_iff]
      push_cast
      rw [ZMod.natCast_zmod_val, hr]
    obtain ⟨s, hs, s0, sp, hss⟩ := Nbt.modularSquareRoot_exact p hp.out h.odd Y fuel (by omega) hex
    rw [hs]
    have hss' : (s : ZMod p) ^ 2 = Y := by
      rw [← ZMod.intCast_eq_intCast_iff] at hss
      push_cast at hss
      rw [← hss]; ring
    have spos : 0 < s := by
      rcases Int.lt_or_eq_of_le s0 with h | h
      · exact h
      · rw [← h] at hss'
        exact absurd (by rw [← hss']; simp) hY0
    refine ⟨_, rfl, ?_⟩
    split
    · next hne =>
      refine ⟨by omega, by omega, by omega, ?_⟩
      push_cast
      rw [ZMod.natCast_self]
      linear_combination hss'
    · next he => exact ⟨by omega, by omega, by omega, hss'⟩
  · right
    rw [if_pos (by simpa using h1)]
    refine ⟨rfl, fun z hz hzz => h1 ?_⟩
    rw [hj, legendreSym.eq_one_iff p (by rw [← hzz]; exact pow_ne_zero 2 hz)]
    exact ⟨z, by rw [← hzz]; ring⟩

/-! ## Normal points -/

theorem norm_norm (P : Pt) : norm (norm P) = norm P := by
  by_cases h : P.identity = true
  · unfold norm; rw [if_pos h]; rfl
  · have : norm P = P := if_neg h
    rw [this, this]

theorem norm_stands {W : WeierstrassCurve.Affine (ZMod p)} {P : Pt} {g : W.Point} (h : Stands P g) : Stands (norm P) g := by
  unfold norm
  split
  · next hi =>
    cases g with
    | zero => exact rfl
    | some x y hns =>
      obtain ⟨h1, _⟩ := h
      rw [hi] at h1; cases h1
  · exact h

theorem stands_unique (h : IsCurve p C) {P Q : Pt} {g : Points p C} (hP : Stands P g) (hQ : Stands Q g) (nP : norm P = P) (nQ : norm Q = Q) : P = Q := by
  have := (equal_exact h hP hQ).2 rfl
  cases g with
  | zero =>
    have h1 : P.identity = true := hP
    have h2 : Q.identity = true := hQ
    have e1 : norm P = .zero := if_pos h1
    have e2 : norm Q = .zero := if_pos h2
    rw [← nP, ← nQ, e1, e2]
  | some x y hns =>
    obtain ⟨h1, h2, h3, h4, h5⟩ := hP
    obtain ⟨k1, k2, k3, k4, k5⟩ := hQ
    have ho := plain_ok (p := p) h.odd
    have e1 := ho.inj h2 k2 (h4.trans k4.symm)
    have e2 := ho.inj h3 k3 (h5.trans k5.symm)
    cases P; cases Q
    simp_all

theorem run_stands {W : WeierstrassCurve.Affine (ZMod p)} {m : M Unit Pt} {g : W.Point} (h : Post (fun _ => True) m (fun r => Stands r g)) :
    Stands (run m) g ∧ norm (run m) = run m := by
  obtain ⟨a, s, e, _, ha⟩ := h () trivial
  unfold run
  rw [e]
  exact ⟨norm_stands ha, norm_norm a⟩

end Verif.Ecp
