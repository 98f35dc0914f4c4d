import Verif.Dl.Props
import Verif.Ecp.CodecProofs

/-! # Encoded points, and curves as groups for signatures and key agreement: the claims (C45) -/
namespace Verif.Ecp
open Verif.Dl (encodeInt decodeInt byteCount encodeInt_length decode_encodeInt)
open Verif.Algebra

variable {p : Nat} [hp : Fact p.Prime] {C : Ec}

/-! ## Encoding points -/

/-- Encodings have the announced size. -/
theorem encode_point_size (C : Ec) (P : Pt) (c : Bool) : (encodePoint C P c).length = pointSize C c := encodePoint_length C P c

/-- Decoding an uncompressed encoding gives the point back, whatever follows it in the source. -/
theorem decode_uncompressed (h : IsCurve p C) (P : Pt) (hP : P.identity = false) (hx : 0 ≤ P.x ∧ P.x < p) (hy : 0 ≤ P.y ∧ P.y < p) (rest : List Byte) (fuel : Nat) :
    decodePoint fuel C (encodePoint C P false ++ rest) (pointSize C false) = .ok (some P) := by
  unfold encodePoint
  rw [hP, if_neg (by decide), if_neg (by decide)]
  rw [List.cons_append]
  unfold decodePoint
  rw [if_neg (by unfold pointSize; omega)]
  simp only []
  rw [if_neg (by decide), if_neg (by decide), if_pos trivial, if_neg (by simp), List.append_assoc, readInt_encodeInt h hx.1 hx.2]
  simp only []
  rw [readInt_encodeInt h hy.1 hy.2]
  cases P; simp_all

/-- Decoding a compressed encoding of a point of the curve gives the point back, unless its second coordinate is 0. -/
theorem decode_compressed (h : IsCurve p C) (P : Pt) (hP : P.identity = false) (hv : verifyPoint C P = true) (hy : P.y ≠ 0) (rest : List Byte) (fuel : Nat) (hf : 2 * p < fuel) :
    decodePoint fuel C (encodePoint C P true ++ rest) (pointSize C true) = .ok (some P) := by
  obtain ⟨⟨x0, xp⟩, ⟨y0, yp⟩, he⟩ := ((verify_point_exact h P).1 hv).resolve_left (by simp [hP])
  unfold encodePoint
  rw [hP, if_neg (by decide), if_pos rfl, List.cons_append]
  have hodd : p % 2 = 1 := hp.out.eq_two_or_odd.resolve_left h.odd
  have ht : (BitVec.ofNat 8 (2 + P.y.natAbs % 2)).toNat = 2 + P.y.natAbs % 2 := by
    rw [BitVec.toNat_ofNat]; omega
  have ht' : BitVec.ofNat 8 (2 + P.y.natAbs % 2) = 2 ∨ BitVec.ofNat 8 (2 + P.y.natAbs % 2) = 3 := by
    rcases Nat.mod_two_eq_zero_or_one P.y.natAbs with e | e <;> rw [e] <;> decide
  have hl := encodeInt_length P.x (elemLen C)
  have hx : decodeInt ((encodeInt P.x (elemLen C) ++ rest).take (elemLen C)) = P.x := by
    have := readInt_encodeInt h x0 xp rest
    unfold readInt at this
    rw [if_neg (by simp [hl])] at this
    exact (Prod.mk.inj (Except.ok.inj this)).1
  have := compressed_eq h _ fuel (encodeInt P.x (elemLen C) ++ rest) ht' hf (by simp [hl])
  rw [hx, ht] at this
  have hy0 : (P.y : ZMod p) ≠ 0 := by
    intro e
    rw [ZMod.intCast_zmod_eq_zero_iff_dvd] at e
    exact hy (Int.eq_zero_of_dvd_of_nonneg_of_lt y0 yp e)
  rcases this with ⟨y, e1, yp0, yp', ypar, e2⟩ | ⟨_, hno⟩
  · rw [e1]
    have : y = P.y := by
      rw [← he] at e2
      have hz : ((y : ZMod p) - P.y) * (y + P.y) = 0 := by linear_combination e2
      rcases mul_eq_zero.1 hz with hz | hz
      · have : ((y - P.y : Int) : ZMod p) = 0 := by push_cast; exact hz
        rw [ZMod.intCast_zmod_eq_zero_iff_dvd] at this
        rcases Int.lt_or_le (y - P.y) 0 with hneg | hnn
        · have := Int.eq_zero_of_dvd_of_nonneg_of_lt (by omega) (by omega) (dvd_neg.2 this)
          omega
        · have := Int.eq_zero_of_dvd_of_nonneg_of_lt hnn (by omega) this
          omega
      · have : ((y + P.y : Int) : ZMod p) = 0 := by push_cast; exact hz
        rw [ZMod.intCast_zmod_eq_zero_iff_dvd] at this
        obtain ⟨k, hk⟩ := this
        have hk1 : k = 1 := by
          have h1 : 0 < k := by
            by_contra hc
            have : (p : Int) * k ≤ 0 := Int.mul_nonpos_of_nonneg_of_nonpos (by omega) (by omega)
            omega
          have h2 : k < 2 := by
            by_contra hc
            have : (p : Int) * 2 ≤ p * k := Int.mul_le_mul_of_nonneg_left (by omega) (by omega)
            omega
          omega
        rw [hk1] at hk
        omega
    rw [this]
    cases P; simp_all
  · exact absurd he (hno _ hy0)

/-- The point at infinity is encoded as zeros, and decoded from any nonempty string that begins with a zero. -/
theorem decode_infinity (C : Ec) (c : Bool) (fuel : Nat) (rest : List Byte) (len : Nat) (hl : 0 < len) :
    decodePoint fuel C (encodePoint C .zero c ++ rest) (pointSize C c) = .ok (some .zero) ∧ decodePoint fuel C (0 :: rest) len = .ok (some .zero) := by
  constructor
  · have : ∃ t, encodePoint C .zero c ++ rest = 0 :: t := by
      unfold encodePoint pointSize
      rw [if_pos (show Pt.zero.identity = true from rfl), Nat.add_comm, List.replicate_succ]
      exact ⟨_, rfl⟩
    obtain ⟨t, e⟩ := this
    rw [e]
    unfold decodePoint
    rw [if_neg (by unfold pointSize; omega)]
    simp
  · unfold decodePoint
    rw [if_neg (by omega)]
    simp

/-- A compressed encoding decodes exactly when its number is the first coordinate of a solution of the equation whose second coordinate is not 0, and then to
the solution with the parity announced. -/
theorem compressed_decoding_exact (h : IsCurve p C) (t : Byte) (ht : t = 2 ∨ t = 3) (bt : List Byte) (hb : elemLen C ≤ bt.length) (fuel : Nat) (hf : 2 * p < fuel) (x : Int)
    (hx : x = decodeInt (bt.take (elemLen C))) (r : Option Pt) :
    decodePoint fuel C (t :: bt) (pointSize C true) = .ok r ↔
      (∃ y : Int, r = some ⟨false, x, y⟩ ∧ 0 < y ∧ y < p ∧ y % 2 = t.toNat % 2 ∧ (y : ZMod p) ^ 2 = (x : ZMod p) ^ 3 + C.a * x + C.b) ∨
      r = none ∧ ∀ y : ZMod p, y ≠ 0 → y ^ 2 ≠ (x : ZMod p) ^ 3 + C.a * x + C.b := by
  subst hx
  have hodd : p % 2 = 1 := hp.out.eq_two_or_odd.resolve_left h.odd
  rcases compressed_eq h t fuel bt ht hf hb with ⟨y, e, y0, yp, ypar, he⟩ | ⟨e, hno⟩
  · rw [e]
    constructor
    · rintro ⟨⟩
      exact Or.inl ⟨y, rfl, y0, yp, ypar, he⟩
    · rintro (⟨z, rfl, z0, zp, zpar, hz⟩ | ⟨rfl, hno⟩)
      · have h1 : ((y : ZMod p) - z) * (y + z) = 0 := by linear_combination he - hz
        rcases mul_eq_zero.1 h1 with h1 | h1
        · have : ((y - z : Int) : ZMod p) = 0 := by push_cast; exact h1
          rw [ZMod.intCast_zmod_eq_zero_iff_dvd] at this
          have : y = z := by
            rcases Int.lt_or_le (y - z) 0 with hneg | hnn
            · have := Int.eq_zero_of_dvd_of_nonneg_of_lt (by omega) (by omega) (dvd_neg.2 this)
              omega
            · have := Int.eq_zero_of_dvd_of_nonneg_of_lt hnn (by omega) this
              omega
          rw [this]
        · have : ((y + z - p : Int) : ZMod p) = 0 := by push_cast; rw [ZMod.natCast_self]; linear_combination h1
          rw [ZMod.intCast_zmod_eq_zero_iff_dvd] at this
          rcases Int.lt_or_le (y + z - p) 0 with hneg | hnn
          · have := Int.eq_zero_of_dvd_of_nonneg_of_lt (by omega) (by omega) (dvd_neg.2 this)
            omega
          · have := Int.eq_zero_of_dvd_of_nonneg_of_lt hnn (by omega) this
            omega
      · refine absurd he (hno _ ?_)
        intro e
        rw [ZMod.intCast_zmod_eq_zero_iff_dvd] at e
        have := Int.eq_zero_of_dvd_of_nonneg_of_lt (by omega) yp e
        omega
  · rw [e]
    constructor
    · rintro ⟨⟩
      exact Or.inr ⟨rfl, hno⟩
    · rintro (⟨z, rfl, z0, zp, zpar, hz⟩ | ⟨rfl, _⟩)
      · refine absurd hz (hno _ ?_)
        intro e
        rw [ZMod.intCast_zmod_eq_zero_iff_dvd] at e
        have := Int.eq_zero_of_dvd_of_nonneg_of_lt (by omega) zp e
        omega
      · rfl

/-- A point of the curve with second coordinate 0 has a compressed encoding that `DecodePoint` refuses. -/
theorem compressed_order_two_refused (h : IsCurve p C) (P : Pt) (hP : P.identity = false) (hv : verifyPoint C P = true) (hy : P.y = 0) (fuel : Nat) (hf : 2 * p < fuel) :
    decodePoint fuel C (encodePoint C P true) (pointSize C true) = .ok none := by
  obtain ⟨⟨x0, xp⟩, _, he⟩ := ((verify_point_exact h P).1 hv).resolve_left (by simp [hP])
  unfold encodePoint
  rw [hP, if_neg (by decide), if_pos rfl, hy]
  have hl := encodeInt_length P.x (elemLen C)
  have hx : decodeInt ((encodeInt P.x (elemLen C)).take (elemLen C)) = P.x := by
    have := readInt_encodeInt h x0 xp []
    rw [List.append_nil] at this
    unfold readInt at this
    rw [if_neg (by simp [hl])] at this
    exact (Prod.mk.inj (Except.ok.inj this)).1
  rw [show BitVec.ofNat 8 (2 + Int.natAbs 0 % 2) = (2 : Byte) from rfl, compressed_decoding_exact h _ (Or.inl rfl) _ (by rw [hl]) fuel hf P.x hx.symm]
  refine Or.inr ⟨rfl, fun y hy' e => hy' ?_⟩
  rw [← he, hy] at e
  simpa using e

/-- Other byte strings: an unknown first byte, a wrong length, or nothing at all. -/
theorem bad_encoding_refused (C : Ec) (fuel : Nat) (bt : List Byte) (len : Nat)
    (h : len = 0 ∨ bt = [] ∨ ∃ t rest, bt = t :: rest ∧ t ≠ 0 ∧ (t = 2 ∨ t = 3 → len ≠ pointSize C true) ∧ (t = 4 → len ≠ pointSize C false)) :
    decodePoint fuel C bt len = .ok none := by
  unfold decodePoint
  by_cases hl : len < 1
  · rw [if_pos hl]
  rw [if_neg hl]
  rcases h with h | rfl | ⟨t, rest, rfl, h0, h2, h4⟩
  · omega
  · rfl
  · simp only []
    rw [if_neg h0]
    by_cases ht : t = 2 ∨ t = 3
    · rw [if_pos ht, if_pos (h2 ht)]
    · rw [if_neg ht]
      by_cases h4' : t = 4
      · rw [if_pos h4', if_pos (h4 h4')]
      · rw [if_neg h4']

section
variable (A : Group) (h : IsCurve p A.C)
include h

/-- `DecodeElement` with its check accepts only points of the curve, other than the point at infinity. -/
theorem decode_element_on_curve (b : List Byte) (tables : Bool) (P : Pt) (hd : (group A tables).decode b true = some P) :
    P.identity = false ∧ (0 ≤ P.x ∧ P.x < p) ∧ (0 ≤ P.y ∧ P.y < p) ∧ (P.y : ZMod p) ^ 2 = (P.x : ZMod p) ^ 3 + A.C.a * P.x + A.C.b := by
  unfold group at hd
  simp only [] at hd
  split at hd
  · next P' e =>
    split at hd
    · cases hd
    · next hc =>
      cases hd
      have hc : validElement A 1 P = true := by simpa using hc
      unfold validElement at hc
      simp only [Bool.and_eq_true, Bool.not_eq_true'] at hc
      refine ⟨hc.1.1, ?_⟩
      exact ((verify_point_exact h P).1 hc.1.2).resolve_left (by simp [hc.1.1])
  · cases hd

/-- No two strings of the announced length are accepted as the same element. -/
theorem decode_element_unique (b : List Byte) (hb : b.length = pointSize A.C A.compress) (hf : 2 * p < A.fuel) (tables : Bool) (P : Pt)
    (hd : (group A tables).decode b true = some P) : (group A tables).encode true P = b := by
  obtain ⟨hid, ⟨x0, xp⟩, ⟨y0, yp⟩, _⟩ := decode_element_on_curve A h b tables P hd
  have hd' : decodePoint A.fuel A.C b (pointSize A.C A.compress) = .ok (some P) := by
    unfold group at hd
    simp only [] at hd
    rw [List.take_of_length_le (by omega)] at hd
    split at hd
    · next P' e =>
      split at hd
      · cases hd
      · cases hd; exact e
    · cases hd
  show encodePoint A.C P A.compress = b
  have hp3 : 3 ≤ p := by have := hp.out.two_le; have := h.odd; omega
  have he1 : 1 ≤ elemLen A.C := by
    unfold elemLen
    rw [modulus_eq h]
    by_contra hc
    have := Dl.lt_byteCount ((p : Int) - 1) (p - 1) (by omega) (by omega)
    rw [show byteCount ((p : Int) - 1) = 0 by omega] at this
    simp at this
    omega
  have henc : ∀ l : List Byte, l.length = elemLen A.C → encodeInt (decodeInt l) (elemLen A.C) = l := by
    intro l hl
    unfold encodeInt decodeInt
    rw [Int.toNat_natCast, ← hl]
    exact beBytes_beVal l
  cases b with
  | nil => unfold pointSize at hb; simp at hb; omega
  | cons t bt =>
    by_cases ht0 : t = 0
    · subst ht0
      rw [(decode_infinity A.C A.compress A.fuel bt _ (by unfold pointSize; omega)).2] at hd'
      cases hd'
      simp [Pt.zero] at hid
    by_cases ht : t = 2 ∨ t = 3
    · by_cases hc : A.compress = true
      · rw [hc] at hd' hb ⊢
        have hlen : bt.length = elemLen A.C := by unfold pointSize at hb; simp at hb; omega
        rw [compressed_decoding_exact h t ht bt (by omega) A.fuel hf _ rfl] at hd'
        rcases hd' with ⟨y, e, y0', yp', ypar, _⟩ | ⟨e, _⟩
        · have e := Option.some.inj e
          subst e
          unfold encodePoint
          rw [if_neg (by simp), if_pos rfl]
          have : BitVec.ofNat 8 (2 + y.natAbs % 2) = t := by
            have : y.natAbs % 2 = t.toNat % 2 := by omega
            rw [this]
            rcases ht with rfl | rfl <;> rfl
          simp only [this]
          rw [List.take_of_length_le (by omega), henc _ hlen]
        · cases e
      · have hc : A.compress = false := by simpa using hc
        rw [bad_encoding_refused A.C A.fuel (t :: bt) _ (Or.inr (Or.inr ⟨t, bt, rfl, ht0, fun _ => ?_, fun e => ?_⟩))] at hd'
        · cases hd'
        · rw [hc]; unfold pointSize; simp; omega
        · subst e; exact absurd ht (by decide)
    · by_cases h4 : t = 4
      · by_cases hc : A.compress = true
        · rw [bad_encoding_refused A.C A.fuel (t :: bt) _ (Or.inr (Or.inr ⟨t, bt, rfl, ht0, fun e => absurd e ht, fun e => ?_⟩))] at hd'
          · cases hd'
          · rw [hc]; unfold pointSize; simp; omega
        · have hc : A.compress = false := by simpa using hc
          rw [hc] at hd' hb ⊢
          subst h4
          have hlen : bt.length = 2 * elemLen A.C := by unfold pointSize at hb; simp at hb; omega
          unfold decodePoint at hd'
          rw [if_neg (by unfold pointSize; omega)] at hd'
          simp only [] at hd'
          rw [if_neg (by decide), if_neg (by decide), if_pos trivial, if_neg (by simp)] at hd'
          unfold readInt at hd'
          rw [if_neg (by omega)] at hd'
          simp only [] at hd'
          rw [if_neg (by rw [List.length_drop]; omega)] at hd'
          simp only [] at hd'
          have e := Option.some.inj (Except.ok.inj hd')
          subst e
          unfold encodePoint
          rw [if_neg (by simp), if_neg (by simp)]
          simp only []
          rw [henc _ (by rw [List.length_take]; omega), henc _ (by rw [List.length_take, List.length_drop]; omega),
            List.take_of_length_le (l := bt.drop _) (by rw [List.length_drop]; omega), List.take_append_drop]
      · rw [bad_encoding_refused A.C A.fuel (t :: bt) _ (Or.inr (Or.inr ⟨t, bt, rfl, ht0, fun e => absurd e ht, fun e => absurd e h4⟩))] at hd'
        cases hd'

end

/-! ## What is not checked -/

/-- `(96, 0)` is on the curve; its compressed encoding is refused. -/
theorem order_two_witness : verifyPoint c97 ⟨false, 96, 0⟩ = true ∧ decodePoint 195 c97 (encodePoint c97 ⟨false, 96, 0⟩ true) (pointSize c97 true) = .ok none := by
  decide +kernel

/-- `DecodePoint` does not compare the coordinate of a compressed point with the modulus: it returns a point that is not on the curve, and that another string stands for. -/
theorem unreduced_coordinate_decoded : decodePoint 195 c97 [2, 100] (pointSize c97 true) = .ok (some ⟨false, 100, 6⟩) ∧ verifyPoint c97 ⟨false, 100, 6⟩ = false ∧
    decodePoint 195 c97 [2, 3] (pointSize c97 true) = .ok (some ⟨false, 3, 6⟩) := by
  decide +kernel

/-- Nor does it check an uncompressed point against the equation. -/
theorem off_curve_decoded : decodePoint 195 c97 [4, 1, 1] (pointSize c97 false) = .ok (some ⟨false, 1, 1⟩) ∧ verifyPoint c97 ⟨false, 1, 1⟩ = false := by
  decide +kernel

/-- A source shorter than it announces makes it throw `InvalidArgument`. -/
theorem short_source_throws : decodePoint 195 c97 [4, 1] (pointSize c97 false) = .error .invalidArgument := by
  decide +kernel

/-! ## Curves as groups -/

/-- Group parameters for a curve over the integers modulo `p` and a base point of prime order. -/
structure GroupOk (A : Group) (p q : Nat) [Fact p.Prime] (G : Points p A.C) : Prop where
  curve : IsCurve p A.C
  R : A.R % p ≠ 0
  wb : 0 < A.wb
  heap : HeapOk A.heap0 A.heap
  base : Stands A.G G
  order : addOrderOf G = q
  prime : q.Prime
  n : A.n = q
  k : 0 ≤ A.k
  storage : 0 < A.storage
  compress : A.compress = true → q ≠ 2
  fuel : 2 * p < A.fuel

section
variable {A : Group} {q : Nat} {G : Points p A.C} (H : GroupOk A p q G) (tables : Bool)
include H

theorem exp_stands {a : Pt} {g : Points p A.C} (ha : Stands a g) (e : Int) :
    Stands ((group A tables).exp a e) (e.toNat • g) ∧ norm ((group A tables).exp a e) = (group A tables).exp a e := by
  show Stands (if e.toNat = 0 then Pt.zero else _) _ ∧ norm (if e.toNat = 0 then Pt.zero else _) = (if e.toNat = 0 then Pt.zero else _)
  by_cases h0 : e.toNat = 0
  · rw [if_pos h0, h0, zero_nsmul]; exact ⟨rfl, rfl⟩
  · rw [if_neg h0]
    have := simultaneous_multiply_exact H.curve H.R H.wb H.heap ha [e.toNat] (by simpa using h0)
    exact run_stands (Post.bind this fun rs hrs => one'_spec hrs fun _ => id)

omit H in
theorem identity_iff {a : Pt} (ha : norm a = a) : a.identity = true ↔ a = .zero := by
  constructor
  · intro hi
    rw [← ha]; exact if_pos hi
  · rintro rfl; rfl

theorem stands_verify {a : Pt} {g : Points p A.C} (ha : Stands a g) : verifyPoint A.C a = true := by
  rw [verify_point_exact H.curve]
  cases g with
  | zero => exact Or.inl ha
  | some x y hns =>
    obtain ⟨h1, h2, h3, rfl, rfl⟩ := ha
    exact Or.inr ⟨h2, h3, equation_curve.1 hns.1⟩

/-- The multiples of the base point, with the operations of `DL_GroupParameters_EC`, satisfy the laws every theorem of Verif.Dl.Props asks for: so ECDSA, ECGDSA and ECNR
signatures verify, and ECDH, ECMQV, ECHMQV, ECFHMQV and ECIES agree. -/
theorem ec_parameters : (group A tables).Laws (fun a => norm a = a ∧ ∃ k : Nat, Stands a (k • G)) .zero where
  V_g := by
    have hne : G ≠ 0 := by
      intro e
      have := H.order
      rw [e, addOrderOf_zero] at this
      exact H.prime.one_lt.ne this
    refine ⟨?_, 1, by rw [one_nsmul]; exact H.base⟩
    have hb := H.base
    cases G with
    | zero => exact absurd rfl hne
    | some x y hns =>
      show norm A.G = A.G
      unfold norm
      rw [if_neg (by simp [hb.1])]
  V_one := ⟨rfl, 0, by rw [zero_nsmul]; exact rfl⟩
  V_mul := by
    rintro a b ⟨_, i, hi⟩ ⟨_, j, hj⟩
    exact ⟨norm_norm _, i + j, by rw [add_nsmul]; exact norm_stands (add_exact H.curve hi hj)⟩
  mul_comm := by
    rintro a b ⟨_, i, hi⟩ ⟨_, j, hj⟩
    refine stands_unique H.curve (norm_stands (add_exact H.curve hi hj)) ?_ (norm_norm _) (norm_norm _)
    rw [add_comm]
    exact norm_stands (add_exact H.curve hj hi)
  mul_assoc := by
    rintro a b c ⟨_, i, hi⟩ ⟨_, j, hj⟩ ⟨_, k, hk⟩
    refine stands_unique H.curve (norm_stands (add_exact H.curve (norm_stands (add_exact H.curve hi hj)) hk)) ?_ (norm_norm _) (norm_norm _)
    rw [add_assoc]
    exact norm_stands (add_exact H.curve hi (norm_stands (add_exact H.curve hj hk)))
  one_mul := by
    rintro a ⟨na, i, hi⟩
    refine stands_unique H.curve (g := i • G) ?_ hi (norm_norm _) na
    have : Stands Pt.zero (0 : Points p A.C) := rfl
    rw [← zero_add (i • G)]
    exact norm_stands (add_exact H.curve this hi)
  exp_zero := fun a _ => rfl
  exp_succ := by
    rintro a n ⟨_, i, hi⟩ hn
    obtain ⟨e1, n1⟩ := exp_stands H tables hi (n + 1)
    obtain ⟨e2, n2⟩ := exp_stands H tables hi n
    refine stands_unique H.curve e1 ?_ n1 (norm_norm _)
    rw [Int.toNat_add hn (by decide), show (1 : Int).toNat = 1 from rfl, add_nsmul, one_nsmul]
    exact norm_stands (add_exact H.curve e2 hi)
  expBase := by
    intro n hn
    obtain ⟨e1, n1⟩ := exp_stands H tables H.base n
    obtain ⟨e2, n2⟩ := run_stands (fixed_base_exact H.curve H.R H.wb H.heap H.base A.maxExpBits H.storage n.toNat)
    exact stands_unique H.curve e2 e1 n2 n1
  cascade := by
    rintro a m b n ⟨_, i, hi⟩ ⟨_, j, hj⟩ hm hn
    obtain ⟨e1, n1⟩ := exp_stands H tables hi m
    obtain ⟨e2, n2⟩ := exp_stands H tables hj n
    have e3 := norm_stands (add_exact H.curve e1 e2)
    show (if tables = true then _ else _) = _
    split
    · obtain ⟨e4, n4⟩ := run_stands (fixed_base_cascade_exact H.curve H.R H.wb H.heap hi hj A.maxExpBits A.maxExpBits H.storage H.storage m.toNat n.toNat)
      exact stands_unique H.curve e4 e3 n4 (norm_norm _)
    · obtain ⟨e4, n4⟩ := run_stands (cascade_multiply_exact H.curve H.R H.wb H.heap hi hj m.toNat n.toNat)
      exact stands_unique H.curve e4 e3 n4 (norm_norm _)
  identity := fun a ⟨na, _⟩ => identity_iff na
  order := ⟨q, H.prime, H.n⟩
  g_order := by
    obtain ⟨e1, n1⟩ := exp_stands H tables H.base A.n
    refine stands_unique H.curve (g := 0) ?_ rfl n1 rfl
    have : A.n.toNat • G = 0 := by rw [H.n, Int.toNat_natCast, ← H.order, addOrderOf_nsmul_eq_zero]
    rw [this] at e1
    exact e1
  g_ne_one := by
    intro e
    have e : A.G = .zero := e
    have hb := H.base
    rw [e] at hb
    have ho := H.order
    cases G with
    | zero =>
      have : addOrderOf (0 : Points p A.C) = q := ho
      rw [addOrderOf_zero] at this
      exact H.prime.one_lt.ne this
    | some x y hns => exact absurd hb.1 (by decide)
  cofactor := by
    show 0 ≤ (if A.k = 0 then _ else A.k)
    split
    · have hm := modulus_eq H.curve
      rw [hm, H.n]
      apply Int.ediv_nonneg
      · positivity
      · positivity
    · exact H.k
  encode_length := by
    rintro b a _
    show (if b = true then _ else _ : List Byte).length = (if b = true then _ else _)
    split
    · exact encodePoint_length _ _ _
    · exact encodeInt_length _ _
  decode_encode := by
    rintro a b ⟨na, i, hi⟩ hne
    have hv := stands_verify H hi
    have hid : a.identity = false := by
      by_contra hc
      exact hne ((identity_iff na).1 (by simpa using hc))
    obtain ⟨hx, hy, he⟩ := ((verify_point_exact H.curve a).1 hv).resolve_left (by simp [hid])
    have hdec : decodePoint A.fuel A.C (encodePoint A.C a A.compress) (pointSize A.C A.compress) = .ok (some a) := by
      cases hc : A.compress with
      | false =>
        have := decode_uncompressed H.curve a hid hx hy [] A.fuel
        rwa [List.append_nil] at this
      | true =>
        have := decode_compressed H.curve a hid hv ?_ [] A.fuel H.fuel
        · rwa [List.append_nil] at this
        intro hy0
        -- twice the point is the point at infinity
        have hd : Stands (double A.C a) (i • G + i • G) := double_exact H.curve hi
        have hz : double A.C a = .zero := by
          unfold double
          rw [if_pos (by simp [hy0])]
        rw [hz] at hd
        have h2 : (2 * i) • G = 0 := by
          rw [two_mul, add_nsmul]
          generalize i • G + i • G = g at hd
          cases g with
          | zero => rfl
          | some x y hns => exact absurd hd.1 (by decide)
        have hdvd := addOrderOf_dvd_of_nsmul_eq_zero h2
        rw [H.order, H.prime.dvd_mul] at hdvd
        rcases hdvd with hdvd | hdvd
        · exact H.compress hc ((Nat.prime_dvd_prime_iff_eq H.prime Nat.prime_two).1 hdvd)
        · rw [← H.order] at hdvd
          rw [addOrderOf_dvd_iff_nsmul_eq_zero.1 hdvd] at hi
          have : a.identity = true := hi
          rw [hid] at this; cases this
    show (match decodePoint A.fuel A.C ((encodePoint A.C a A.compress).take (pointSize A.C A.compress)) (pointSize A.C A.compress) with
      | .ok (some P) => if b && !validElement A 1 P then none else some P
      | _ => none) = some a
    rw [List.take_of_length_le (by rw [encodePoint_length]), hdec]
    simp only []
    have : validElement A 1 a = true := by
      unfold validElement
      rw [hid, hv]; rfl
    rw [this]
    simp
  fast := fun h => by cases h

/-- On a curve without singular points `ValidateElement` at level 2 accepts exactly the points of the subgroup of order `q`, other than the point at infinity. -/
theorem validate_element_exact (hd : 4 * (A.C.a : ZMod p) ^ 3 + 27 * (A.C.b : ZMod p) ^ 2 ≠ 0) (P : Pt) :
    (group A tables).validate2 P = true ↔ ∃ g : Points p A.C, Stands P g ∧ g ≠ 0 ∧ q • g = 0 := by
  show validElement A 2 P = true ↔ _
  unfold validElement
  simp only [Bool.and_eq_true, Bool.not_eq_true', Nat.lt_irrefl, decide_false, Bool.false_or, and_assoc]
  have hq0 : A.n.toNat ≠ 0 := by rw [H.n]; simpa using H.prime.ne_zero
  have hst : ∀ g : Points p A.C, Stands P g → ((run (do let rs ← simPlain A.R A.C A.wb A.heap0 A.heap 1 P [A.n.toNat]; one' rs)).identity = true ↔ q • g = 0) := by
    intro g hg
    have := simultaneous_multiply_exact H.curve H.R H.wb H.heap hg [A.n.toNat] (by simpa using hq0)
    obtain ⟨hs, _⟩ := run_stands (Post.bind this fun rs hrs => one'_spec hrs fun _ => id)
    have hn : A.n.toNat = q := by rw [H.n]; simp
    generalize run _ = r at hs ⊢
    rw [hn] at hs
    generalize q • g = k at hs ⊢
    cases k with
    | zero => exact ⟨fun _ => rfl, fun _ => hs⟩
    | some x y hns => exact ⟨fun h => absurd (hs.1.symm.trans h) (by decide), fun h => nomatch h⟩
  have hz : ∀ g : Points p A.C, Stands P g → (P.identity = false ↔ g ≠ 0) := by
    intro g hg
    cases g with
    | zero =>
      have : P.identity = true := hg
      rw [this]
      exact ⟨fun h => (nomatch h), fun h => absurd rfl h⟩
    | some x y hns => exact ⟨fun _ h => (nomatch h), fun _ => hg.1⟩
  constructor
  · rintro ⟨hid, hv, hr⟩
    obtain ⟨g, hg, _⟩ := (verify_point_group H.curve hd P).1 hv
    exact ⟨g, hg, (hz g hg).1 hid, (hst g hg).1 hr⟩
  · rintro ⟨g, hg, hne, hq⟩
    exact ⟨(hz g hg).2 hne, stands_verify H hg, (hst g hg).2 hq⟩

end

/-! ## A concrete group: the multiples of `(3, 6)`, of order 5 -/

def g97 (compress : Bool) : Group :=
  { R := 2 ^ 64, C := c97, wb := 64, heap0 := heapS, heap := heapS, G := ⟨false, 3, 6⟩, n := 5, k := 0, compress, maxExpBits := 256, storage := 16, fuel := 195 }

theorem g97_ok (c : Bool) : ∃ G : Points 97 c97, GroupOk (g97 c) 97 5 G := by
  obtain ⟨G, hG, _⟩ := (verify_point_group c97_ok c97_disc ⟨false, 3, 6⟩).1 (by decide +kernel)
  refine ⟨G, ⟨c97_ok, by show (2 ^ 64 : Int) % 97 ≠ 0; decide, by show 0 < 64; decide, heapS_ok, hG, ?_, by norm_num, rfl,
    by show (0 : Int) ≤ 0; decide, by show 0 < 16; decide, fun _ => by decide, by show 2 * 97 < 195; decide⟩⟩
  have h2 := double_exact c97_ok hG
  have h3 := add_exact c97_ok h2 hG
  have h5 := add_exact c97_ok h2 h3
  have e5 : add c97 (double c97 ⟨false, 3, 6⟩) (add c97 (double c97 ⟨false, 3, 6⟩) ⟨false, 3, 6⟩) = .zero := by decide +kernel
  rw [e5] at h5
  have hz : 5 • G = 0 := by
    rw [show 5 • G = G + G + (G + G + G) by abel]
    generalize G + G + (G + G + G) = g at h5
    cases g with
    | zero => rfl
    | some x y hns => exact absurd h5.1 (by decide)
  have hne : G ≠ 0 := by
    rintro rfl
    have : (false : Bool) = true := hG
    cases this
  have : Fact (Nat.Prime 5) := ⟨by norm_num⟩
  exact addOrderOf_eq_prime hz hne

/-- Signatures: every ECDSA signature with components other than zero verifies. -/
example (c : Bool) (x k : Int) (hx : 0 < x) (hx5 : x < 5) (hk : 0 < k) (hk5 : k < 5) (digest : List Byte)
    (hr : decodeInt ((Dl.signDigest (group (g97 c) true) .gdsa x k digest).take (byteCount 5)) ≠ 0) (hs : decodeInt ((Dl.signDigest (group (g97 c) true) .gdsa x k digest).drop (byteCount 5)) ≠ 0) :
    Dl.verifyDigest (group (g97 c) true) .gdsa (Dl.publicElement (group (g97 c) true) .gdsa x) digest (Dl.signDigest (group (g97 c) true) .gdsa x k digest) = .ok true := by
  obtain ⟨G, hG⟩ := g97_ok c
  exact Dl.signatures_verify (ec_parameters hG true) .gdsa x k hx hx5 hk hk5 digest hr (Or.inr hs)

/-- Key agreement. -/
example (c : Bool) (a b : List Byte) (ha : 0 < decodeInt a) (ha5 : decodeInt a < 5) (hb : 0 < decodeInt b) (hb5 : decodeInt b < 5) :
    Dl.dhAgree (group (g97 c) false) .no a (Dl.dhPublic (group (g97 c) false) b) true = Dl.dhAgree (group (g97 c) false) .no b (Dl.dhPublic (group (g97 c) false) a) true := by
  obtain ⟨G, hG⟩ := g97_ok c
  obtain ⟨h1, h2⟩ := Dl.dh_agrees (ec_parameters hG false) .no (fun h => by cases h) a b ha ha5 hb hb5 true true
  rw [h1, h2]

example : (group (g97 true) false).decode [2, 3] true = some ⟨false, 3, 6⟩ := by decide +kernel
example : (group (g97 false) false).decode [4, 3, 6] true = some ⟨false, 3, 6⟩ := by decide +kernel
example : (group (g97 true) false).decode [2, 100] true = none := by decide +kernel

/-- `Agree` of an ECDH domain with the private key 0 calls `SimultaneousMultiply` with the exponent 0, which is undefined. -/
theorem zero_private_key_undefined (P : Pt) : simPlain (2 ^ 64) c97 64 heapS heapS 1 P [(decodeInt [0]).toNat] () = .error .undefinedBehaviour :=
  simultaneous_multiply_zero_undefined _ _ _ (by decide) _ _ _ _

end Verif.Ecp
