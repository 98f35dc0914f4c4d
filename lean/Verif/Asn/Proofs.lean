import Verif.Asn.Model
import Verif.Asn.Spec
import Verif.Integer.Props
import Mathlib.Tactic.Ring
import Mathlib.Tactic.Linarith

namespace Verif.Asn
open Verif.Misc

theorem byte_and_80_zero (b : Byte) : (b &&& 0x80) = 0 ↔ b.toNat < 128 := by
  have := Integer.byte_and_80 b
  constructor
  · intro h; by_contra h'; exact this.mpr (by omega) h
  · intro h; by_contra h'; have := this.mp h'; omega

theorem byte_and_7f (b : Byte) : (b &&& 0x7f).toNat = b.toNat % 128 := by
  have key : ∀ b : Byte, (b &&& 0x7f).toNat = b.toNat % 128 := by decide +kernel
  exact key b

theorem byte_and_20 (b : Byte) : (b &&& 0x20) = 0 ↔ b.toNat / 32 % 2 = 0 := by
  have key : ∀ b : Byte, decide ((b &&& 0x20) = 0) = decide (b.toNat / 32 % 2 = 0) := by decide +kernel
  exact decide_eq_decide.mp (key b)

theorem byte_or_80 (b : Byte) (h : b.toNat < 128) : b ||| 0x80 = BitVec.ofNat 8 (128 + b.toNat) := by
  have key : ∀ b : Byte, b.toNat < 128 → b ||| 0x80 = BitVec.ofNat 8 (128 + b.toNat) := by decide +kernel
  exact key b h

theorem byte_ext {a b : Byte} (h : a.toNat = b.toNat) : a = b := BitVec.eq_of_toNat_eq h

theorem shl8_or (acc : Nat) (b : Byte) : acc <<< 8 ||| b.toNat = acc * 256 + b.toNat := by
  rw [← Nat.shiftLeft_add_eq_or_of_lt (b := b.toNat) (by have := b.isLt; omega), Nat.shiftLeft_eq]

theorem shr_eq_zero (v t : Nat) : v >>> t = 0 ↔ v < 2 ^ t := by
  have := shiftRight_ne_zero v t
  omega

/-! ### lengths -/

theorem lengthBytes_definite (k : Nat) : ∀ (acc n : Nat) (bt rest : List Byte), acc < 2 ^ 64 →
    (lengthBytes k acc bt = .ok (.definite n, rest) ↔
      n < 2 ^ 64 ∧ ∃ ds : List Byte, ds.length = k ∧ bt = ds ++ rest ∧ n = acc * 256 ^ k + beVal ds) := by
  induction k with
  | zero =>
    intro acc n bt rest ha
    simp only [lengthBytes, Except.ok.injEq, Prod.mk.injEq, Len.definite.injEq]
    constructor
    · rintro ⟨rfl, rfl⟩; exact ⟨ha, [], rfl, rfl, by simp⟩
    · rintro ⟨hn, ds, hd, rfl, rfl⟩
      rw [List.length_eq_zero_iff] at hd; subst hd; simp
  | succ k ih =>
    intro acc n bt rest ha
    simp only [lengthBytes]
    by_cases h56 : acc < 2 ^ 56
    · rw [if_neg (by rw [not_not]; exact (shr_eq_zero _ _).mpr h56)]
      cases bt with
      | nil =>
        simp only [Except.ok.injEq, Prod.mk.injEq, reduceCtorEq, false_and, false_iff]
        rintro ⟨-, ds, hd, he, -⟩
        have := congrArg List.length he
        simp at this; omega
      | cons b bt =>
        simp only []
        have e : (acc <<< 8) % 2 ^ 64 ||| b.toNat = acc * 256 + b.toNat := by
          rw [Nat.mod_eq_of_lt (by rw [Nat.shiftLeft_eq]; omega), shl8_or]
        have hb := b.isLt
        rw [e, ih _ _ _ _ (by omega)]
        constructor
        · rintro ⟨hn, ds, hd, rfl, rfl⟩
          refine ⟨hn, b :: ds, by simp [hd], rfl, ?_⟩
          rw [beVal_cons, hd]; ring
        · rintro ⟨hn, ds, hd, he, rfl⟩
          cases ds with
          | nil => simp at hd
          | cons d ds =>
            simp only [List.cons_append, List.cons.injEq] at he
            obtain ⟨rfl, rfl⟩ := he
            simp only [List.length_cons, Nat.add_right_cancel_iff] at hd
            refine ⟨hn, ds, hd, rfl, ?_⟩
            rw [beVal_cons, hd]; ring
    · rw [if_pos (by rw [ne_eq, shr_eq_zero]; exact h56)]
      simp only [reduceCtorEq, false_iff]
      rintro ⟨hn, ds, hd, he, rfl⟩
      have : 1 ≤ 256 ^ k := Nat.one_le_pow _ _ (by omega)
      have : acc * 256 ≤ acc * 256 ^ (k + 1) := by
        rw [Nat.pow_succ]; exact Nat.mul_le_mul_left _ (by omega)
      omega

theorem lengthBytes_other (k : Nat) : ∀ (acc : Nat) (bt : List Byte),
    (∃ n rest, lengthBytes k acc bt = .ok (.definite n, rest)) ∨ lengthBytes k acc bt = .ok (.truncated, []) ∨
      lengthBytes k acc bt = .error .berDecodeErr := by
  induction k with
  | zero => intro acc bt; exact Or.inl ⟨_, _, rfl⟩
  | succ k ih =>
    intro acc bt
    simp only [lengthBytes]
    split
    · simp
    · cases bt with
      | nil => simp
      | cons b bt => exact ih _ _

theorem berLength_definite (bt rest : List Byte) (n : Nat) :
    berLength bt = .ok (.definite n, rest) ↔ n < 2 ^ 64 ∧ ∃ p, IsLength p n ∧ bt = p ++ rest := by
  cases bt with
  | nil =>
    simp only [berLength, Except.ok.injEq, Prod.mk.injEq, reduceCtorEq, false_and, false_iff]
    rintro ⟨-, p, hp, he⟩
    have : p = [] := (List.append_eq_nil_iff.mp he.symm).1
    subst this
    rcases hp with ⟨b, h, -⟩ | ⟨b, ds, h, -⟩ <;> simp at h
  | cons b bt =>
    have hb := b.isLt
    simp only [berLength]
    by_cases h1 : b.toNat < 128
    · rw [if_pos ((byte_and_80_zero b).mpr h1)]
      simp only [Except.ok.injEq, Prod.mk.injEq, Len.definite.injEq]
      constructor
      · rintro ⟨rfl, rfl⟩
        exact ⟨by omega, [b], Or.inl ⟨b, rfl, h1, rfl⟩, rfl⟩
      · rintro ⟨hn, p, hp, he⟩
        rcases hp with ⟨c, rfl, hc, rfl⟩ | ⟨c, ds, rfl, hc, -, -⟩
        · simp only [List.cons_append, List.nil_append, List.cons.injEq] at he
          rw [he.1, he.2]; simp
        · simp only [List.cons_append, List.cons.injEq] at he
          rw [he.1] at h1; omega
    · rw [if_neg (fun h => h1 ((byte_and_80_zero b).mp h)), byte_and_7f]
      by_cases h2 : b.toNat % 128 = 0
      · rw [if_pos h2]
        simp only [Except.ok.injEq, Prod.mk.injEq, reduceCtorEq, false_and, false_iff]
        rintro ⟨hn, p, hp, he⟩
        rcases hp with ⟨c, rfl, hc, rfl⟩ | ⟨c, ds, rfl, hc, -, -⟩
        · simp only [List.cons_append, List.nil_append, List.cons.injEq] at he
          rw [he.1] at h1; omega
        · simp only [List.cons_append, List.cons.injEq] at he
          rw [he.1] at h2 hb; omega
      · rw [if_neg h2, lengthBytes_definite _ _ _ _ _ (by omega)]
        constructor
        · rintro ⟨hn, ds, hd, rfl, rfl⟩
          refine ⟨hn, b :: ds, Or.inr ⟨b, ds, rfl, by omega, by omega, by omega⟩, rfl⟩
        · rintro ⟨hn, p, hp, he⟩
          rcases hp with ⟨c, rfl, hc, rfl⟩ | ⟨c, ds, rfl, hc, hl, rfl⟩
          · simp only [List.cons_append, List.nil_append, List.cons.injEq] at he
            rw [he.1] at h1; omega
          · simp only [List.cons_append, List.cons.injEq] at he
            obtain ⟨rfl, rfl⟩ := he
            exact ⟨hn, ds, by omega, rfl, by omega⟩

theorem berLength_indefinite (bt rest : List Byte) :
    berLength bt = .ok (.indefinite, rest) ↔ bt = 0x80 :: rest := by
  cases bt with
  | nil => simp [berLength]
  | cons b bt =>
    have hb := b.isLt
    simp only [berLength]
    by_cases h1 : b.toNat < 128
    · rw [if_pos ((byte_and_80_zero b).mpr h1)]
      simp only [Except.ok.injEq, Prod.mk.injEq, reduceCtorEq, false_and, List.cons.injEq, false_iff]
      rintro ⟨rfl, -⟩
      revert h1; decide
    · rw [if_neg (fun h => h1 ((byte_and_80_zero b).mp h)), byte_and_7f]
      by_cases h2 : b.toNat % 128 = 0
      · rw [if_pos h2]
        have : b = 0x80 := byte_ext (by show b.toNat = 128; omega)
        simp [this]
      · rw [if_neg h2]
        constructor
        · intro h
          rcases lengthBytes_other (b.toNat % 128) 0 bt with ⟨n, r, e⟩ | e | e <;> rw [e] at h <;> simp at h
        · intro h
          simp only [List.cons.injEq] at h
          rw [h.1] at h2
          exact absurd rfl h2

theorem berLength_other (bt : List Byte) :
    (∃ n rest, berLength bt = .ok (.definite n, rest)) ∨ (∃ rest, berLength bt = .ok (.indefinite, rest)) ∨
      berLength bt = .ok (.truncated, []) ∨ berLength bt = .error .berDecodeErr := by
  cases bt with
  | nil => simp [berLength]
  | cons b bt =>
    simp only [berLength]
    split
    · exact Or.inl ⟨_, _, rfl⟩
    · split
      · exact Or.inr (Or.inl ⟨_, rfl⟩)
      · rcases lengthBytes_other (b &&& 0x7f).toNat 0 bt with h | h | h
        · exact Or.inl h
        · exact Or.inr (Or.inr (Or.inl h))
        · exact Or.inr (Or.inr (Or.inr h))

theorem berLengthSize_some (sz : Nat) (bt rest : List Byte) (n : Nat) :
    berLengthSize sz bt = .ok (some n, rest) ↔ n < 2 ^ 64 ∧ n < 256 ^ sz ∧ ∃ p, IsLength p n ∧ bt = p ++ rest := by
  have key : berLengthSize sz bt = .ok (some n, rest) ↔ berLength bt = .ok (.definite n, rest) ∧ n < 256 ^ sz := by
    unfold berLengthSize
    rcases berLength_other bt with ⟨m, r, e⟩ | ⟨r, e⟩ | e | e <;> rw [e] <;> simp only [bind, Except.bind]
    · by_cases hm : m % 256 ^ sz = m
      · rw [if_pos hm]
        simp only [Except.ok.injEq, Prod.mk.injEq, Option.some.injEq, Len.definite.injEq]
        constructor
        · rintro ⟨rfl, rfl⟩; exact ⟨⟨rfl, rfl⟩, by rw [← hm]; exact Nat.mod_lt _ (Nat.pow_pos (by omega))⟩
        · rintro ⟨h, -⟩; exact h
      · rw [if_neg hm]
        simp only [reduceCtorEq, false_iff, Except.ok.injEq, Prod.mk.injEq, Len.definite.injEq]
        rintro ⟨⟨rfl, -⟩, h⟩
        exact hm (Nat.mod_eq_of_lt h)
    · simp
    · simp
    · simp
  rw [key, berLength_definite]
  constructor
  · rintro ⟨⟨h1, h2⟩, h3⟩; exact ⟨h1, h3, h2⟩
  · rintro ⟨h1, h3, h2⟩; exact ⟨⟨h1, h2⟩, h3⟩

theorem berLengthSize_none (sz : Nat) (bt rest : List Byte) :
    berLengthSize sz bt = .ok (none, rest) ↔ bt = 0x80 :: rest := by
  rw [← berLength_indefinite]
  unfold berLengthSize
  rcases berLength_other bt with ⟨m, r, e⟩ | ⟨r, e⟩ | e | e <;> rw [e] <;> simp only [bind, Except.bind]
  · split <;> simp
  · simp
  · simp
  · simp

theorem berLengthSize_error (sz : Nat) (bt : List Byte) (e : Err) (h : berLengthSize sz bt = .error e) : e = .berDecodeErr := by
  unfold berLengthSize at h
  rcases berLength_other bt with ⟨m, r, e'⟩ | ⟨r, e'⟩ | e' | e' <;> rw [e'] at h <;> simp only [bind, Except.bind] at h
  · split at h <;> simp at h; exact h.symm
  · simp at h
  · simp at h; exact h.symm
  · simp at h; exact h.symm

/-! ### encoding lengths -/

theorem lengthLoop_eq (n j : Nat) : lengthLoop n j = beBytes j n := by
  induction j with
  | zero => rfl
  | succ j ih =>
    rw [lengthLoop, ih, Integer.beBytes_succ, Nat.shiftRight_eq_div_pow, Nat.mul_comm j 8, Nat.pow_mul 2 8 j]

theorem byteLen_le8 {n : Nat} (h : n < 2 ^ 64) : byteLen n ≤ 8 := byteLen_le h

theorem derLength_eq (n : Nat) (h : n < 2 ^ 64) : derLength n = minLength n := by
  unfold derLength minLength
  by_cases hn : n < 128
  · rw [if_pos (by omega), if_pos hn]
  · rw [if_neg (by omega), if_neg hn, lengthLoop_eq]
    have e : bytePrecision 8 n = byteLen n := bytePrecision_eq 3 n h
    have := byteLen_le8 h
    have hb : (BitVec.ofNat 8 (byteLen n)).toNat = byteLen n := by rw [BitVec.toNat_ofNat]; omega
    rw [e, byte_or_80 _ (by omega), hb]

theorem minLength_isLength (n : Nat) (h : n < 2 ^ 64) : IsLength (minLength n) n := by
  unfold minLength
  split
  · rename_i hn
    refine Or.inl ⟨_, rfl, ?_, ?_⟩ <;> rw [BitVec.toNat_ofNat] <;> omega
  · rename_i hn
    have h8 := byteLen_le8 h
    have hb : (BitVec.ofNat 8 (128 + byteLen n)).toNat = 128 + byteLen n := by rw [BitVec.toNat_ofNat]; omega
    have hp : 0 < byteLen n := by
      rcases Nat.eq_zero_or_pos (byteLen n) with e | e
      · have := byteLen_lt n; rw [e] at this; omega
      · exact e
    refine Or.inr ⟨_, _, rfl, by omega, by rw [beBytes_length]; omega, ?_⟩
    rw [beVal_beBytes, Nat.mod_eq_of_lt (byteLen_lt n)]

theorem minLength_least (n : Nat) (p : List Byte) (hp : IsLength p n) : (minLength n).length ≤ p.length := by
  unfold minLength
  rcases hp with ⟨b, rfl, hb, rfl⟩ | ⟨b, ds, rfl, hb, hd, rfl⟩
  · rw [if_pos hb]; simp
  · split
    · simp
    · simp only [List.length_cons, beBytes_length]
      have := byteLen_le (beVal_lt ds)
      omega

/-- Two minimal length fields for the same length are equal. -/
theorem minLength_unique (n : Nat) (p : List Byte) (hp : IsLength p n) (h : p.length ≤ (minLength n).length) : p = minLength n := by
  unfold minLength at h ⊢
  rcases hp with ⟨b, rfl, hb, rfl⟩ | ⟨b, ds, rfl, hb, hd, rfl⟩
  · rw [if_pos hb]; simp
  · split at h
    · simp at h; rw [h] at hd; simp at hd; omega
    · rename_i hn
      rw [if_neg hn]
      simp only [List.length_cons, beBytes_length] at h
      have := byteLen_le (beVal_lt ds)
      have e : byteLen (beVal ds) = ds.length := by omega
      rw [e, beBytes_beVal]
      congr 1
      apply byte_ext
      rw [BitVec.toNat_ofNat]; have := b.isLt; omega

theorem berLengthSize_derLength (sz n : Nat) (h : n < 2 ^ 64) (h' : n < 256 ^ sz) (rest : List Byte) :
    berLengthSize sz (derLength n ++ rest) = .ok (some n, rest) := by
  rw [berLengthSize_some]
  exact ⟨h, h', _, by rw [derLength_eq n h]; exact minLength_isLength n h, rfl⟩

theorem berLength_derLength (n : Nat) (h : n < 2 ^ 64) (rest : List Byte) :
    berLength (derLength n ++ rest) = .ok (.definite n, rest) := by
  rw [berLength_definite]
  exact ⟨h, _, by rw [derLength_eq n h]; exact minLength_isLength n h, rfl⟩

/-! ### strings -/

theorem getTag_ok (t : Byte) (bt rest : List Byte) : getTag t bt = .ok ((), rest) ↔ bt = t :: rest := by
  cases bt with
  | nil => simp [getTag]
  | cons b bt => simp only [getTag]; split <;> simp_all

theorem getTag_cases (t : Byte) (bt : List Byte) :
    (∃ r, getTag t bt = .ok ((), r) ∧ bt = t :: r) ∨ getTag t bt = .error .berDecodeErr := by
  cases bt with
  | nil => simp [getTag]
  | cons b bt => simp only [getTag]; split <;> simp_all

@[simp] theorem getTag_cons (t : Byte) (bt : List Byte) : getTag t (t :: bt) = .ok ((), bt) := by simp [getTag]

/-- Every string decoder accepts exactly the TLVs with its tag, and returns the content. -/
theorem berString_iff (sz : Nat) (tag : Byte) (bt c rest : List Byte) :
    berString sz tag bt = .ok (c, rest) ↔
      c.length < 2 ^ 64 ∧ c.length < 256 ^ sz ∧ ∃ p, IsTLV tag p c ∧ bt = p ++ rest := by
  constructor
  · intro h
    unfold berString at h
    rcases getTag_cases tag bt with ⟨r, e, rfl⟩ | e <;> rw [e] at h <;> simp only [bind, Except.bind] at h
    · rcases hl : berLengthSize sz r with e' | ⟨_ | bc, r'⟩ <;> rw [hl] at h <;> simp only [reduceCtorEq] at h
      split at h
      · simp at h
      · rename_i hb
        simp only [Except.ok.injEq, Prod.mk.injEq] at h
        obtain ⟨rfl, rfl⟩ := h
        obtain ⟨h1, h2, p, hp, rfl⟩ := (berLengthSize_some _ _ _ _).mp hl
        have hc : (r'.take bc).length = bc := by simp; omega
        rw [hc]
        refine ⟨h1, h2, tag :: (p ++ r'.take bc), ⟨p, by rw [hc]; exact hp, rfl⟩, ?_⟩
        simp
    · simp at h
  · rintro ⟨h1, h2, p, ⟨l, hl, rfl⟩, rfl⟩
    have : berLengthSize sz (l ++ (c ++ rest)) = .ok (some c.length, c ++ rest) := (berLengthSize_some _ _ _ _).mpr ⟨h1, h2, l, hl, rfl⟩
    simp only [berString, List.cons_append, getTag_cons, List.append_assoc, bind, Except.bind, this]
    rw [if_neg (by simp)]
    simp

theorem berNull_iff (sz : Nat) (bt rest : List Byte) :
    berNull sz bt = .ok ((), rest) ↔ ∃ p, IsTLV 0x05 p [] ∧ bt = p ++ rest := by
  constructor
  · intro h
    unfold berNull at h
    rcases getTag_cases 0x05 bt with ⟨r, e, rfl⟩ | e <;> rw [e] at h <;> simp only [bind, Except.bind] at h
    · rcases hl : berLengthSize sz r with e' | ⟨_ | bc, r'⟩ <;> rw [hl] at h <;> simp only [reduceCtorEq] at h
      split at h
      · simp at h
      · rename_i hb
        rw [not_not] at hb; subst hb
        simp only [Except.ok.injEq, Prod.mk.injEq, true_and] at h
        subst h
        obtain ⟨-, -, p, hp, rfl⟩ := (berLengthSize_some _ _ _ _).mp hl
        exact ⟨0x05 :: p, ⟨p, hp, by simp⟩, by simp⟩
    · simp at h
  · rintro ⟨p, ⟨l, hl, rfl⟩, rfl⟩
    have : berLengthSize sz (l ++ rest) = .ok (some 0, rest) :=
      (berLengthSize_some _ _ _ _).mpr ⟨by decide, Nat.pow_pos (by omega), l, hl, rfl⟩
    simp only [berNull, List.cons_append, getTag_cons, List.append_assoc, List.nil_append, bind, Except.bind, this]
    simp

theorem berBitString_iff (sz : Nat) (bt c rest : List Byte) (u : Nat) :
    berBitString sz bt = .ok ((c, u), rest) ↔
      c.length + 1 < 2 ^ 64 ∧ c.length + 1 < 256 ^ sz ∧ u ≤ 7 ∧ ∃ p, IsTLV 0x03 p (BitVec.ofNat 8 u :: c) ∧ bt = p ++ rest := by
  constructor
  · intro h
    unfold berBitString at h
    rcases getTag_cases 0x03 bt with ⟨r, e, rfl⟩ | e <;> rw [e] at h <;> simp only [bind, Except.bind] at h
    · rcases hl : berLengthSize sz r with e' | ⟨_ | bc, r'⟩ <;> rw [hl] at h <;> simp only [reduceCtorEq] at h
      split at h
      · simp at h
      rename_i hb0
      split at h
      · simp at h
      rename_i hb
      obtain ⟨h1, h2, p, hp, rfl⟩ := (berLengthSize_some _ _ _ _).mp hl
      cases r' with
      | nil => simp at h
      | cons x r' =>
        simp only [] at h
        split at h
        · simp at h
        rename_i hx
        split at h
        · simp at h
        rename_i hc
        rw [not_not] at hc
        simp only [Except.ok.injEq, Prod.mk.injEq] at h
        obtain ⟨⟨rfl, rfl⟩, rfl⟩ := h
        rw [hc]
        refine ⟨by omega, by omega, by omega, 0x03 :: (p ++ x :: r'.take (bc - 1)), ⟨p, ?_, ?_⟩, by simp⟩
        · rw [List.length_cons, hc, show bc - 1 + 1 = bc by omega]; exact hp
        · rw [BitVec.ofNat_toNat, BitVec.setWidth_eq]
    · simp at h
  · rintro ⟨h1, h2, h3, p, ⟨l, hl, rfl⟩, rfl⟩
    have : berLengthSize sz (l ++ (BitVec.ofNat 8 u :: c ++ rest)) = .ok (some (c.length + 1), BitVec.ofNat 8 u :: c ++ rest) :=
      (berLengthSize_some _ _ _ _).mpr ⟨h1, h2, l, hl, rfl⟩
    have hu : (BitVec.ofNat 8 u).toNat = u := by rw [BitVec.toNat_ofNat]; omega
    simp only [berBitString, List.cons_append, getTag_cons, List.append_assoc, bind, Except.bind] at this ⊢
    rw [this]
    simp [hu, show ¬ (7 < u) by omega]

theorem derString_isTLV (tag : Byte) (c : List Byte) (h : c.length < 2 ^ 64) : IsTLV tag (derString tag c) c :=
  ⟨_, by rw [derLength_eq _ h]; exact minLength_isLength _ h, rfl⟩

end Verif.Asn
