import Verif.Asn.Proofs2

namespace Verif.Asn
open Verif.Misc

/-! ### object identifiers -/

theorem isArc_cons_low {b : Byte} {p : List Byte} (h : b.toNat < 128) :
    (∃ init last, b :: p = init ++ [last] ∧ (∀ x ∈ init, 128 ≤ x.toNat) ∧ last.toNat < 128) ↔ p = [] := by
  constructor
  · rintro ⟨init, last, he, h1, h2⟩
    cases init with
    | nil => simp at he; exact he.2
    | cons x init =>
      simp only [List.cons_append, List.cons.injEq] at he
      have := h1 x (by simp)
      rw [← he.1] at this; omega
  · rintro rfl
    exact ⟨[], b, rfl, by simp, h⟩

theorem isArc_cons_high {b : Byte} {p : List Byte} (h : 128 ≤ b.toNat) :
    (∃ init last, b :: p = init ++ [last] ∧ (∀ x ∈ init, 128 ≤ x.toNat) ∧ last.toNat < 128) ↔
    (∃ init last, p = init ++ [last] ∧ (∀ x ∈ init, 128 ≤ x.toNat) ∧ last.toNat < 128) := by
  constructor
  · rintro ⟨init, last, he, h1, h2⟩
    cases init with
    | nil =>
      simp only [List.nil_append, List.cons.injEq] at he
      rw [← he.1] at h2; omega
    | cons x init =>
      simp only [List.cons_append, List.cons.injEq] at he
      exact ⟨init, last, he.2, fun y hy => h1 y (by simp [hy]), h2⟩
  · rintro ⟨init, last, rfl, h1, h2⟩
    refine ⟨b :: init, last, rfl, ?_, h2⟩
    intro x hx
    rcases List.mem_cons.mp hx with rfl | hx
    · exact h
    · exact h1 x hx

theorem base128_ge (p : List Byte) : ∀ acc, acc * 128 ^ p.length ≤ base128 p acc := by
  induction p with
  | nil => intro acc; simp [base128]
  | cons b p ih =>
    intro acc
    rw [base128]
    refine Nat.le_trans ?_ (ih _)
    rw [List.length_cons, Nat.pow_succ, Nat.mul_comm (128 ^ p.length) 128, ← Nat.mul_assoc]
    exact Nat.mul_le_mul_right _ (by omega)

theorem oidDecodeValue_iff (bt : List Byte) : ∀ (acc i n k : Nat) (rest : List Byte), acc < 2 ^ 32 →
    (oidDecodeValue acc i bt = .ok ((n, k), rest) ↔
      n < 2 ^ 32 ∧ ∃ p : List Byte, (∃ init last, p = init ++ [last] ∧ (∀ b ∈ init, 128 ≤ b.toNat) ∧ last.toNat < 128) ∧
        n = base128 p acc ∧ k = i + p.length ∧ bt = p ++ rest) := by
  induction bt with
  | nil =>
    intro acc i n k rest ha
    simp only [oidDecodeValue, reduceCtorEq, false_iff]
    rintro ⟨-, p, ⟨init, last, rfl, -⟩, -, -, he⟩
    simp at he
  | cons b bt ih =>
    intro acc i n k rest ha
    have hb := b.isLt
    have h7 : (b &&& 0x7f).toNat < 128 := by rw [byte_and_7f]; omega
    simp only [oidDecodeValue]
    by_cases h25 : acc < 2 ^ 25
    · rw [if_neg (by rw [not_not]; exact (shr_eq_zero _ _).mpr h25)]
      have e : ((acc <<< 7) % 2 ^ 32 + (b &&& 0x7f).toNat) % 2 ^ 32 = acc * 128 + b.toNat % 128 := by
        rw [Nat.shiftLeft_eq, byte_and_7f, Nat.mod_eq_of_lt (a := acc * 2 ^ 7) (by omega), Nat.mod_eq_of_lt (by omega)]
      rw [e]
      by_cases hlow : b.toNat < 128
      · rw [if_pos ((byte_and_80_zero b).mpr hlow)]
        simp only [Except.ok.injEq, Prod.mk.injEq]
        constructor
        · rintro ⟨⟨rfl, rfl⟩, rfl⟩
          exact ⟨by omega, [b], (isArc_cons_low hlow).mpr rfl, rfl, rfl, rfl⟩
        · rintro ⟨hn, p, hp, rfl, rfl, he⟩
          cases p with
          | nil => obtain ⟨init, last, h, -⟩ := hp; simp at h
          | cons x p =>
            simp only [List.cons_append, List.cons.injEq] at he
            obtain ⟨rfl, rfl⟩ := he
            have := (isArc_cons_low hlow).mp hp
            subst this
            simp [base128]
      · rw [if_neg (fun h => hlow ((byte_and_80_zero b).mp h)), ih _ _ _ _ _ (by omega)]
        constructor
        · rintro ⟨hn, p, hp, rfl, rfl, rfl⟩
          exact ⟨hn, b :: p, (isArc_cons_high (by omega)).mpr hp, rfl, by simp; omega, rfl⟩
        · rintro ⟨hn, p, hp, rfl, rfl, he⟩
          cases p with
          | nil => obtain ⟨init, last, h, -⟩ := hp; simp at h
          | cons x p =>
            simp only [List.cons_append, List.cons.injEq] at he
            obtain ⟨rfl, rfl⟩ := he
            exact ⟨hn, p, (isArc_cons_high (by omega)).mp hp, rfl, by simp; omega, rfl⟩
    · rw [if_pos (by rw [ne_eq, shr_eq_zero]; exact h25)]
      simp only [reduceCtorEq, false_iff]
      rintro ⟨hn, p, hp, rfl, rfl, he⟩
      have h1 := base128_ge p acc
      have h2 : 0 < p.length := by
        obtain ⟨init, last, rfl, -⟩ := hp; simp
      have h3 : 128 ^ 1 ≤ 128 ^ p.length := Nat.pow_le_pow_right (by omega) h2
      have h4 : acc * 128 ^ 1 ≤ acc * 128 ^ p.length := Nat.mul_le_mul_left _ h3
      omega

theorem oidDecodeValue_error (bt : List Byte) : ∀ (acc i : Nat) (e : Err), oidDecodeValue acc i bt = .error e → e = .berDecodeErr := by
  induction bt with
  | nil => intro acc i e h; simp [oidDecodeValue] at h; exact h.symm
  | cons b bt ih =>
    intro acc i e h
    simp only [oidDecodeValue] at h
    split at h
    · simp at h; exact h.symm
    · split at h
      · simp at h
      · exact ih _ _ _ h

theorem oidArcs_iff (fuel : Nat) : ∀ (len : Nat) (vs ws : List Nat) (bt rest : List Byte), len ≤ fuel →
    (oidArcs fuel len vs bt = .ok (ws, rest) ↔
      ∃ c arcs, IsArcs c arcs ∧ c.length = len ∧ (∀ a ∈ arcs, a < 2 ^ 32) ∧ ws = vs ++ arcs ∧ bt = c ++ rest) := by
  induction fuel with
  | zero =>
    intro len vs ws bt rest hl
    have : len = 0 := by omega
    subst this
    rw [oidArcs]
    simp only [Except.ok.injEq, Prod.mk.injEq]
    constructor
    · rintro ⟨rfl, rfl⟩; exact ⟨[], [], .nil, rfl, by simp, by simp, rfl⟩
    · rintro ⟨c, arcs, hc, hlen, -, rfl, rfl⟩
      rw [List.length_eq_zero_iff] at hlen
      cases hc with
      | nil => simp
      | cons hp hq =>
        obtain ⟨⟨init, last, rfl, -⟩, -⟩ := hp
        simp at hlen
  | succ fuel ih =>
    intro len vs ws bt rest hl
    cases len with
    | zero =>
      rw [oidArcs]
      simp only [Except.ok.injEq, Prod.mk.injEq]
      constructor
      · rintro ⟨rfl, rfl⟩; exact ⟨[], [], .nil, rfl, by simp, by simp, rfl⟩
      · rintro ⟨c, arcs, hc, hlen, -, rfl, rfl⟩
        rw [List.length_eq_zero_iff] at hlen
        cases hc with
        | nil => simp
        | cons hp hq =>
          obtain ⟨⟨init, last, rfl, -⟩, -⟩ := hp
          simp at hlen
    | succ len =>
      rw [oidArcs]
      constructor
      · intro h
        rcases hd : oidDecodeValue 0 0 bt with e | ⟨⟨n, k⟩, r⟩ <;> rw [hd] at h <;> simp only [bind, Except.bind] at h
        · simp at h
        · obtain ⟨hn, p, hp, hv, hk, rfl⟩ := (oidDecodeValue_iff _ _ _ _ _ _ (by omega)).mp hd
          have hpl : 0 < p.length := by obtain ⟨init, last, rfl, -⟩ := hp; simp
          split at h
          · simp at h
          · rename_i hle
            obtain ⟨c, arcs, hc, hcl, ha, rfl, rfl⟩ := (ih _ _ _ _ _ (by omega)).mp h
            refine ⟨p ++ c, n :: arcs, .cons ⟨hp, hv⟩ hc, by simp; omega, ?_, by simp, by simp⟩
            intro a ha'
            rcases List.mem_cons.mp ha' with rfl | h'
            · exact hn
            · exact ha a h'
      · rintro ⟨c, arcs, hc, hcl, ha, rfl, rfl⟩
        cases hc with
        | nil => simp at hcl
        | @cons p q v arcs hp hq =>
          have hd := (oidDecodeValue_iff (p ++ q ++ rest) 0 0 v p.length (q ++ rest) (by omega)).mpr
            ⟨ha v (by simp), p, hp.1, hp.2, by omega, by simp⟩
          have hpl : 0 < p.length := by obtain ⟨⟨init, last, rfl, -⟩, -⟩ := hp; simp
          rw [hd]
          simp only [bind, Except.bind]
          simp only [List.length_append] at hcl
          rw [if_neg (by omega), ih _ _ _ _ _ (by omega)]
          exact ⟨q, arcs, hq, by omega, fun a h' => ha a (by simp [h']), by simp, rfl⟩

theorem berOid_iff (sz : Nat) (bt rest : List Byte) (vs : List Nat) :
    berOid sz bt = .ok (vs, rest) ↔
      ∃ p b c arcs, IsTLV 0x06 p (b :: c) ∧ bt = p ++ rest ∧ c.length + 1 < 2 ^ 64 ∧ c.length + 1 < 256 ^ sz ∧
        IsArcs c arcs ∧ (∀ a ∈ arcs, a < 2 ^ 32) ∧ vs = [b.toNat / 40, b.toNat % 40] ++ arcs := by
  constructor
  · intro h
    unfold berOid at h
    rcases getTag_cases 0x06 bt with ⟨r, e, rfl⟩ | e <;> rw [e] at h <;> simp only [bind, Except.bind] at h
    · rcases hl : berLengthSize sz r with e' | ⟨_ | bc, r'⟩ <;> rw [hl] at h <;> simp only [reduceCtorEq] at h
      split at h
      · simp at h
      rename_i hb0
      cases r' with
      | nil => simp at h
      | cons b r' =>
        obtain ⟨c, arcs, hc, hcl, ha, rfl, rfl⟩ := (oidArcs_iff _ _ _ _ _ _ (le_refl _)).mp h
        obtain ⟨h1, h2, p, hp, rfl⟩ := (berLengthSize_some _ _ _ _).mp hl
        refine ⟨0x06 :: (p ++ b :: c), b, c, arcs, ⟨p, ?_, rfl⟩, by simp, by omega, by omega, hc, ha, rfl⟩
        rw [List.length_cons, hcl, show bc - 1 + 1 = bc by omega]; exact hp
    · simp at h
  · rintro ⟨p, b, c, arcs, ⟨l, hl, rfl⟩, rfl, h1, h2, hc, ha, rfl⟩
    have e : berLengthSize sz (l ++ (b :: c ++ rest)) = .ok (some (c.length + 1), b :: c ++ rest) :=
      (berLengthSize_some _ _ _ _).mpr ⟨h1, h2, l, hl, rfl⟩
    simp only [List.cons_append] at e
    simp only [berOid, List.cons_append, getTag_cons, List.append_assoc, bind, Except.bind, e]
    rw [if_neg (by omega), oidArcs_iff _ _ _ _ _ _ (by omega)]
    exact ⟨c, arcs, hc, by omega, ha, rfl, rfl⟩

/-! ### encoding arcs -/

theorem byte_or_and_7f (v : Nat) : (0x80 ||| (BitVec.ofNat 8 v &&& 0x7f) : Byte).toNat = 128 + v % 128 := by
  have key : ∀ b : Byte, (0x80 ||| (b &&& 0x7f) : Byte).toNat = 128 + b.toNat % 128 := by decide +kernel
  rw [key, BitVec.toNat_ofNat]; omega

theorem base128_append (p q : List Byte) : ∀ acc, base128 (p ++ q) acc = base128 q (base128 p acc) := by
  induction p with
  | nil => intro acc; rfl
  | cons b p ih => intro acc; rw [List.cons_append, base128, base128, ih]

theorem oidLoop_spec (v j : Nat) : (∀ b ∈ oidLoop v (7 * j), 128 ≤ b.toNat) ∧
    ∀ acc, acc = v / 128 ^ (j + 1) → base128 (oidLoop v (7 * j)) acc = v / 128 := by
  induction j with
  | zero =>
    rw [oidLoop]
    simp [base128]
  | succ j ih =>
    rw [oidLoop, if_neg (by omega), show 7 * (j + 1) - 7 = 7 * j by omega]
    have hq : v >>> (7 * (j + 1)) = v / 128 ^ (j + 1) := by rw [Nat.shiftRight_eq_div_pow, Nat.pow_mul 2 7 (j + 1)]
    refine ⟨?_, ?_⟩
    · intro b hb
      rcases List.mem_cons.mp hb with rfl | hb
      · rw [byte_or_and_7f]; omega
      · exact ih.1 b hb
    · intro acc ha
      rw [base128, byte_or_and_7f, hq]
      apply ih.2
      have : acc = v / 128 ^ (j + 1) / 128 := by rw [ha, Nat.pow_succ 128 (j + 1), Nat.div_div_eq_div_mul]
      omega

theorem roundup7 (n : Nat) (h : 7 ≤ n) : ∃ j, (n + 6) / 7 * 7 - 7 = 7 * j ∧ n ≤ 7 * (j + 1) ∧ 7 * j < n := by
  exact ⟨(n + 6) / 7 - 1, by omega, by omega, by omega⟩

theorem oidEncodeValue_spec (v : Nat) (h : v < 2 ^ 32) : IsArc (oidEncodeValue v) v ∧ (oidEncodeValue v).headD 0 ≠ 0x80 := by
  unfold oidEncodeValue
  rw [bitPrecision_eq 4 v h]
  obtain ⟨j, hj, hj2, hj3⟩ := roundup7 (max 7 (bitLen v)) (by omega)
  rw [hj]
  obtain ⟨k1, k2⟩ := oidLoop_spec v j
  have hv : v < 128 ^ (j + 1) := by
    have := bitLen_lt v
    have h2 : 2 ^ bitLen v ≤ 2 ^ (7 * (j + 1)) := Nat.pow_le_pow_right (by omega) (by omega)
    rw [Nat.pow_mul] at h2
    have e : (2 ^ 7) ^ (j + 1) = 128 ^ (j + 1) := rfl
    omega
  have hl : (BitVec.ofNat 8 v &&& 0x7f : Byte).toNat = v % 128 := by rw [byte_and_7f, BitVec.toNat_ofNat]; omega
  refine ⟨⟨⟨_, _, rfl, k1, by rw [hl]; omega⟩, ?_⟩, ?_⟩
  · rw [base128_append, k2 0 (by rw [Nat.div_eq_of_lt hv]), base128, base128, hl]
    omega
  · cases j with
    | zero =>
      rw [oidLoop]
      simp only [Nat.mul_zero, if_true, List.nil_append, List.headD_cons]
      intro hc
      have := congrArg BitVec.toNat hc
      rw [hl, show ((0x80 : Byte)).toNat = 128 from rfl] at this
      omega
    | succ j =>
      rw [oidLoop, if_neg (by omega), List.cons_append, List.headD_cons]
      intro hc
      have := congrArg BitVec.toNat hc
      rw [byte_or_and_7f, show ((0x80 : Byte)).toNat = 128 from rfl, Nat.shiftRight_eq_div_pow] at this
      have hge : 2 ^ (7 * (j + 1)) ≤ v := by
        have h0 : v ≠ 0 := by rintro rfl; simp at hj3
        have h1 := bitLen_pos_le h0
        have h2 : 2 ^ (7 * (j + 1)) ≤ 2 ^ (bitLen v - 1) := Nat.pow_le_pow_right (by omega) (by omega)
        omega
      have hlt : v / 2 ^ (7 * (j + 1)) < 128 := by
        apply Nat.div_lt_of_lt_mul
        have e : 2 ^ (7 * (j + 1)) * 128 = 128 ^ (j + 1 + 1) := by rw [Nat.pow_mul, Nat.pow_succ 128 (j + 1)]
        omega
      have hpos : 0 < v / 2 ^ (7 * (j + 1)) := Nat.div_pos hge (Nat.two_pow_pos _)
      omega

theorem isArcs_flatMap (arcs : List Nat) (h : ∀ a ∈ arcs, a < 2 ^ 32) : IsArcs (arcs.flatMap oidEncodeValue) arcs := by
  induction arcs with
  | nil => exact .nil
  | cons a arcs ih =>
    rw [List.flatMap_cons]
    exact .cons (oidEncodeValue_spec a (h a (by simp))).1 (ih (fun x hx => h x (by simp [hx])))

/-! ### constructed values -/

theorem berInit_definite (tag : Byte) (bt rest : List Byte) (n : Nat) :
    berInit tag bt = .ok (some n, rest) ↔ n < 2 ^ 64 ∧ ∃ l, IsLength l n ∧ bt = tag :: (l ++ rest) := by
  constructor
  · intro h
    unfold berInit at h
    rcases getTag_cases tag bt with ⟨r, e, rfl⟩ | e <;> rw [e] at h <;> simp only [bind, Except.bind] at h
    · rcases berLength_other r with ⟨m, r', e⟩ | ⟨r', e⟩ | e | e <;> rw [e] at h
      · simp only [Except.ok.injEq, Prod.mk.injEq, Option.some.injEq] at h
        obtain ⟨rfl, rfl⟩ := h
        obtain ⟨h1, p, hp, rfl⟩ := (berLength_definite _ _ _).mp e
        exact ⟨h1, p, hp, rfl⟩
      · simp only [] at h; split at h <;> simp at h
      · simp at h
      · simp at h
    · simp at h
  · rintro ⟨h1, l, hl, rfl⟩
    have e := (berLength_definite (l ++ rest) rest n).mpr ⟨h1, l, hl, rfl⟩
    simp only [berInit, getTag_cons, bind, Except.bind, e]

theorem berInit_indefinite (tag : Byte) (bt rest : List Byte) :
    berInit tag bt = .ok (none, rest) ↔ tag.toNat / 32 % 2 = 1 ∧ bt = tag :: 0x80 :: rest := by
  constructor
  · intro h
    unfold berInit at h
    rcases getTag_cases tag bt with ⟨r, e, rfl⟩ | e <;> rw [e] at h <;> simp only [bind, Except.bind] at h
    · rcases berLength_other r with ⟨m, r', e⟩ | ⟨r', e⟩ | e | e <;> rw [e] at h
      · simp at h
      · simp only [] at h
        split at h
        · simp at h
        · rename_i ht
          simp only [Except.ok.injEq, Prod.mk.injEq, true_and] at h
          subst h
          rw [berLength_indefinite] at e
          subst e
          rw [byte_and_20] at ht
          exact ⟨by omega, rfl⟩
      · simp at h
      · simp at h
    · simp at h
  · rintro ⟨h1, rfl⟩
    have e := (berLength_indefinite (0x80 :: rest) rest).mpr rfl
    simp only [berInit, getTag_cons, bind, Except.bind, e]
    rw [if_neg (by rw [byte_and_20]; omega)]

theorem berGeneral_definite {α : Type} (tag : Byte) (body : Option Nat → Parser α) (l c rest : List Byte) (x : α)
    (hl : IsLength l c.length) (hc : c.length < 2 ^ 64) (hb : body (some c.length) c = .ok (x, [])) :
    berGeneral tag body (tag :: (l ++ c) ++ rest) = .ok (x, rest) := by
  have hi : berInit tag (tag :: (l ++ c) ++ rest) = .ok (some c.length, c ++ rest) :=
    (berInit_definite _ _ _ _).mpr ⟨hc, l, hl, by simp⟩
  simp only [berGeneral, hi, bind, Except.bind, List.take_left' rfl, hb, List.drop_left' rfl]
  simp

/-- What a decoder over a definite-length value accepts: a TLV whose content its body consumes entirely. -/
theorem berGeneral_sound {α : Type} (tag : Byte) (body : Option Nat → Parser α) (bt rest : List Byte) (x : α)
    (ht : tag.toNat / 32 % 2 = 0) (h : berGeneral tag body bt = .ok (x, rest)) (hshort : ∀ n s y, body n s = .ok y → y.2.length ≤ s.length) :
    ∃ p c, IsTLV tag p c ∧ bt = p ++ rest ∧ c.length < 2 ^ 64 ∧ body (some c.length) c = .ok (x, []) := by
  unfold berGeneral at h
  rcases hi : berInit tag bt with e | ⟨_ | n, r⟩ <;> rw [hi] at h <;> simp only [bind, Except.bind] at h
  · simp at h
  · have := ((berInit_indefinite _ _ _).mp hi).1; omega
  · obtain ⟨h1, l, hl, rfl⟩ := (berInit_definite _ _ _ _).mp hi
    rcases hb : body (some n) (r.take n) with e | ⟨y, s⟩ <;> rw [hb] at h <;> simp only [] at h
    · simp at h
    · split at h
      · simp at h
      · rename_i hz
        simp only [Except.ok.injEq, Prod.mk.injEq] at h
        obtain ⟨rfl, rfl⟩ := h
        have hs := hshort _ _ _ hb
        simp only [List.length_take] at hz hs
        have hsl : s = [] := List.length_eq_zero_iff.mp (by omega)
        have hn : (r.take n).length = n := by simp; omega
        refine ⟨tag :: (l ++ r.take n), r.take n, ⟨l, by rw [hn]; exact hl, rfl⟩, by simp, by omega, ?_⟩
        rw [hn, hb, hsl]

/-! ### DERReencode -/

theorem isLength_ne_nil {l : List Byte} {n : Nat} (h : IsLength l n) : l ≠ [] := by
  rcases h with ⟨b, rfl, -⟩ | ⟨b, ds, rfl, -⟩ <;> simp

theorem octets_take2 (t : Ber) (h : t.WF) (rest : List Byte) : (t.octets ++ rest).take 2 ≠ [0, 0] := by
  cases t with
  | definite tag l c =>
    rw [Ber.octets]
    rw [Ber.WF] at h
    obtain ⟨hl, -, hne⟩ := h
    rcases hl with ⟨b, rfl, hb, -⟩ | ⟨b, ds, rfl, hb, -⟩
    · simp only [List.cons_append, List.take_succ_cons, List.take_zero, List.nil_append, ne_eq, List.cons.injEq, and_true]
      rintro ⟨rfl, rfl⟩; exact hne ⟨rfl, rfl⟩
    · simp only [List.cons_append, List.take_succ_cons, List.take_zero, ne_eq, List.cons.injEq, and_true]
      rintro ⟨rfl, rfl⟩
      have : (0 : Byte).toNat = 0 := rfl
      omega
  | indefinite tag ps =>
    rw [Ber.octets]
    simp only [List.cons_append, List.take_succ_cons, List.take_zero, ne_eq, List.cons.injEq, and_true]
    rintro ⟨-, h⟩; revert h; decide

theorem octets_length (t : Ber) (h : t.WF) : 2 ≤ t.octets.length := by
  cases t with
  | definite tag l c =>
    rw [Ber.octets]
    rw [Ber.WF] at h
    have := List.length_pos_iff.mpr (isLength_ne_nil h.1)
    simp; omega
  | indefinite tag ps => rw [Ber.octets]; simp

mutual
theorem derReencode_spec : ∀ (t : Ber) (fuel : Nat) (rest : List Byte), t.WF → t.octets.length ≤ fuel →
    derReencode fuel (t.octets ++ rest) = .ok (t.der, rest)
  | .definite tag l c, fuel, rest, h, hf => by
    have h2 := octets_length _ h
    rw [Ber.WF] at h
    obtain ⟨hl, hc, -⟩ := h
    cases fuel with
    | zero => omega
    | succ fuel =>
      have hg := berGeneral_definite (α := List Byte) tag
        (reencodeBody (fun s => derReencode.loop fuel (s.length + 1) [] s)) l c rest c hl hc (by simp [reencodeBody])
      rw [derReencode]
      simp only [Ber.octets, List.cons_append, List.headD_cons] at hg ⊢
      rw [hg]
      simp only [Except.map, Ber.der, derGeneral, derLength_eq _ hc]
  | .indefinite tag ps, fuel, rest, h, hf => by
    rw [Ber.WF] at h
    obtain ⟨ht, hd, hp⟩ := h
    cases fuel with
    | zero => simp [Ber.octets] at hf
    | succ fuel =>
      have hi : berInit tag (tag :: 0x80 :: (octetsList ps ++ ([0, 0] ++ rest))) = .ok (none, octetsList ps ++ ([0, 0] ++ rest)) :=
        (berInit_indefinite _ _ _).mpr ⟨ht, rfl⟩
      simp only [Ber.octets, List.length_cons, List.length_append] at hf
      have hlp := reencodeLoop_spec ps fuel ((octetsList ps ++ ([0, 0] ++ rest)).length + 1) [] rest hp
        (by simp at hf ⊢; omega) (by simp; omega)
      rw [derReencode]
      simp only [Ber.octets, List.cons_append, List.headD_cons, List.append_assoc, berGeneral] at hi hlp ⊢
      rw [hi]
      simp only [bind, Except.bind, reencodeBody]
      rw [hlp]
      simp [Except.map, Ber.der, derGeneral, derLength_eq _ hd]
theorem reencodeLoop_spec : ∀ (ps : List Ber) (fuel k : Nat) (enc rest : List Byte), WFList ps →
    (octetsList ps).length ≤ fuel → (octetsList ps).length < k →
    derReencode.loop fuel k enc (octetsList ps ++ ([0, 0] ++ rest)) = .ok (enc ++ derList ps, [0, 0] ++ rest)
  | [], fuel, k, enc, rest, _, _, hk => by
    cases k with
    | zero => omega
    | succ k => simp [derReencode.loop, octetsList, derList]
  | p :: ps, fuel, k, enc, rest, h, hf, hk => by
    rw [WFList] at h
    have h2 := octets_length p h.1
    simp only [octetsList, List.length_append] at hf hk
    cases k with
    | zero => omega
    | succ k =>
      rw [derReencode.loop, octetsList, List.append_assoc, if_neg (octets_take2 p h.1 _),
        derReencode_spec p fuel _ h.1 (by omega)]
      simp only [bind, Except.bind]
      rw [reencodeLoop_spec ps fuel k _ rest h.2 (by omega) (by omega)]
      simp [derList]
end

end Verif.Asn
