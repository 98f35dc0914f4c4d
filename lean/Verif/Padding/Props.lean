import Verif.Padding.Proofs

/-!
# Properties C08, C09: padding in `StreamTransformationFilter`
-/
namespace Verif.Padding
open Verif.BufFilter

/-! ## Encryption: what is encrypted is the padded message -/

theorem lastLength_zero (s n : Nat) : lastLength 0 s 0 n = n % s := by
  unfold lastLength
  simp only [Nat.not_lt_zero, if_false, Nat.add_zero, Nat.sub_zero, Nat.zero_add]
  split
  · have : n = 0 := by omega
    subst this; simp
  · rfl

theorem lastLength_block (s n : Nat) (hs : 1 ≤ s) :
    (0 < n ∧ n % s = 0 → lastLength 0 s s n = s) ∧ (¬ (0 < n ∧ n % s = 0) → lastLength 0 s s n ≠ s) := by
  unfold lastLength
  simp only [Nat.not_lt_zero, if_false, Nat.zero_add, Nat.sub_zero]
  constructor
  · intro ⟨h1, h2⟩
    have := Nat.le_of_dvd h1 (Nat.dvd_of_mod_eq_zero h2)
    split
    · omega
    · have : (n - s) % s = 0 := Nat.mod_eq_zero_of_dvd (Nat.dvd_sub (Nat.dvd_of_mod_eq_zero h2) (Nat.dvd_refl s))
      omega
  · intro h hc
    apply h
    split at hc
    · subst hc; exact ⟨by omega, Nat.mod_self _⟩
    · rename_i hgt
      refine ⟨by omega, ?_⟩
      have : (n - s) % s = 0 := by omega
      have h2 : n = (n - s) + s := by omega
      rw [h2, Nat.add_mod_right]; exact this

theorem padBlock_padded (p : Scheme) (s : Nat) (hs : 1 ≤ s) (m : List Byte) (hp : p = .pkcs ∨ p = .w3c ∨ p = .oneAndZeros) :
    m.take (m.length - m.length % s) ++ padBlock p s (m.drop (m.length - m.length % s)) = padded p s m := by
  have hmod := Nat.mod_le m.length s
  have hlen : (m.drop (m.length - m.length % s)).length = m.length % s := by rw [List.length_drop]; omega
  rcases hp with rfl | rfl | rfl
  · simp only [padBlock, padded, hlen]
    rw [← List.append_assoc, List.take_append_drop]
  · simp only [padBlock, padded, hlen]
    rw [← List.append_assoc, ← List.append_assoc, List.take_append_drop]
  · simp only [padBlock, padded, hlen]
    rw [← List.append_assoc, List.take_append_drop]

theorem padded_length (p : Scheme) (s : Nat) (hs : 1 ≤ s) (m : List Byte) (hp : p ≠ .none) : (padded p s m).length % s = 0 := by
  have h := Nat.mod_lt m.length (show 0 < s by omega)
  have hdm := Nat.div_add_mod m.length s
  have key : (m.length + (s - m.length % s)) % s = 0 := by
    have : m.length + (s - m.length % s) = s * (m.length / s + 1) := by rw [Nat.mul_add]; omega
    rw [this]; exact Nat.mul_mod_right _ _
  have : (padded p s m).length = m.length + (s - m.length % s) ∨
      (padded p s m).length = m.length + (s - m.length % s) % s := by
    cases p <;> simp [padded] at hp ⊢ <;> omega
  rcases this with h | h
  · rw [h]; exact key
  · rw [h, Nat.add_mod, Nat.mod_mod, ← Nat.add_mod]; exact key

/-- **C08.** With PKCS, W3C or one-and-zeros padding, the filter's output is the encryption of the padded message. -/
theorem encrypt_output (junk : Nat → Byte) (c : Cipher σ) (hc : c.Ok) (hf : c.forward = true) (hb : 1 < c.mandatory) (hl : c.minLast = 0)
    (p : Scheme) (hp : p = .pkcs ∨ p = .w3c ∨ p = .oneAndZeros) (env : Env) (he : env.Ok c.mandatory) (st : σ)
    (pieces : List (List Byte)) :
    runFilter junk c (some p) env st pieces = .ok (c.process st (padded p c.mandatory pieces.flatten)) := by
  have hi : initSizes c (some p) = .ok (p, 0) := by
    unfold initSizes lastBlockSize
    simp [hb, hl, hf]
  obtain ⟨h1, h2⟩ := runFilter_eq junk c hc (some p) env he st pieces p 0 hi
  rw [h1]
  generalize pieces.flatten = m at *
  rw [lastLength_zero] at *
  have hk : ∀ st x, lastPut c p st x = .ok (c.process st (padBlock p c.mandatory x)) := by
    intro st x
    unfold lastPut
    rcases hp with rfl | rfl | rfl <;> simp [hf]
  rw [hk, bind_ok]
  have hpm : (padBlock p c.mandatory (m.drop (m.length - m.length % c.mandatory))).length % c.mandatory = 0 := by
    have h3 := padded_length p c.mandatory hc.pos m (by rcases hp with rfl | rfl | rfl <;> simp)
    rw [← padBlock_padded p c.mandatory hc.pos m hp, List.length_append, Nat.add_mod, h2] at h3
    simpa using h3
  rw [← padBlock_padded p c.mandatory hc.pos m hp, hc.append _ _ _ h2 hpm]

/-- **C08.** With zeros padding: the message is filled up with zero bytes, none if it is whole blocks already. -/
theorem encrypt_output_zeros (junk : Nat → Byte) (c : Cipher σ) (hc : c.Ok) (hf : c.forward = true) (hl : c.minLast = 0)
    (env : Env) (he : env.Ok c.mandatory) (st : σ) (pieces : List (List Byte)) :
    runFilter junk c (some .zeros) env st pieces = .ok (c.process st (padded .zeros c.mandatory pieces.flatten)) := by
  have hi : initSizes c (some .zeros) = .ok (.zeros, 0) := by
    unfold initSizes lastBlockSize
    simp [hl, hf]
  obtain ⟨h1, h2⟩ := runFilter_eq junk c hc (some .zeros) env he st pieces .zeros 0 hi
  rw [h1]
  generalize pieces.flatten = m at *
  rw [lastLength_zero] at *
  have hpos := hc.pos
  have hmod := Nat.mod_le m.length c.mandatory
  have hml := Nat.mod_lt m.length (show 0 < c.mandatory by omega)
  have hlen : (m.drop (m.length - m.length % c.mandatory)).length = m.length % c.mandatory := by rw [List.length_drop]; omega
  unfold lastPut
  by_cases h0 : m.length % c.mandatory = 0
  · simp only [h0, Nat.sub_zero, List.take_length, List.drop_length, List.length_nil, Nat.lt_irrefl, gt_iff_lt, if_false]
    rw [bind_ok]
    simp [padded, h0, Nat.mod_self]
  · simp only [hlen, hf, hl]
    rw [if_pos (by omega), if_pos (by simp)]
    rw [hc.last hl]
    unfold defaultLast
    rw [if_pos (by simp; omega), bind_ok]
    rw [← hc.append _ _ _ h2 (by simp; rw [show m.length - (m.length - m.length % c.mandatory) + (c.mandatory - m.length % c.mandatory) = c.mandatory by omega, Nat.mod_self])]
    rw [← List.append_assoc, List.take_append_drop]
    simp [padded, Nat.mod_eq_of_lt (show c.mandatory - m.length % c.mandatory < c.mandatory by omega)]

/-- **C08.** Without padding (and for stream ciphers), whole blocks are processed as they are and anything else is
refused. -/
theorem unpadded_output (junk : Nat → Byte) (c : Cipher σ) (hc : c.Ok) (hl : c.minLast = 0)
    (env : Env) (he : env.Ok c.mandatory) (st : σ) (pieces : List (List Byte)) :
    runFilter junk c (some .none) env st pieces =
      if pieces.flatten.length % c.mandatory = 0 then .ok (c.process st pieces.flatten)
      else if c.forward then .error .invalidDataFormat else .error .invalidCiphertext := by
  have hi : initSizes c (some .none) = .ok (.none, 0) := by
    unfold initSizes lastBlockSize
    simp [hl]
  obtain ⟨h1, h2⟩ := runFilter_eq junk c hc (some .none) env he st pieces .none 0 hi
  rw [h1]
  generalize pieces.flatten = m at *
  rw [lastLength_zero] at *
  have hmod := Nat.mod_le m.length c.mandatory
  have hlen : (m.drop (m.length - m.length % c.mandatory)).length = m.length % c.mandatory := by rw [List.length_drop]; omega
  unfold lastPut
  by_cases h0 : m.length % c.mandatory = 0
  · simp only [h0, Nat.sub_zero, List.take_length, List.drop_length, List.length_nil, Nat.lt_irrefl, gt_iff_lt, if_false, if_true]
    rw [bind_ok]
    simp
  · simp only [hlen, hl]
    rw [if_pos (by omega), if_neg (by simp), if_pos trivial, if_neg h0]
    cases c.forward <;> rfl

/-- Decryption with zeros padding does not remove anything. -/
theorem decrypt_output_zeros (junk : Nat → Byte) (c : Cipher σ) (hc : c.Ok) (hf : c.forward = false) (hl : c.minLast = 0)
    (env : Env) (he : env.Ok c.mandatory) (st : σ) (pieces : List (List Byte)) :
    runFilter junk c (some .zeros) env st pieces =
      if pieces.flatten.length % c.mandatory = 0 then .ok (c.process st pieces.flatten) else .error .invalidCiphertext := by
  have hi : initSizes c (some .zeros) = .ok (.zeros, 0) := by
    unfold initSizes lastBlockSize
    simp [hl]
  obtain ⟨h1, h2⟩ := runFilter_eq junk c hc (some .zeros) env he st pieces .zeros 0 hi
  rw [h1]
  generalize pieces.flatten = m at *
  rw [lastLength_zero] at *
  have hmod := Nat.mod_le m.length c.mandatory
  have hlen : (m.drop (m.length - m.length % c.mandatory)).length = m.length % c.mandatory := by rw [List.length_drop]; omega
  unfold lastPut
  by_cases h0 : m.length % c.mandatory = 0
  · simp only [h0, Nat.sub_zero, List.take_length, List.drop_length, List.length_nil, Nat.lt_irrefl, gt_iff_lt, if_false, if_true]
    rw [bind_ok]
    simp
  · simp only [hlen, hl]
    rw [if_pos (by omega), if_neg (by simp [hf]), if_pos trivial, if_neg h0, if_neg (by simp [hf])]
    rfl

/-! ## Decryption -/

theorem stripZeros_spec (b : List Byte) (n : Nat) (hn : 1 ≤ n) (hle : n ≤ b.length) :
    1 ≤ stripZeros b n ∧ stripZeros b n ≤ n ∧ (b.take n).drop (stripZeros b n) = List.replicate (n - stripZeros b n) 0 ∧
      (stripZeros b n = 1 ∨ b[stripZeros b n - 1]? ≠ some 0) := by
  induction n with
  | zero => omega
  | succ n ih =>
    unfold stripZeros
    by_cases h : n + 1 > 1 ∧ b[n]? = some 0
    · rw [if_pos h]
      obtain ⟨i1, i2, i3, i4⟩ := ih (by omega) (by omega)
      refine ⟨i1, by omega, ?_, i4⟩
      rw [List.take_add_one, List.drop_append_of_le_length (by rw [List.length_take]; omega), i3, h.2,
        show n + 1 - stripZeros b n = (n - stripZeros b n) + 1 by omega, List.replicate_succ']
      rfl
    · rw [if_neg h]
      refine ⟨by omega, by omega, by simp [List.drop_eq_nil_of_le], ?_⟩
      by_cases hn0 : n = 0
      · left; omega
      · right
        intro hc
        exact h ⟨by omega, by simpa using hc⟩

theorem take_append_getElem?_last (b : List Byte) (n : Nat) (x : Byte) (h : b[n]? = some x) : b.take (n + 1) = b.take n ++ [x] := by
  rw [List.take_add_one, h]; rfl

/-- The last block alone: accepted exactly when well formed. -/
theorem unpadBlock_spec (p : Scheme) (hp : p = .pkcs ∨ p = .w3c ∨ p = .oneAndZeros) (s : Nat) (hs : 1 ≤ s) (b : List Byte)
    (hb : b.length = s) :
    (∃ m, unpadBlock p s b = .ok m ∧ IsPadded p s b m ∧ ∀ m', IsPadded p s b m' → m' = m) ∨
    (unpadBlock p s b = .error .invalidCiphertext ∧ ∀ m, ¬ IsPadded p s b m) := by
  have hlt : s - 1 < b.length := by omega
  have hget : b[s-1]? = some b[s-1] := List.getElem?_eq_getElem hlt
  have hbeq : b = b.take (s-1) ++ [b[s-1]] := by
    have := take_append_getElem?_last b (s-1) _ hget
    rw [← this]; rw [show s - 1 + 1 = b.length by omega, List.take_length]
  rcases hp with rfl | rfl | rfl
  · -- PKCS
    simp only [unpadBlock, hget, IsPadded]
    generalize b[s-1] = pad at *
    have hp256 : pad.toNat < 256 := pad.isLt
    -- a well-formed block has `pad` as its last byte
    have huniq : ∀ k m, 1 ≤ k → k < 256 → b = m ++ List.replicate k (BitVec.ofNat 8 k) → k = pad.toNat := by
      intro k m h1 h2 h3
      have hlast : b.getLast? = some (BitVec.ofNat 8 k) := by
        rw [h3, List.getLast?_append]
        simp [List.getLast?_replicate, show k ≠ 0 by omega]
      have hlast2 : b.getLast? = some pad := by rw [hbeq]; simp
      rw [hlast] at hlast2
      have := Option.some.inj hlast2
      rw [← this]; simp; omega
    by_cases hbad : pad.toNat < 1 ∨ pad.toNat > s ∨ ((b.drop (s - pad.toNat)).take pad.toNat).any (· != pad)
    · right
      rw [if_pos hbad]
      refine ⟨rfl, ?_⟩
      rintro m ⟨k, h1, h2, h3, h4⟩
      have hk := huniq k m h1 h3 h4
      rcases hbad with h | h | h
      · omega
      · omega
      · have hml : m.length = s - pad.toNat := by
          have := congrArg List.length h4
          simp at this; omega
        have : (b.drop (s - pad.toNat)) = List.replicate k (BitVec.ofNat 8 k) := by
          rw [h4, ← hml, List.drop_left]
        rw [this] at h
        simp only [List.any_eq_true] at h
        obtain ⟨x, hx, hne⟩ := h
        have hx' := List.mem_of_mem_take hx
        have hxe := (List.mem_replicate.1 hx').2
        rw [hxe, hk] at hne
        simp at hne
    · left
      rw [if_neg hbad]
      simp only [not_or] at hbad
      obtain ⟨g1, g2, g3⟩ := hbad
      refine ⟨_, rfl, ⟨pad.toNat, by omega, by omega, hp256, ?_⟩, ?_⟩
      · have hall : b.drop (s - pad.toNat) = List.replicate pad.toNat (BitVec.ofNat 8 pad.toNat) := by
          rw [List.eq_replicate_iff]
          refine ⟨by rw [List.length_drop]; omega, ?_⟩
          intro x hx
          simp only [List.any_eq_true, not_exists, not_and] at g3
          have := g3 x (by rw [List.take_of_length_le (by rw [List.length_drop]; omega)]; exact hx)
          simp at this
          rw [this]; simp
        rw [← hall, List.take_append_drop]
      · rintro m ⟨k, h1, h2, h3, h4⟩
        have hk := huniq k m h1 h3 h4
        have hml : m.length = s - pad.toNat := by
          have := congrArg List.length h4
          simp at this; omega
        rw [h4, ← hml, List.take_left]
  · -- W3C
    simp only [unpadBlock, hget, IsPadded]
    generalize b[s-1] = pad at *
    have hp256 : pad.toNat < 256 := pad.isLt
    have huniq : ∀ k m (fill : List Byte), k < 256 → b = m ++ fill ++ [BitVec.ofNat 8 k] → k = pad.toNat := by
      intro k m fill h2 h3
      have hlast : b.getLast? = some (BitVec.ofNat 8 k) := by rw [h3, List.getLast?_append]; simp
      have hlast2 : b.getLast? = some pad := by rw [hbeq]; simp
      rw [hlast] at hlast2
      have := Option.some.inj hlast2
      rw [← this]; simp; omega
    by_cases hbad : pad.toNat < 1 ∨ pad.toNat > s
    · right
      rw [if_pos hbad]
      refine ⟨rfl, ?_⟩
      rintro m ⟨k, fill, h1, h2, h3, h4, h5⟩
      have hk := huniq k m fill h3 h5
      omega
    · left
      rw [if_neg hbad]
      simp only [not_or] at hbad
      obtain ⟨g1, g2⟩ := hbad
      refine ⟨_, rfl, ⟨pad.toNat, (b.drop (s - pad.toNat)).take (pad.toNat - 1), by omega, by omega, hp256, ?_, ?_⟩, ?_⟩
      · simp; omega
      · have h1 : b.take (s - 1) = b.take (s - pad.toNat) ++ (b.drop (s - pad.toNat)).take (pad.toNat - 1) := by
          rw [show s - 1 = (s - pad.toNat) + (pad.toNat - 1) by omega, List.take_add]
        rw [← h1]
        conv => lhs; rw [hbeq]
        simp
      · rintro m ⟨k, fill, h1, h2, h3, h4, h5⟩
        have hk := huniq k m fill h3 h5
        have hml : m.length = s - pad.toNat := by
          have := congrArg List.length h5
          simp at this; omega
        rw [h5, ← hml, List.append_assoc, List.take_left]
  · -- one and zeros
    simp only [unpadBlock, IsPadded]
    obtain ⟨z1, z2, z3, z4⟩ := stripZeros_spec b s hs (by omega)
    generalize hz : stripZeros b s = z at *
    have hzl : z - 1 < b.length := by omega
    have hzg : b[z-1]? = some b[z-1] := List.getElem?_eq_getElem hzl
    rw [hzg] at z4 ⊢
    simp only
    rw [List.take_of_length_le (by omega)] at z3
    have hbz : b = b.take (z - 1) ++ b[z-1] :: List.replicate (s - z) 0 := by
      rw [← z3]
      have h1 := take_append_getElem?_last b (z-1) _ hzg
      rw [show z - 1 + 1 = z by omega] at h1
      have h2 := (List.take_append_drop z b).symm
      rw [h1] at h2
      rw [List.append_assoc, List.singleton_append] at h2; exact h2
    generalize b[z-1] = x at *
    -- trailing zeros determine the position
    have huniq : ∀ j m, b = m ++ 0x80 :: List.replicate j (0 : Byte) → m = b.take (z - 1) ∧ x = 0x80 := by
      intro j m h
      have hlen := congrArg List.length h
      simp at hlen
      have hrev1 : b.reverse = List.replicate j 0 ++ 0x80 :: m.reverse := by rw [h]; simp
      have hrev2 : b.reverse = List.replicate (s - z) 0 ++ x :: (b.take (z-1)).reverse := by
        conv => lhs; rw [hbz]
        simp
      have hjz : j = s - z := by
        apply Classical.byContradiction
        intro hne
        rcases Nat.lt_or_gt_of_ne hne with hlt | hgt
        · have h1 : b.reverse[j]? = some 0x80 := by rw [hrev1]; simp
          have h2 : b.reverse[j]? = some 0 := by
            rw [hrev2, List.getElem?_append_left (by simpa using hlt)]
            simp [hlt]
          rw [h1] at h2; cases h2
        · have h2 : b.reverse[s - z]? = some x := by rw [hrev2]; simp
          have h1 : b.reverse[s - z]? = some 0 := by
            rw [hrev1, List.getElem?_append_left (by simpa using hgt)]
            simp [hgt]
          rw [h2] at h1
          have hx0 := Option.some.inj h1
          rcases z4 with hz1 | hz1
          · omega
          · exact hz1 (by rw [hx0])
      subst hjz
      rw [hrev1] at hrev2
      have := List.append_cancel_left hrev2
      simp only [List.cons.injEq, List.reverse_inj] at this
      exact ⟨this.2, this.1.symm⟩
    by_cases hx : x = 0x80
    · left
      rw [if_neg (by simp [hx])]
      refine ⟨_, rfl, ⟨s - z, by omega, ?_⟩, fun m ⟨j, _, h⟩ => (huniq j m h).1⟩
      rw [← hx]; exact hbz
    · right
      rw [if_pos hx]
      exact ⟨rfl, fun m ⟨j, _, h⟩ => hx (huniq j m h).2⟩

theorem isPadded_append (p : Scheme) (s : Nat) (hp : p = .pkcs ∨ p = .w3c ∨ p = .oneAndZeros) (pre b m : List Byte)
    (hb : b.length = s) : IsPadded p s (pre ++ b) m ↔ ∃ m', m = pre ++ m' ∧ IsPadded p s b m' := by
  have key : ∀ t : List Byte, t.length ≤ s → (pre ++ b = m ++ t ↔ ∃ m', m = pre ++ m' ∧ b = m' ++ t) := by
    intro t ht
    constructor
    · intro h
      have hlen := congrArg List.length h
      simp only [List.length_append] at hlen
      obtain ⟨m', hm'⟩ : ∃ m', m = pre ++ m' := by
        refine ⟨m.drop pre.length, ?_⟩
        have h1 := congrArg (List.take pre.length) h
        rw [List.take_left, List.take_append_of_le_length (by omega)] at h1
        conv => rhs; lhs; rw [h1]
        exact (List.take_append_drop _ _).symm
      subst hm'
      rw [List.append_assoc] at h
      exact ⟨m', rfl, List.append_cancel_left h⟩
    · rintro ⟨m', rfl, rfl⟩
      rw [List.append_assoc]
  rcases hp with rfl | rfl | rfl
  · simp only [IsPadded]
    constructor
    · rintro ⟨k, h1, h2, h3, h4⟩
      obtain ⟨m', e1, e2⟩ := (key _ (by simpa using h2)).1 h4
      exact ⟨m', e1, k, h1, h2, h3, e2⟩
    · rintro ⟨m', e1, k, h1, h2, h3, e2⟩
      exact ⟨k, h1, h2, h3, (key _ (by simpa using h2)).2 ⟨m', e1, e2⟩⟩
  · simp only [IsPadded, List.append_assoc]
    constructor
    · rintro ⟨k, fill, h1, h2, h3, h4, h5⟩
      obtain ⟨m', e1, e2⟩ := (key _ (by simp; omega)).1 h5
      exact ⟨m', e1, k, fill, h1, h2, h3, h4, e2⟩
    · rintro ⟨m', e1, k, fill, h1, h2, h3, h4, e2⟩
      exact ⟨k, fill, h1, h2, h3, h4, (key _ (by simp; omega)).2 ⟨m', e1, e2⟩⟩
  · simp only [IsPadded]
    constructor
    · rintro ⟨j, h1, h2⟩
      obtain ⟨m', e1, e2⟩ := (key _ (by simp; omega)).1 h2
      exact ⟨m', e1, j, h1, e2⟩
    · rintro ⟨m', e1, j, h1, e2⟩
      exact ⟨j, h1, (key _ (by simp; omega)).2 ⟨m', e1, e2⟩⟩

/-- **C09.** Decryption with PKCS, W3C or one-and-zeros padding. If the ciphertext's length is a positive multiple of the
block size and its decryption is a well-formed padding of `m` then the output is `m`; in every other case the filter
throws `InvalidCiphertext`. -/
theorem decrypt_output (junk : Nat → Byte) (c : Cipher σ) (hc : c.Ok) (hf : c.forward = false) (hb : 1 < c.mandatory) (hl : c.minLast = 0)
    (p : Scheme) (hp : p = .pkcs ∨ p = .w3c ∨ p = .oneAndZeros) (env : Env) (he : env.Ok c.mandatory) (st : σ)
    (pieces : List (List Byte)) :
    let ct := pieces.flatten
    let pt := c.process st ct
    (∀ m, 0 < ct.length → ct.length % c.mandatory = 0 → IsPadded p c.mandatory pt.2 m →
      runFilter junk c (some p) env st pieces = .ok (pt.1, m)) ∧
    (¬ (0 < ct.length ∧ ct.length % c.mandatory = 0 ∧ ∃ m, IsPadded p c.mandatory pt.2 m) →
      runFilter junk c (some p) env st pieces = .error .invalidCiphertext) := by
  intro ct pt
  have hi : initSizes c (some p) = .ok (p, c.mandatory) := by
    unfold initSizes lastBlockSize
    rcases hp with rfl | rfl | rfl <;> simp [hb, hl, hf]
  obtain ⟨h1, h2⟩ := runFilter_eq junk c hc (some p) env he st pieces p c.mandatory hi
  rw [h1]
  show (∀ m, 0 < ct.length → ct.length % c.mandatory = 0 → IsPadded p c.mandatory (c.process st ct).2 m → _ = Except.ok ((c.process st ct).1, m)) ∧ _
  simp only [pt]
  clear pt h1
  change (List.take (ct.length - lastLength 0 c.mandatory c.mandatory ct.length) ct).length % c.mandatory = 0 at h2
  revert h2
  show (List.take (ct.length - lastLength 0 c.mandatory c.mandatory ct.length) ct).length % c.mandatory = 0 →
    (∀ m, 0 < ct.length → ct.length % c.mandatory = 0 → IsPadded p c.mandatory (c.process st ct).2 m →
      (do let (st2, o2) ← lastPut c p (c.process st (ct.take (ct.length - lastLength 0 c.mandatory c.mandatory ct.length))).1
            (ct.drop (ct.length - lastLength 0 c.mandatory c.mandatory ct.length))
          Except.ok (st2, (c.process st (ct.take (ct.length - lastLength 0 c.mandatory c.mandatory ct.length))).2 ++ o2)) =
        Except.ok ((c.process st ct).1, m)) ∧
    (¬ (0 < ct.length ∧ ct.length % c.mandatory = 0 ∧ ∃ m, IsPadded p c.mandatory (c.process st ct).2 m) →
      (do let (st2, o2) ← lastPut c p (c.process st (ct.take (ct.length - lastLength 0 c.mandatory c.mandatory ct.length))).1
            (ct.drop (ct.length - lastLength 0 c.mandatory c.mandatory ct.length))
          Except.ok (st2, (c.process st (ct.take (ct.length - lastLength 0 c.mandatory c.mandatory ct.length))).2 ++ o2)) =
        Except.error Err.invalidCiphertext)
  generalize ct = ct
  intro h2
  have hpos := hc.pos
  have hlb := lastLength_block c.mandatory ct.length hpos
  have hlast : ∀ st x, lastPut c p st x = (if x.length ≠ c.mandatory then .error .invalidCiphertext
      else do
        let o ← unpadBlock p c.mandatory (c.process st x).2
        .ok ((c.process st x).1, o)) := by
    intro st x
    unfold lastPut
    rcases hp with rfl | rfl | rfl <;> simp [hf]
  simp only [hlast]
  by_cases hok : 0 < ct.length ∧ ct.length % c.mandatory = 0
  · rw [hlb.1 hok] at h2 ⊢
    have hle := Nat.le_of_dvd hok.1 (Nat.dvd_of_mod_eq_zero hok.2)
    have hdl : (ct.drop (ct.length - c.mandatory)).length = c.mandatory := by rw [List.length_drop]; omega
    have hdm : (ct.drop (ct.length - c.mandatory)).length % c.mandatory = 0 := by rw [hdl, Nat.mod_self]
    rw [if_neg (by simp [hdl])]
    have happ := hc.append st _ _ h2 hdm
    rw [List.take_append_drop] at happ
    have hbl := hc.len (c.process st (ct.take (ct.length - c.mandatory))).1 _ hdm
    rw [hdl] at hbl
    rw [happ]
    dsimp only
    generalize (c.process st (ct.take (ct.length - c.mandatory))).2 = pre at *
    generalize (c.process st (ct.take (ct.length - c.mandatory))).1 = st1 at *
    generalize hq : c.process st1 (ct.drop (ct.length - c.mandatory)) = q at *
    have hiff := fun m => isPadded_append p c.mandatory hp pre q.2 m hbl
    simp only [hiff]
    rcases unpadBlock_spec p hp c.mandatory hpos q.2 hbl with ⟨m, u1, u2, u3⟩ | ⟨u1, u2⟩
    · rw [u1, bind_ok, bind_ok]
      dsimp only
      refine ⟨?_, fun h => absurd ⟨hok.1, hok.2, pre ++ m, m, rfl, u2⟩ h⟩
      rintro _ - - ⟨m', rfl, hm'⟩
      rw [u3 m' hm']
    · rw [u1]
      refine ⟨?_, fun _ => rfl⟩
      rintro _ - - ⟨m', rfl, hm'⟩
      exact absurd hm' (u2 m')
  · have hne := hlb.2 hok
    have hle : lastLength 0 c.mandatory c.mandatory ct.length ≤ ct.length := by
      unfold lastLength
      simp only [Nat.not_lt_zero, if_false, Nat.zero_add, Nat.sub_zero]
      split
      · omega
      · have := Nat.mod_le (ct.length - c.mandatory) c.mandatory
        omega
    have hdl : (ct.drop (ct.length - lastLength 0 c.mandatory c.mandatory ct.length)).length = lastLength 0 c.mandatory c.mandatory ct.length := by
      rw [List.length_drop]; omega
    rw [if_pos (by rw [hdl]; exact hne)]
    exact ⟨fun m a b => absurd ⟨a, b⟩ hok, fun _ => rfl⟩

theorem isPadded_padded (p : Scheme) (s : Nat) (hs : 1 ≤ s) (h256 : s < 256) (m : List Byte) (hp : p ≠ .zeros) :
    IsPadded p s (padded p s m) m := by
  have := Nat.mod_lt m.length (show 0 < s by omega)
  cases p with
  | none => rfl
  | zeros => exact absurd rfl hp
  | pkcs => exact ⟨s - m.length % s, by omega, by omega, by omega, rfl⟩
  | oneAndZeros => exact ⟨s - m.length % s - 1, by omega, rfl⟩
  | w3c => exact ⟨s - m.length % s, List.replicate (s - m.length % s - 1) 0, by omega, by omega, by omega, by simp, rfl⟩

/-- **C08.** Round trip: whatever the message, its splitting into pieces on either side, and the environment. -/
theorem decrypt_encrypt (j1 j2 : Nat → Byte) (e : Cipher σ) (d : Cipher τ) (he : e.Ok) (hd : d.Ok) (hfe : e.forward = true)
    (hfd : d.forward = false) (hle : e.minLast = 0) (hld : d.minLast = 0) (hs : d.mandatory = e.mandatory) (hb : 1 < e.mandatory)
    (h256 : e.mandatory < 256) (p : Scheme) (hp : p = .pkcs ∨ p = .w3c ∨ p = .oneAndZeros) (v1 v2 : Env)
    (hv1 : v1.Ok e.mandatory) (hv2 : v2.Ok e.mandatory) (se : σ) (sd : τ) (hu : Undoes d sd e se)
    (pieces ctPieces : List (List Byte)) (se' : σ) (out : List Byte)
    (henc : runFilter j1 e (some p) v1 se pieces = .ok (se', out)) (hct : ctPieces.flatten = out) :
    ∃ sd', runFilter j2 d (some p) v2 sd ctPieces = .ok (sd', pieces.flatten) := by
  rw [encrypt_output j1 e he hfe hb hle p hp v1 hv1] at henc
  have hpn : p ≠ .none := by rcases hp with rfl | rfl | rfl <;> simp
  have hpl := padded_length p e.mandatory he.pos pieces.flatten hpn
  have hout : out = (e.process se (padded p e.mandatory pieces.flatten)).2 := by
    have := Except.ok.inj henc
    rw [this]
  have hol : out.length = (padded p e.mandatory pieces.flatten).length := by rw [hout]; exact he.len _ _ hpl
  have := (decrypt_output j2 d hd hfd (by omega) hld p hp v2 (by rw [hs]; exact hv2) sd ctPieces).1 pieces.flatten
    (by
      rw [hct, hol]
      have : 0 < e.mandatory - pieces.flatten.length % e.mandatory := by
        have := Nat.mod_lt pieces.flatten.length (show 0 < e.mandatory by omega)
        omega
      rcases hp with rfl | rfl | rfl <;> simp only [padded, List.length_append, List.length_cons, List.length_replicate, List.length_nil] <;> omega)
    (by rw [hct, hol, hs]; exact hpl)
    (by
      rw [hct, hout, hu _ hpl, hs]
      exact isPadded_padded p _ he.pos h256 _ (by rcases hp with rfl | rfl | rfl <;> simp))
  exact ⟨_, this⟩

/-- **C08.** With zeros padding the decryption is the plaintext followed by fewer than a block of zero bytes. -/
theorem decrypt_encrypt_zeros (j1 j2 : Nat → Byte) (e : Cipher σ) (d : Cipher τ) (he : e.Ok) (hd : d.Ok) (hfe : e.forward = true)
    (hfd : d.forward = false) (hle : e.minLast = 0) (hld : d.minLast = 0) (hs : d.mandatory = e.mandatory) (v1 v2 : Env)
    (hv1 : v1.Ok e.mandatory) (hv2 : v2.Ok e.mandatory) (se : σ) (sd : τ) (hu : Undoes d sd e se)
    (pieces ctPieces : List (List Byte)) (se' : σ) (out : List Byte)
    (henc : runFilter j1 e (some .zeros) v1 se pieces = .ok (se', out)) (hct : ctPieces.flatten = out) :
    ∃ sd' k, k < e.mandatory ∧ runFilter j2 d (some .zeros) v2 sd ctPieces = .ok (sd', pieces.flatten ++ List.replicate k 0) := by
  rw [encrypt_output_zeros j1 e he hfe hle v1 hv1] at henc
  have hpl := padded_length .zeros e.mandatory he.pos pieces.flatten (by simp)
  have hout : out = (e.process se (padded .zeros e.mandatory pieces.flatten)).2 := by
    have := Except.ok.inj henc
    rw [this]
  have hol : out.length = (padded .zeros e.mandatory pieces.flatten).length := by rw [hout]; exact he.len _ _ hpl
  refine ⟨(d.process sd out).1, (e.mandatory - pieces.flatten.length % e.mandatory) % e.mandatory, Nat.mod_lt _ he.pos, ?_⟩
  rw [decrypt_output_zeros j2 d hd hfd hld v2 (by rw [hs]; exact hv2), hct, if_pos (by rw [hol, hs]; exact hpl)]
  have h2 := hu _ hpl
  rw [← hout] at h2
  rw [show d.process sd out = ((d.process sd out).1, (d.process sd out).2) from rfl, h2]
  rfl

/-- **C08.** A mode with a minimum last block size (such as CBC-CTS) and no padding: everything but the last part is
processed as whole blocks, the last part goes to `ProcessLastBlock`. It has between `minLast` and `minLast + blockSize - 1`
bytes, or is the whole message if that is shorter than `minLast`. -/
theorem lastBlock_output (junk : Nat → Byte) (c : Cipher σ) (hc : c.Ok) (hl : 0 < c.minLast) (env : Env) (he : env.Ok c.mandatory)
    (st : σ) (pieces : List (List Byte)) (hne : pieces.flatten ≠ []) :
    ∃ x y, pieces.flatten = x ++ y ∧ x.length % c.mandatory = 0 ∧ y ≠ [] ∧
      (if pieces.flatten.length < c.minLast then x = [] else c.minLast ≤ y.length ∧ y.length < c.minLast + c.mandatory) ∧
      runFilter junk c (some .none) env st pieces =
        (do let (st2, o2) ← c.processLast (c.process st x).1 y; .ok (st2, (c.process st x).2 ++ o2)) := by
  have hi : initSizes c (some .none) = .ok (.none, c.minLast) := by
    unfold initSizes lastBlockSize
    simp [hl]
  obtain ⟨h1, h2⟩ := runFilter_eq junk c hc (some .none) env he st pieces .none c.minLast hi
  rw [h1]
  generalize pieces.flatten = m at *
  have hm0 : 0 < m.length := List.length_pos_iff.2 hne
  have hpos := hc.pos
  have hmodl := Nat.mod_lt (m.length - c.minLast) (show 0 < c.mandatory by omega)
  have hmodle := Nat.mod_le (m.length - c.minLast) c.mandatory
  have hll : lastLength 0 c.mandatory c.minLast m.length =
      if m.length ≤ c.minLast then m.length else c.minLast + (m.length - c.minLast) % c.mandatory := by
    unfold lastLength; simp
  generalize lastLength 0 c.mandatory c.minLast m.length = k at *
  have hk : 0 < k ∧ k ≤ m.length ∧ (m.length ≤ c.minLast → k = m.length) ∧ (¬ m.length ≤ c.minLast → c.minLast ≤ k ∧ k < c.minLast + c.mandatory) := by
    rw [hll]; split <;> omega
  clear hll
  have hdl : (m.drop (m.length - k)).length = k := by rw [List.length_drop]; omega
  refine ⟨_, _, (List.take_append_drop _ _).symm, h2, ?_, ?_, ?_⟩
  · apply List.ne_nil_of_length_pos
    rw [hdl]; omega
  · rw [hdl]
    split
    · rw [hk.2.2.1 (by omega)]; simp
    · by_cases h : m.length ≤ c.minLast
      · have := hk.2.2.1 h; omega
      · exact hk.2.2.2 h
  · unfold lastPut
    simp only
    rw [if_pos (by rw [hdl]; omega), if_neg (by simp), if_neg (by omega)]

/-- The default padding is PKCS for block modes and none otherwise. -/
theorem default_padding (junk : Nat → Byte) (c : Cipher σ) (env : Env) (st : σ) (pieces : List (List Byte)) :
    runFilter junk c .none env st pieces =
      runFilter junk c (some (if 1 < c.mandatory ∧ c.minLast = 0 then .pkcs else .none)) env st pieces := by
  unfold runFilter
  have : initSizes c .none = initSizes c (some (if 1 < c.mandatory ∧ c.minLast = 0 then .pkcs else .none)) := by
    unfold initSizes
    by_cases h : 1 < c.mandatory ∧ c.minLast = 0 <;> simp [h]
  rw [this]

/-- Padding that needs a block mode is refused for anything else. -/
theorem padding_needs_block_mode (junk : Nat → Byte) (c : Cipher σ) (h : c.mandatory ≤ 1 ∨ 0 < c.minLast) (p : Scheme)
    (hp : p = .pkcs ∨ p = .w3c ∨ p = .oneAndZeros) (env : Env) (st : σ) (pieces : List (List Byte)) :
    runFilter junk c (some p) env st pieces = .error .invalidArgument := by
  have : initSizes c (some p) = .error .invalidArgument := by
    unfold initSizes
    have h2 : ¬ (1 < c.mandatory ∧ c.minLast = 0) := by omega
    simp only [gt_iff_lt, h2, decide_false, Bool.not_false, true_and]
    rcases hp with rfl | rfl | rfl <;> simp
  unfold runFilter
  rw [this]; rfl

/-! ## A concrete cipher: xor with the number of the block, block size 4 -/

/-- Xors the number of the block into every byte of it. -/
def toyProcess : Nat → List Byte → Nat × List Byte
  | n, a :: b :: c :: d :: rest =>
    let k := BitVec.ofNat 8 n
    let (n', o) := toyProcess (n + 1) rest
    (n', (a ^^^ k) :: (b ^^^ k) :: (c ^^^ k) :: (d ^^^ k) :: o)
  | n, _ => (n, [])

def toy (forward : Bool) : Cipher Nat where
  mandatory := 4
  minLast := 0
  forward := forward
  optimalBlock := 4
  optimalUsed := fun _ => 0
  process := toyProcess
  processLast := defaultLast 4 toyProcess

theorem toy_append (k : Nat) (n : Nat) (x y : List Byte) (hx : x.length = 4 * k) :
    toyProcess n (x ++ y) = (((toyProcess (toyProcess n x).1 y).1),
      (toyProcess n x).2 ++ (toyProcess (toyProcess n x).1 y).2) := by
  induction k generalizing n x with
  | zero =>
    have : x = [] := List.eq_nil_of_length_eq_zero (by omega)
    subst this; rfl
  | succ k ih =>
    match x, hx with
    | a :: b :: c :: d :: rest, hx =>
      simp only [List.length_cons] at hx
      simp only [List.cons_append, toyProcess]
      rw [ih (n + 1) rest (by omega)]

theorem toy_len (k : Nat) (n : Nat) (x : List Byte) (hx : x.length = 4 * k) :
    (toyProcess n x).2.length = x.length := by
  induction k generalizing n x with
  | zero =>
    have : x = [] := List.eq_nil_of_length_eq_zero (by omega)
    subst this; rfl
  | succ k ih =>
    match x, hx with
    | a :: b :: c :: d :: rest, hx =>
      simp only [List.length_cons] at hx
      simp only [toyProcess, List.length_cons]
      rw [ih (n + 1) rest (by omega)]

theorem toy_ok (forward : Bool) : (toy forward).Ok where
  pos := by show 1 ≤ 4; decide
  nil := fun _ => rfl
  append := fun st x y hx _ => toy_append (x.length / 4) st x y (by have : x.length % 4 = 0 := hx; omega)
  len := fun st x hx => toy_len (x.length / 4) st x (by have : x.length % 4 = 0 := hx; omega)
  used := fun _ => by show 0 + 4 ≤ 4; omega
  last := fun _ => rfl

theorem toy_undoes (n : Nat) : Undoes (toy false) n (toy true) n := by
  intro x hx
  have hx' : x.length % 4 = 0 := hx
  obtain ⟨k, hk⟩ : ∃ k, x.length = 4 * k := ⟨x.length / 4, by omega⟩
  clear hx hx'
  induction k generalizing n x with
  | zero =>
    have : x = [] := List.eq_nil_of_length_eq_zero (by omega)
    subst this; rfl
  | succ k ih =>
    match x, hk with
    | a :: b :: c :: d :: rest, hk =>
      simp only [List.length_cons] at hk
      have := ih (n + 1) rest (by omega)
      simp only [toy, toyProcess] at this ⊢
      rw [this]
      simp [BitVec.xor_assoc]

/-- The hypotheses of `decrypt_encrypt` are met; a message of six bytes in two pieces. -/
example : runFilter (fun _ => 0) (toy true) (some .pkcs) ⟨fun _ _ => 8, fun _ => false⟩ 1 [[1, 2, 3], [4, 5, 6]] =
    .ok (3, [0, 3, 2, 5, 7, 4, 0, 0]) := by decide +kernel

example : runFilter (fun _ => 0) (toy false) (some .pkcs) ⟨fun _ _ => 8, fun _ => true⟩ 1 [[0, 3, 2, 5, 7], [4, 0, 0]] =
    .ok (3, [1, 2, 3, 4, 5, 6]) := by decide +kernel

/-- A wrong last byte, a truncated and an empty ciphertext. -/
example : runFilter (fun _ => 0) (toy false) (some .pkcs) ⟨fun _ _ => 8, fun _ => true⟩ 1 [[0, 3, 2, 5, 7], [4, 0, 1]] =
    .error .invalidCiphertext ∧
  runFilter (fun _ => 0) (toy false) (some .pkcs) ⟨fun _ _ => 8, fun _ => true⟩ 1 [[0, 3, 2, 5, 7]] = .error .invalidCiphertext ∧
  runFilter (fun _ => 0) (toy false) (some .oneAndZeros) ⟨fun _ _ => 8, fun _ => true⟩ 1 [] = .error .invalidCiphertext := by
  decide +kernel

example : ∃ sd', runFilter (fun _ => 0) (toy false) (some .w3c) ⟨fun _ _ => 4, fun _ => true⟩ 1 [[0, 3, 2, 5, 7, 4], [2, 0]] =
    .ok (sd', [1, 2, 3, 4, 5, 6]) :=
  decrypt_encrypt (fun _ => 0) (fun _ => 0) (toy true) (toy false) (toy_ok _) (toy_ok _) rfl rfl rfl rfl rfl (by decide) (by decide)
    .w3c (by simp) ⟨fun _ _ => 4, fun _ => true⟩ ⟨fun _ _ => 4, fun _ => true⟩ (fun _ _ => Nat.le_refl _) (fun _ _ => Nat.le_refl _)
    1 1 (toy_undoes 1) [[1, 2], [3, 4, 5, 6]] _ 3 _ (by decide +kernel) rfl

/-- **Disagreement.** PKCS padding for a block size of 256 (only asserted against, filters.cpp:787) writes zero bytes for
an empty last part, and decryption rejects them: the bound on the block size in `decrypt_encrypt` is needed. -/
theorem pkcs_256_not_accepted : unpadBlock .pkcs 256 (padBlock .pkcs 256 []) = .error .invalidCiphertext := by decide +kernel

end Verif.Padding
