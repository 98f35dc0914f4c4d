import Verif.Checksum.Proofs

/-! # Adler-32: proofs -/
namespace Verif.Checksum

/-- The sums without reduction. -/
def sums : List Byte → Nat × Nat → Nat × Nat
  | [], s => s
  | b :: x, s => sums x (s.1 + b.toNat, s.2 + (s.1 + b.toNat))

theorem sums_append (x y : List Byte) (s : Nat × Nat) : sums (x ++ y) s = sums y (sums x s) := by
  induction x generalizing s with
  | nil => rfl
  | cons b x ih => exact ih _

theorem sums_fst (x : List Byte) (s : Nat × Nat) : (sums x s).1 = s.1 + (x.map BitVec.toNat).sum := by
  induction x generalizing s with
  | nil => rfl
  | cons b x ih => rw [sums, ih]; simp; omega

theorem sums_snd (x : List Byte) (s : Nat × Nat) :
    (sums x s).2 = s.2 + ((List.range x.length).map fun j => s.1 + ((x.take (j + 1)).map BitVec.toNat).sum).sum := by
  induction x generalizing s with
  | nil => rfl
  | cons b x ih =>
    rw [sums, ih, List.length_cons, List.range_succ_eq_map]
    simp only [List.map_cons, List.sum_cons, List.map_map, List.take_succ_cons, List.take_zero, List.map_nil, List.sum_nil, Function.comp_def]
    have : ∀ j : Nat, s.1 + b.toNat + ((x.take (j + 1)).map BitVec.toNat).sum = s.1 + (b.toNat + ((x.take (j + 1)).map BitVec.toNat).sum) := fun j => by omega
    simp only [this, Nat.succ_eq_add_one]
    omega

/-- Two pairs with the same residues stay so. -/
theorem sums_mod (x : List Byte) (s t : Nat × Nat) (h1 : s.1 % 65521 = t.1 % 65521) (h2 : s.2 % 65521 = t.2 % 65521) :
    (sums x s).1 % 65521 = (sums x t).1 % 65521 ∧ (sums x s).2 % 65521 = (sums x t).2 % 65521 := by
  induction x generalizing s t with
  | nil => exact ⟨h1, h2⟩
  | cons b x ih => exact ih _ _ (by simp only; omega) (by simp only; omega)

/-- The machine words do not wrap, and hold the sums. -/
theorem foldl_sums (W : Nat) (hW : 32 ≤ W) (x : List Byte) (s : Nat × Nat) (k : Nat) (h1 : s.1 + 255 * x.length ≤ k) (h2 : s.2 + k * x.length < 2 ^ 32) (hk : k < 2 ^ 32) :
    x.foldl (adlerByte W) s = sums x s ∧ (sums x s).1 ≤ s.1 + 255 * x.length ∧ (sums x s).2 ≤ s.2 + k * x.length := by
  induction x generalizing s with
  | nil => exact ⟨rfl, by simp [sums], by simp [sums]⟩
  | cons b x ih =>
    have hb := b.isLt
    have hp : 2 ^ 32 ≤ 2 ^ W := Nat.pow_le_pow_right (by omega) hW
    rw [List.length_cons, Nat.mul_succ] at h1
    rw [List.length_cons, Nat.mul_succ] at h2
    have e : adlerByte W s b = (s.1 + b.toNat, s.2 + (s.1 + b.toNat)) := by
      unfold adlerByte
      simp only
      rw [Nat.mod_eq_of_lt (by omega : s.1 + b.toNat < 2 ^ W), Nat.mod_eq_of_lt]
      have := Nat.zero_le (k * x.length)
      omega
    obtain ⟨i1, i2, i3⟩ := ih (s.1 + b.toNat, s.2 + (s.1 + b.toNat)) (by simp only; omega) (by simp only; omega)
    rw [List.foldl_cons, e, sums]
    simp only [List.length_cons] at i2 i3 ⊢
    refine ⟨i1, by omega, ?_⟩
    rw [Nat.mul_succ]; omega

theorem adlerLoop_spec (W : Nat) (hW : 32 ≤ W) (f : Nat) (x : List Byte) (s t : Nat × Nat) (hf : x.length ≤ f) (h8 : x.length % 8 = 0)
    (h1 : s.1 < 65521) (h2 : s.2 ≤ 65520 + ((32768 - x.length % 32768) % 32768) * 67560) (hx : x = [] → s.2 < 65521)
    (m1 : s.1 % 65521 = t.1 % 65521) (m2 : s.2 % 65521 = t.2 % 65521) :
    (adlerLoop W f x s).1 = (sums x t).1 % 65521 ∧ (adlerLoop W f x s).2 = (sums x t).2 % 65521 := by
  induction f generalizing x s t with
  | zero =>
    have hx0 : x = [] := List.length_eq_zero_iff.mp (by omega)
    subst hx0
    have := hx rfl
    simp only [adlerLoop, sums]
    omega
  | succ f ih =>
    simp only [adlerLoop]
    split
    · rename_i hpos
      have h8' : 8 ≤ x.length := by omega
      have e8 : (x.take 8).length = 8 := by rw [List.length_take]; omega
      have ed : (x.drop 8).length = x.length - 8 := List.length_drop
      have hu : (32768 - x.length % 32768) % 32768 ≤ 32760 := by omega
      have hm := Nat.mul_le_mul_right 67560 hu
      obtain ⟨a1, a2, a3⟩ := foldl_sums W hW (x.take 8) s 67560 (by rw [e8]; omega) (by rw [e8]; omega) (by omega)
      rw [a1]
      rw [e8] at a2 a3
      obtain ⟨c1, c2⟩ := sums_mod (x.take 8) s t m1 m2
      have := ih (x.drop 8)
        ((if (sums (x.take 8) s).1 ≥ 65521 then (sums (x.take 8) s).1 - 65521 else (sums (x.take 8) s).1),
          (if (x.drop 8).length % 0x8000 = 0 then (sums (x.take 8) s).2 % 65521 else (sums (x.take 8) s).2)) (sums (x.take 8) t)
        (by omega) (by omega) (by simp only; split <;> omega)
        (by
          simp only
          split
          · have := Nat.mod_lt (sums (x.take 8) s).2 (show 0 < 65521 by omega); omega
          · rename_i hn
            rw [ed] at hn ⊢
            have hz : (32768 - (x.length - 8) % 32768) % 32768 = (32768 - x.length % 32768) % 32768 + 8 := by omega
            rw [hz]; omega)
        (by
          intro he
          simp only
          rw [he]
          simp only [List.length_nil, Nat.zero_mod, if_true]
          exact Nat.mod_lt _ (by omega))
        (by
          simp only
          split
          · rename_i hg
            rw [← c1]
            conv_rhs => rw [← Nat.sub_add_cancel hg]
            omega
          · exact c1)
        (by
          simp only
          split
          · rw [Nat.mod_mod]; exact c2
          · exact c2)
      rw [← sums_append, List.take_append_drop] at this
      exact this
    · have hx0 : x = [] := List.length_eq_zero_iff.mp (by omega)
      subst hx0
      have := hx rfl
      simp only [sums]
      omega

/-- The state after a message. -/
def adlerRep (s : BitVec 16 × BitVec 16) (m : List Byte) : Prop := s.1.toNat = adlerA m ∧ s.2.toNat = adlerB m

theorem adlerA_eq (m : List Byte) : adlerA m = (sums m (1, 0)).1 % 65521 := by rw [sums_fst]; rfl
theorem adlerB_eq (m : List Byte) : adlerB m = (sums m (1, 0)).2 % 65521 := by rw [sums_snd]; simp [adlerB]

theorem adlerUpdate_spec (W : Nat) (hW : 32 ≤ W) (s : BitVec 16 × BitVec 16) (m x : List Byte) (h : adlerRep s m) : adlerRep (adlerUpdate W s x) (m ++ x) := by
  obtain ⟨h1, h2⟩ := h
  rw [adlerA_eq] at h1
  rw [adlerB_eq] at h2
  have b1 : s.1.toNat < 65521 := by rw [h1]; exact Nat.mod_lt _ (by omega)
  have b2 : s.2.toNat < 65521 := by rw [h2]; exact Nat.mod_lt _ (by omega)
  have key : ∀ t : Nat × Nat, t.1 < 65521 → t.2 < 65521 → t.1 % 65521 = (sums (m ++ x.take (x.length % 8)) (1, 0)).1 % 65521 →
      t.2 % 65521 = (sums (m ++ x.take (x.length % 8)) (1, 0)).2 % 65521 →
      adlerRep (BitVec.ofNat 16 (adlerLoop W x.length (x.drop (x.length % 8)) t).1, BitVec.ofNat 16 (adlerLoop W x.length (x.drop (x.length % 8)) t).2) (m ++ x) := by
    intro t t1 t2 t3 t4
    have ed : (x.drop (x.length % 8)).length = x.length - x.length % 8 := List.length_drop
    obtain ⟨r1, r2⟩ := adlerLoop_spec W hW x.length (x.drop (x.length % 8)) t (sums (m ++ x.take (x.length % 8)) (1, 0)) (by omega) (by omega) t1
      (by omega) (fun _ => t2) t3 t4
    rw [← sums_append, List.append_assoc, List.take_append_drop] at r1 r2
    constructor
    · simp only [BitVec.toNat_ofNat]
      rw [adlerA_eq, r1, Nat.mod_eq_of_lt (a := _ % 65521)]
      have := Nat.mod_lt (sums (m ++ x) (1, 0)).1 (show 0 < 65521 by omega); omega
    · simp only [BitVec.toNat_ofNat]
      rw [adlerB_eq, r2, Nat.mod_eq_of_lt (a := _ % 65521)]
      have := Nat.mod_lt (sums (m ++ x) (1, 0)).2 (show 0 < 65521 by omega); omega
  unfold adlerUpdate
  simp only
  by_cases hn : x.length % 8 ≠ 0
  · rw [if_pos hn]
    have e8 : (x.take (x.length % 8)).length = x.length % 8 := by rw [List.length_take]; omega
    have hl : x.length % 8 ≤ 7 := by omega
    obtain ⟨a1, a2, a3⟩ := foldl_sums W hW (x.take (x.length % 8)) (s.1.toNat, s.2.toNat) 67560 (by rw [e8]; simp only; omega)
      (by rw [e8]; simp only; omega) (by omega)
    rw [a1]
    rw [e8] at a2
    simp only at a2
    obtain ⟨c1, c2⟩ := sums_mod (x.take (x.length % 8)) (s.1.toNat, s.2.toNat) (sums m (1, 0)) (by simp only; rw [h1, Nat.mod_mod]) (by simp only; rw [h2, Nat.mod_mod])
    rw [← sums_append] at c1 c2
    apply key
    · simp only; split <;> omega
    · simp only; exact Nat.mod_lt _ (by omega)
    · simp only
      split
      · rename_i hg
        rw [← c1]
        conv_rhs => rw [← Nat.sub_add_cancel hg]
        omega
      · exact c1
    · simp only
      rw [Nat.mod_mod]; exact c2
  · rw [if_neg hn]
    have h0 : x.length % 8 = 0 := by omega
    apply key _ b1 b2
    · rw [h0]; simp only [List.take_zero, List.append_nil]; rw [h1, Nat.mod_mod]
    · rw [h0]; simp only [List.take_zero, List.append_nil]; rw [h2, Nat.mod_mod]

theorem hi_lo (v : BitVec 16) : [(v >>> 8).setWidth 8, v.setWidth 8] = beBytes 2 v.toNat := by
  have e : beBytes 2 v.toNat = [BitVec.ofNat 8 (v.toNat / 256), BitVec.ofNat 8 v.toNat] := rfl
  rw [e]
  congr 1
  · apply BitVec.eq_of_toNat_eq; rw [BitVec.toNat_setWidth, BitVec.toNat_ushiftRight, Nat.shiftRight_eq_div_pow, BitVec.toNat_ofNat]

theorem adler_computes (W : Nat) (hW : 32 ≤ W) : Computes (adler32 W) adlerDigest adlerRep where
  init := ⟨rfl, rfl⟩
  update := fun s m _ x h => adlerUpdate_spec W hW s m x h
  final := by
    rintro s m n ⟨h1, h2⟩ hn
    refine ⟨(1, 0), ?_, rfl, rfl⟩
    show adlerFinal s n = _
    unfold adlerFinal
    rw [if_neg (by omega)]
    have : [(s.2 >>> 8).setWidth 8, s.2.setWidth 8, (s.1 >>> 8).setWidth 8, s.1.setWidth 8] = adlerDigest m := by
      unfold adlerDigest
      rw [← h1, ← h2, ← hi_lo, ← hi_lo]; rfl
    rw [this]
  reject := by
    intro s n hn
    show adlerFinal s n = _
    unfold adlerFinal; rw [if_pos hn]

end Verif.Checksum
