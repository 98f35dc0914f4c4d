/-!
# misc.h: BitPrecision and BytePrecision

`bitLen v` and `byteLen v` are the specification: the number of bits or bytes needed to write `v`.
-/
namespace Verif.Misc

/-- Specification: the number of bits of `v` (0 for 0). -/
def bitLen (v : Nat) : Nat := if v = 0 then 0 else Nat.log2 v + 1

/-- Specification: the number of bytes of `v` (0 for 0). -/
def byteLen (v : Nat) : Nat := (bitLen v + 7) / 8

/-- misc.h:1054-1061, the loop of `BitPrecision`. -/
def bitSearch (v l h : Nat) : Nat :=
  if h - l > 1 then
    if v >>> ((l + h) / 2) ≠ 0 then bitSearch v ((l + h) / 2) h else bitSearch v l ((l + h) / 2)
  else h
termination_by h - l
decreasing_by all_goals omega

/-- misc.h:1046-1064 `BitPrecision` of a value of a type of `size` bytes. -/
def bitPrecision (size v : Nat) : Nat := if v = 0 then 0 else bitSearch v 0 (8 * size)

/-- misc.h:1030-1037, the loop of `BytePrecision`. -/
def byteSearch (v l h : Nat) : Nat :=
  if h - l > 8 then
    if v >>> ((l + h) / 2) ≠ 0 then byteSearch v ((l + h) / 2) h else byteSearch v l ((l + h) / 2)
  else h
termination_by h - l
decreasing_by all_goals omega

/-- misc.h:1023-1040 `BytePrecision` of a value of a type of `size` bytes. -/
def bytePrecision (size v : Nat) : Nat := if v = 0 then 0 else byteSearch v 0 (8 * size) / 8

theorem shiftRight_ne_zero (v t : Nat) : v >>> t ≠ 0 ↔ 2 ^ t ≤ v := by
  rw [Nat.shiftRight_eq_div_pow]
  have := Nat.two_pow_pos t
  constructor
  · intro h
    rcases Nat.lt_or_ge v (2 ^ t) with h' | h'
    · exact absurd (Nat.div_eq_of_lt h') h
    · exact h'
  · intro h h'
    have := Nat.div_pos h this
    omega

theorem bitLen_lt (v : Nat) : v < 2 ^ bitLen v := by
  unfold bitLen
  split
  · omega
  · exact Nat.lt_log2_self

theorem bitLen_le {v n : Nat} (h : v < 2 ^ n) : bitLen v ≤ n := by
  unfold bitLen
  split
  · omega
  · rename_i hv
    exact (Nat.log2_lt hv).mpr h

theorem bitLen_pos_le {v : Nat} (h : v ≠ 0) : 2 ^ (bitLen v - 1) ≤ v := by
  unfold bitLen
  rw [if_neg h]
  exact Nat.log2_self_le h

theorem bitLen_unique {v n : Nat} (h1 : v < 2 ^ (n + 1)) (h2 : 2 ^ n ≤ v) : bitLen v = n + 1 := by
  have h0 : v ≠ 0 := by have := Nat.two_pow_pos n; omega
  have h3 := bitLen_le h1
  have h4 := bitLen_lt v
  rcases Nat.lt_or_ge (bitLen v) (n + 1) with h | h
  · have := Nat.pow_le_pow_right (n := 2) (by omega) (by omega : bitLen v ≤ n)
    omega
  · omega

@[simp] theorem bitLen_zero : bitLen 0 = 0 := rfl

theorem bitSearch_spec (v l h : Nat) (hl : l < h) (h1 : v < 2 ^ h) (h2 : 2 ^ l ≤ v ∨ (l = 0 ∧ v ≠ 0)) :
    bitSearch v l h = bitLen v := by
  unfold bitSearch
  split
  · split
    · rename_i hs
      exact bitSearch_spec v _ h (by omega) h1 (Or.inl ((shiftRight_ne_zero _ _).mp hs))
    · rename_i hs
      have : v < 2 ^ ((l + h) / 2) := by
        rcases Nat.lt_or_ge v (2 ^ ((l + h) / 2)) with h' | h'
        · exact h'
        · exact absurd ((shiftRight_ne_zero _ _).mpr h') hs
      exact bitSearch_spec v l _ (by omega) this h2
  · have e : h = l + 1 := by omega
    subst e
    rcases h2 with h2 | ⟨h2, h3⟩
    · exact (bitLen_unique h1 h2).symm
    · subst h2
      exact (bitLen_unique h1 (by omega)).symm
termination_by h - l
decreasing_by all_goals omega

/-- `BitPrecision` returns the number of bits, for a type of any size. -/
theorem bitPrecision_eq (size v : Nat) (h : v < 2 ^ (8 * size)) : bitPrecision size v = bitLen v := by
  unfold bitPrecision
  split
  · rename_i h0; simp [h0]
  · rename_i h0
    have : size ≠ 0 := by
      intro e; subst e; simp at h; omega
    exact bitSearch_spec v 0 _ (by omega) h (Or.inr ⟨rfl, h0⟩)

theorem byteLen_le {v n : Nat} (h : v < 256 ^ n) : byteLen v ≤ n := by
  have e : (256 : Nat) ^ n = 2 ^ (8 * n) := by rw [Nat.pow_mul]
  rw [e] at h
  have := bitLen_le h
  unfold byteLen
  omega

theorem byteLen_lt (v : Nat) : v < 256 ^ byteLen v := by
  have e : (256 : Nat) ^ byteLen v = 2 ^ (8 * byteLen v) := by rw [Nat.pow_mul]
  rw [e]
  have := bitLen_lt v
  have : 2 ^ bitLen v ≤ 2 ^ (8 * byteLen v) := Nat.pow_le_pow_right (by omega) (by unfold byteLen; omega)
  omega

theorem byteLen_unique {v n : Nat} (h1 : v < 256 ^ (n + 1)) (h2 : 256 ^ n ≤ v) : byteLen v = n + 1 := by
  have h3 := byteLen_le h1
  have h4 := byteLen_lt v
  rcases Nat.lt_or_ge (byteLen v) (n + 1) with h | h
  · have := Nat.pow_le_pow_right (n := 256) (by omega) (by omega : byteLen v ≤ n)
    omega
  · omega

theorem byteLen_pos_le {v : Nat} (h : v ≠ 0) : 256 ^ (byteLen v - 1) ≤ v := by
  rcases Nat.lt_or_ge v (256 ^ (byteLen v - 1)) with h' | h'
  · have := byteLen_le h'
    have : byteLen v = 0 := by omega
    have := byteLen_lt v
    simp [*] at this
  · exact h'

@[simp] theorem byteLen_zero : byteLen 0 = 0 := rfl

theorem byteSearch_spec (v k : Nat) : ∀ l, v < 256 ^ (l + 2 ^ k) → (256 ^ l ≤ v ∨ (l = 0 ∧ v ≠ 0)) →
    byteSearch v (8 * l) (8 * (l + 2 ^ k)) / 8 = byteLen v := by
  induction k with
  | zero =>
    intro l h1 h2
    unfold byteSearch
    rw [if_neg (by omega)]
    rw [Nat.mul_div_cancel_left _ (by omega)]
    simp only [Nat.pow_zero] at h1 ⊢
    rcases h2 with h2 | ⟨h2, h3⟩
    · exact (byteLen_unique h1 h2).symm
    · subst h2
      exact (byteLen_unique h1 (by omega)).symm
  | succ k ih =>
    intro l h1 h2
    have hk := Nat.two_pow_pos k
    have e : (8 * l + 8 * (l + 2 ^ (k + 1))) / 2 = 8 * (l + 2 ^ k) := by rw [Nat.pow_succ]; omega
    unfold byteSearch
    rw [if_pos (by rw [Nat.pow_succ]; omega), e]
    have hp : (2 : Nat) ^ (8 * (l + 2 ^ k)) = 256 ^ (l + 2 ^ k) := by rw [Nat.pow_mul]
    split
    · rename_i hs
      rw [shiftRight_ne_zero, hp] at hs
      have := ih (l + 2 ^ k) (by rw [show l + 2 ^ k + 2 ^ k = l + 2 ^ (k + 1) by rw [Nat.pow_succ]; omega]; exact h1) (Or.inl hs)
      rw [show l + 2 ^ k + 2 ^ k = l + 2 ^ (k + 1) by rw [Nat.pow_succ]; omega] at this
      exact this
    · rename_i hs
      have hlt : v < 256 ^ (l + 2 ^ k) := by
        rw [shiftRight_ne_zero, hp] at hs
        omega
      exact ih l hlt h2

/-- `BytePrecision` returns the number of bytes, for a type of `2^k` bytes. -/
theorem bytePrecision_eq (k v : Nat) (h : v < 256 ^ 2 ^ k) : bytePrecision (2 ^ k) v = byteLen v := by
  unfold bytePrecision
  split
  · rename_i h0; simp [h0]
  · rename_i h0
    have := byteSearch_spec v k 0 (by simpa using h) (Or.inr ⟨rfl, h0⟩)
    simpa using this

end Verif.Misc
