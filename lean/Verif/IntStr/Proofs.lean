import Verif.IntStr.Model
import Verif.IntStr.Spec

/-!
# Lemmas for C74
-/
namespace Verif.IntStr
open Spec (positional digits number pairs digit?)

theorem ofn (c : Char) (n : Nat) (h : c.toNat = n) : c = Char.ofNat n := by rw [← h, Char.ofNat_toNat]

theorem le_nat (a b : Char) : a ≤ b ↔ a.toNat ≤ b.toNat := by
  rw [Char.le_def, UInt32.le_iff_toNat_le]; rfl

theorem digit_cases (c : Char) :
    (c ≥ '0' ∧ c ≤ '9' ↔ c ∈ ['0', '1', '2', '3', '4', '5', '6', '7', '8', '9']) ∧
    (c ≥ 'a' ∧ c ≤ 'f' ↔ c ∈ ['a', 'b', 'c', 'd', 'e', 'f']) ∧
    (c ≥ 'A' ∧ c ≤ 'F' ↔ c ∈ ['A', 'B', 'C', 'D', 'E', 'F']) := by
  refine ⟨⟨fun h => ?_, fun h => ?_⟩, ⟨fun h => ?_, fun h => ?_⟩, ⟨fun h => ?_, fun h => ?_⟩⟩
  · have h1 := (le_nat _ _).1 h.1
    have h2 := (le_nat _ _).1 h.2
    have e1 : '0'.toNat = 48 := rfl
    have e2 : '9'.toNat = 57 := rfl
    have : c.toNat = 48 ∨ c.toNat = 49 ∨ c.toNat = 50 ∨ c.toNat = 51 ∨ c.toNat = 52 ∨ c.toNat = 53 ∨ c.toNat = 54 ∨ c.toNat = 55 ∨ c.toNat = 56 ∨ c.toNat = 57 := by omega
    rcases this with h | h | h | h | h | h | h | h | h | h <;> rw [ofn c _ h] <;> decide
  · simp only [List.mem_cons, List.not_mem_nil, or_false] at h
    rcases h with h | h | h | h | h | h | h | h | h | h <;> subst h <;> decide
  · have h1 := (le_nat _ _).1 h.1
    have h2 := (le_nat _ _).1 h.2
    have e1 : 'a'.toNat = 97 := rfl
    have e2 : 'f'.toNat = 102 := rfl
    have : c.toNat = 97 ∨ c.toNat = 98 ∨ c.toNat = 99 ∨ c.toNat = 100 ∨ c.toNat = 101 ∨ c.toNat = 102 := by omega
    rcases this with h | h | h | h | h | h <;> rw [ofn c _ h] <;> decide
  · simp only [List.mem_cons, List.not_mem_nil, or_false] at h
    rcases h with h | h | h | h | h | h <;> subst h <;> decide
  · have h1 := (le_nat _ _).1 h.1
    have h2 := (le_nat _ _).1 h.2
    have e1 : 'A'.toNat = 65 := rfl
    have e2 : 'F'.toNat = 70 := rfl
    have : c.toNat = 65 ∨ c.toNat = 66 ∨ c.toNat = 67 ∨ c.toNat = 68 ∨ c.toNat = 69 ∨ c.toNat = 70 := by omega
    rcases this with h | h | h | h | h | h <;> rw [ofn c _ h] <;> decide
  · simp only [List.mem_cons, List.not_mem_nil, or_false] at h
    rcases h with h | h | h | h | h | h <;> subst h <;> decide

theorem digitOf_eq (radix : Nat) (c : Char) : digitOf radix c = (digit? c).getD radix := by
  obtain ⟨h1, h2, h3⟩ := digit_cases c
  unfold digitOf digit?
  simp only [h1, h2, h3]
  repeat' split
  all_goals rfl

/-- What a character contributes. -/
theorem digit_filter (radix : Nat) (c : Char) : (digit? c).filter (· < radix) = if digitOf radix c < radix then some (digitOf radix c) else none := by
  rw [digitOf_eq]
  cases digit? c with
  | none => simp
  | some d => simp [Option.filter]

theorem digits_cons (radix : Nat) (c : Char) (s : List Char) :
    digits radix (c :: s) = if digitOf radix c < radix then digitOf radix c :: digits radix s else digits radix s := by
  unfold digits
  rw [List.filterMap_cons]
  have := digit_filter radix c
  split <;> rename_i h <;> rw [this] at h <;> split at h <;> simp_all

theorem bigLoop_eq (radix : Nat) (s : List Char) : ∀ v, bigLoop radix s v = v * radix ^ (digits radix s).length + number radix s := by
  induction s with
  | nil => intro v; simp [bigLoop, digits, number, positional]
  | cons c s ih =>
    intro v
    unfold bigLoop number
    rw [ih, digits_cons]
    by_cases h : digitOf radix c < radix
    · rw [if_pos h, if_pos h]
      simp only [positional, List.length_cons, number]
      rw [Nat.pow_succ, Nat.add_mul, Nat.mul_assoc, Nat.mul_comm radix, Nat.add_assoc]
    · rw [if_neg h, if_neg h]; rfl

theorem big_number (radix : Nat) (s : List Char) : bigLoop radix s 0 = number radix s := by rw [bigLoop_eq, Nat.zero_mul, Nat.zero_add]

theorem positional_append (radix : Nat) (a b : List Nat) : positional radix (a ++ b) = positional radix a * radix ^ b.length + positional radix b := by
  induction a with
  | nil => simp [positional]
  | cons d a ih =>
    show d * radix ^ (a ++ b).length + positional radix (a ++ b) = (d * radix ^ a.length + positional radix a) * radix ^ b.length + positional radix b
    rw [ih, List.length_append, Nat.pow_add, Nat.add_mul, Nat.mul_assoc, Nat.add_assoc]

theorem digits_lt (radix : Nat) (s : List Char) : ∀ d ∈ digits radix s, d < radix := by
  intro d hd
  unfold digits at hd
  rw [List.mem_filterMap] at hd
  obtain ⟨c, _, h⟩ := hd
  rw [digit_filter] at h
  split at h
  · cases h; assumption
  · cases h

theorem nibbles (h l : Nat) (hl : l < 16) : h <<< 4 ||| l = 16 * h + l := by
  rw [Nat.shiftLeft_eq, Nat.mul_comm h, show (2 : Nat) ^ 4 = 16 from rfl]
  exact (Nat.two_pow_add_eq_or_of_lt (i := 4) hl h).symm

theorem littleLoop_spec (s : List Char) : ∀ nh nl position v,
    littleLoop s nh nl 0 position v = v + position * positional 256 (pairs (digits 16 s)).reverse ∧
    littleLoop s nh nl 1 position v = v + position * positional 256 (pairs (nh :: digits 16 s)).reverse := by
  induction s with
  | nil => intro nh nl position v; simp [littleLoop, digits, pairs, positional, Nat.mul_comm]
  | cons c s ih =>
    intro nh nl position v
    unfold littleLoop
    dsimp only
    rw [digits_cons]
    by_cases h : digitOf 16 c < 16
    · simp only [if_pos h]
      refine ⟨?_, ?_⟩
      · simp only [if_true, if_neg (show ¬ (0 + 1 = 2) by decide)]
        exact (ih _ _ _ _).2
      · simp only [if_neg (show ¬ (1 = 0) by decide)]
        rw [(ih _ _ _ _).1, nibbles _ _ h]
        simp only [if_true]
        show _ = v + position * positional 256 ((16 * nh + digitOf 16 c) :: pairs (digits 16 s)).reverse
        rw [List.reverse_cons, positional_append]
        simp only [positional, List.length_cons, List.length_nil, Nat.pow_zero, Nat.mul_one, Nat.add_zero, Nat.zero_add, Nat.pow_one]
        generalize positional 256 (pairs (digits 16 s)).reverse = P
        rw [Nat.mul_add position (P * 256), Nat.mul_assoc, Nat.mul_comm 256]
        omega
    · simp only [if_neg h]
      exact ih _ _ _ _

/-- A number below `base ^ room` fits. -/
theorem fill_ok (base : Nat) (hb : 2 ≤ base) (vec : Nat → Char) : ∀ (room value : Nat), value < base ^ room →
    ∃ ds : List Nat, fill base vec room value = .ok (ds.map vec) ∧ positional base ds.reverse = value ∧ (∀ d ∈ ds, d < base) ∧ (value ≠ 0 → ∃ d t, ds.reverse = d :: t ∧ d ≠ 0) ∧ (value = 0 → ds = []) := by
  intro room
  induction room with
  | zero =>
    intro value h
    have : value = 0 := by simpa using h
    subst this
    exact ⟨[], by simp [fill], rfl, by simp, fun h => absurd rfl h, fun _ => rfl⟩
  | succ room ih =>
    intro value h
    by_cases h0 : value = 0
    · subst h0
      exact ⟨[], by simp [fill], rfl, by simp, fun h => absurd rfl h, fun _ => rfl⟩
    have hlt : value / base < base ^ room := Nat.div_lt_of_lt_mul (by rw [Nat.mul_comm, ← Nat.pow_succ]; exact h)
    obtain ⟨ds, h1, h2, h3, h4, h5⟩ := ih _ hlt
    refine ⟨value % base :: ds, ?_, ?_, ?_, ?_, fun h => absurd h h0⟩
    · unfold fill
      rw [if_neg h0, if_neg (by omega)]
      dsimp only
      rw [h1]; rfl
    · rw [List.reverse_cons, positional_append, h2]
      simp only [positional, List.length_cons, List.length_nil, Nat.pow_zero, Nat.mul_one, Nat.add_zero, Nat.zero_add, Nat.pow_one]
      rw [Nat.mul_comm]; exact Nat.div_add_mod value base
    · intro d hd
      rcases List.mem_cons.1 hd with h | h
      · subst h; exact Nat.mod_lt _ (by omega)
      · exact h3 d h
    · intro _
      by_cases hq : value / base = 0
      · rw [h5 hq]
        refine ⟨value % base, [], rfl, ?_⟩
        have := Nat.div_add_mod value base
        rw [hq, Nat.mul_zero, Nat.zero_add] at this
        omega
      · obtain ⟨d, t, ht, hd⟩ := h4 hq
        exact ⟨d, t ++ [value % base], by rw [List.reverse_cons, ht]; rfl, hd⟩

/-- The buffer is large enough. -/
theorem room_ok (base value : Nat) (hb : 2 ≤ base) : value < base ^ room base value := by
  have h1 := Misc.bitLen_lt value
  have h2 := Misc.bitLen_pos_le (v := base) (by omega)
  have hk : Misc.bitLen base > 1 := by
    have := Misc.bitLen_lt base
    apply Classical.byContradiction
    intro h
    have : Misc.bitLen base ≤ 1 := by omega
    have := Nat.pow_le_pow_right (n := 2) (by decide) this
    omega
  unfold room
  rw [if_pos hk]
  generalize hkk : Misc.bitLen base - 1 = k at h2
  have hk0 : 0 < k := by omega
  have h3 : Misc.bitLen value ≤ k * (Misc.bitLen value / k + 1) := by
    have := Nat.div_add_mod (Misc.bitLen value) k
    have := Nat.mod_lt (Misc.bitLen value) hk0
    rw [Nat.mul_add]; omega
  calc value < 2 ^ Misc.bitLen value := h1
    _ ≤ 2 ^ (k * (Misc.bitLen value / k + 1)) := Nat.pow_le_pow_right (by decide) h3
    _ = (2 ^ k) ^ (Misc.bitLen value / k + 1) := Nat.pow_mul ..
    _ ≤ base ^ (Misc.bitLen value / k + 1) := Nat.pow_le_pow_left h2 _

theorem digitChars_digit (upper : Bool) (d : Nat) (h : d < 16) : digit? ((digitChars upper).getD d ' ') = some d := by
  have : ∀ u, ∀ d < 16, digit? ((digitChars u).getD d ' ') = some d := by decide
  exact this upper d h

theorem digitChar_digit (upper : Bool) (d : Nat) (h : d < 16) : digit? (digitChar upper d) = some d := by
  have : ∀ u, ∀ d < 16, digit? (digitChar u d) = some d := by decide
  exact this upper d h

theorem digits_map (radix : Nat) (hr : radix ≤ 16) (vec : Nat → Char) (hv : ∀ d < 16, digit? (vec d) = some d) (ds : List Nat) (hd : ∀ d ∈ ds, d < radix) (t : List Char) (ht : digits radix t = []) :
    digits radix (ds.map vec ++ t) = ds := by
  induction ds with
  | nil => exact ht
  | cons d ds ih =>
    have h := hd d List.mem_cons_self
    rw [List.map_cons, List.cons_append, digits_cons, digitOf_eq, hv d (by omega)]
    dsimp only [Option.getD]
    rw [if_pos h, ih (fun d h => hd d (List.mem_cons_of_mem _ h))]

end Verif.IntStr
