import Verif.IntStr.Proofs

/-!
# C74: integers as text

`insert_parse`, `toString_parse`: the constructor of `Integer` reads what `operator<<` and `IntToString` write.
`insert_extract`: so does `operator>>`; `extract_at_end`: at the end of a stream it also makes the stream fail.
-/
namespace Verif.IntStr
open Spec (positional digits number pairs digit?)

/-- A sign in front of a text and in front of a number. -/
def signed (neg : Bool) (s : List Char) : List Char := if neg then '-' :: s else s
@[inherit_doc signed] def signedVal (neg : Bool) (n : Nat) : Int := if neg then -(n : Int) else n

/-- Reading, most significant digit first: without a prefix the last character `c` chooses the base, and everything but the digits of that base is skipped. The text must not begin with `-` or 0. -/
theorem parse_suffix (neg : Bool) (a : Char) (s : List Char) (c : Char) (ha : a ≠ '-' ∧ a ≠ '0') :
    parse false (signed neg (a :: s ++ [c])) = signedVal neg (number (suffixRadix c) (a :: s ++ [c])) := by
  have hp : ∀ r, prefixed r (a :: s ++ [c]) = (r, a :: s ++ [c]) := by
    intro r
    unfold prefixed
    rw [if_neg]
    intro h
    exact ha.2 h.2
  cases neg with
  | false =>
    have hl : (a :: s ++ [c]).getD ((a :: s ++ [c]).length - 1) ' ' = c := by simp
    have h0 : (a :: s ++ [c]).getD 0 ' ' = a := rfl
    simp only [signed, signedVal, Bool.false_eq_true, if_false]
    unfold parse
    rw [if_neg (by simp), hl, h0]
    simp only [ha.1, if_false, hp, big_number]
    rfl
  | true =>
    have hl : ('-' :: (a :: s ++ [c])).getD (('-' :: (a :: s ++ [c])).length - 1) ' ' = c := by simp
    have h0 : ('-' :: (a :: s ++ [c])).getD 0 ' ' = '-' := rfl
    simp only [signed, signedVal, if_true]
    unfold parse
    rw [if_neg (by simp), hl, h0]
    simp only [List.drop_succ_cons, List.drop_zero, if_true, hp, big_number]

/-- The radix of a prefix. -/
def prefixRadix (p : Char) : Option Nat :=
  if p = 'x' ∨ p = 'X' then some 16 else if p = 'n' ∨ p = 'N' then some 10 else if p = 'o' ∨ p = 'O' then some 8 else none

theorem prefixed_eq (p : Char) (r : Nat) (hp : prefixRadix p = some r) (r' : Nat) (a : Char) (s : List Char) : prefixed r' ('0' :: p :: a :: s) = (r, a :: s) := by
  unfold prefixRadix at hp
  unfold prefixed
  rw [if_pos ⟨by simp, rfl⟩]
  show (if p = 'x' ∨ p = 'X' then _ else if p = 'n' ∨ p = 'N' then _ else if p = 'o' ∨ p = 'O' then _ else _) = _
  split at hp
  · cases hp; rw [if_pos (by assumption)]; rfl
  · rw [if_neg (by assumption)]
    split at hp
    · cases hp; rw [if_pos (by assumption)]; rfl
    · rw [if_neg (by assumption)]
      split at hp
      · cases hp; rw [if_pos (by assumption)]; rfl
      · cases hp

/-- Reading with a prefix: whatever the last character, the prefix chooses the base. -/
theorem parse_prefix (neg : Bool) (p : Char) (r : Nat) (hp : prefixRadix p = some r) (a : Char) (s : List Char) :
    parse false (signed neg ('0' :: p :: a :: s)) = signedVal neg (number r (a :: s)) := by
  cases neg with
  | false =>
    have h0 : ('0' :: p :: a :: s).getD 0 ' ' = '0' := rfl
    simp only [signed, signedVal, Bool.false_eq_true, if_false]
    unfold parse
    rw [if_neg (by simp), h0]
    simp only [show ¬ ('0' = '-') by decide, if_false, prefixed_eq p r hp, big_number]
    rfl
  | true =>
    have h0 : ('-' :: '0' :: p :: a :: s).getD 0 ' ' = '-' := rfl
    simp only [signed, signedVal, if_true]
    unfold parse
    rw [if_neg (by simp), h0]
    simp only [List.drop_succ_cons, List.drop_zero, if_true, prefixed_eq p r hp, big_number]

/-- Reading hexadecimal digits in little-endian order: pairs of digits are bytes, the first one is the least significant. -/
theorem parse_little (neg : Bool) (p : Char) (hp : prefixRadix p = some 16) (a : Char) (s : List Char) :
    parse true (signed neg ('0' :: p :: a :: s)) = signedVal neg (positional 256 (pairs (digits 16 (a :: s))).reverse) := by
  have hloop : littleLoop (a :: s) 0 0 0 1 0 = positional 256 (pairs (digits 16 (a :: s))).reverse := by
    rw [(littleLoop_spec (a :: s) 0 0 1 0).1]; omega
  cases neg with
  | false =>
    have h0 : ('0' :: p :: a :: s).getD 0 ' ' = '0' := rfl
    simp only [signed, signedVal, Bool.false_eq_true, if_false]
    unfold parse
    rw [if_neg (by simp), h0]
    simp only [show ¬ ('0' = '-') by decide, if_false, prefixed_eq p 16 hp, hloop, Bool.true_eq_false, if_true]
  | true =>
    have h0 : ('-' :: '0' :: p :: a :: s).getD 0 ' ' = '-' := rfl
    simp only [signed, signedVal, if_true]
    unfold parse
    rw [if_neg (by simp), h0]
    simp only [List.drop_succ_cons, List.drop_zero, if_true, prefixed_eq p 16 hp, hloop, Bool.true_eq_false, if_false]

/-- Reading with a suffix, with the bases of the specification. -/
theorem parse_by_suffix (neg : Bool) (a : Char) (s : List Char) (c : Char) (ha : a ≠ '-' ∧ a ≠ '0') :
    parse false (signed neg (a :: s ++ [c])) = signedVal neg (number (Spec.suffixBase c) (a :: s ++ [c])) := by
  rw [parse_suffix neg a s c ha]
  simp [suffixRadix, Spec.suffixBase]

/-- Reading other digits in little-endian order: the text is read backwards. -/
theorem parse_little_other (neg : Bool) (p : Char) (r : Nat) (hp : prefixRadix p = some r) (hr : r ≠ 16) (a : Char) (s : List Char) :
    parse true (signed neg ('0' :: p :: a :: s)) = signedVal neg (number r (a :: s).reverse) := by
  cases neg with
  | false =>
    have h0 : ('0' :: p :: a :: s).getD 0 ' ' = '0' := rfl
    simp only [signed, signedVal, Bool.false_eq_true, if_false]
    unfold parse
    rw [if_neg (by simp), h0]
    simp only [show ¬ ('0' = '-') by decide, if_false, prefixed_eq p r hp, hr, Bool.true_eq_false, big_number]
  | true =>
    have h0 : ('-' :: '0' :: p :: a :: s).getD 0 ' ' = '-' := rfl
    simp only [signed, signedVal, if_true]
    unfold parse
    rw [if_neg (by simp), h0]
    simp only [List.drop_succ_cons, List.drop_zero, if_true, prefixed_eq p r hp, hr, Bool.true_eq_false, if_false, big_number]

example : prefixRadix 'o' = some 8 ∧ parse true "0o123".toList = 0o321 := by decide +kernel

/-- The digits of a number as one writes them: below the base, 0 is `0`, and no other number begins with 0. -/
structure Written (base n : Nat) (ds : List Nat) : Prop where
  value : positional base ds = n
  lt : ∀ d ∈ ds, d < base
  ne : ds ≠ []
  canonical : n ≠ 0 → ds.head? ≠ some 0
  zero : n = 0 → ds = [0]

/-- `operator<<` writes sign, digits and suffix; the buffer suffices. -/
theorem insert_prints (f : Field) (upper : Bool) (a : Int) :
    ∃ ds, Written f.base a.natAbs ds ∧ insert f upper a = .ok (signed (a < 0) (ds.map (fun d => (digitChars upper).getD d ' ') ++ [f.suffix])) := by
  have hb : 2 ≤ f.base := by cases f <;> decide
  obtain ⟨ds, h1, h2, h3, h4, h5⟩ := fill_ok f.base hb (fun d => (digitChars upper).getD d ' ') (room f.base a.natAbs) a.natAbs (room_ok _ _ hb)
  unfold insert
  rw [h1]
  dsimp only
  by_cases h0 : a = 0
  · subst h0
    rw [h5 rfl]
    refine ⟨[0], ⟨by simp [positional], by simp; omega, by simp, fun h => absurd rfl h, fun _ => rfl⟩, ?_⟩
    cases upper <;> rfl
  · have hn : a.natAbs ≠ 0 := Int.natAbs_ne_zero.2 h0
    refine ⟨ds.reverse, ⟨h2, fun d hd => h3 d (List.mem_reverse.1 hd), ?_, ?_, fun h => absurd h hn⟩, ?_⟩
    · obtain ⟨d, t, ht, _⟩ := h4 hn; rw [ht]; simp
    · intro _
      obtain ⟨d, t, ht, hd⟩ := h4 hn; rw [ht]; simpa using hd
    · rw [if_neg h0, List.map_reverse]
      unfold signed
      by_cases hneg : a < 0
      · simp [hneg]
      · simp [hneg]

/-- `IntToString` writes sign, digits and perhaps a suffix, for the bases from 2 on; the buffer suffices. -/
theorem toString_prints (base : Nat) (hb : 2 ≤ base) (upper suffix : Bool) (a : Int) :
    ∃ ds, Written base a.natAbs ds ∧ intToString base upper suffix a = .ok (signed (a < 0) (ds.map (digitChar upper) ++ if suffix ∧ a ≠ 0 then suffixOf base else [])) := by
  obtain ⟨ds, h1, h2, h3, h4, h5⟩ := fill_ok base hb (digitChar upper) (room base a.natAbs) a.natAbs (room_ok _ _ hb)
  unfold intToString
  rw [h1]
  dsimp only
  by_cases h0 : a = 0
  · subst h0
    refine ⟨[0], ⟨by simp [positional], by simp; omega, by simp, fun h => absurd rfl h, fun _ => rfl⟩, ?_⟩
    cases upper <;> simp [signed] <;> decide
  · have hn : a.natAbs ≠ 0 := Int.natAbs_ne_zero.2 h0
    refine ⟨ds.reverse, ⟨h2, fun d hd => h3 d (List.mem_reverse.1 hd), ?_, ?_, fun h => absurd h hn⟩, ?_⟩
    · obtain ⟨d, t, ht, _⟩ := h4 hn; rw [ht]; simp
    · intro _
      obtain ⟨d, t, ht, hd⟩ := h4 hn; rw [ht]; simpa using hd
    · rw [if_neg h0, List.map_reverse]
      unfold signed
      by_cases hneg : a < 0 <;> cases suffix <;> simp [hneg, h0]

theorem eq_nil_or_append {α : Type} (t : List α) : t = [] ∨ ∃ t' e, t = t' ++ [e] := by
  rcases List.eq_nil_or_concat t with h | ⟨t', e, h⟩
  · exact .inl h
  · exact .inr ⟨t', e, by rw [h]; simp⟩

theorem abs_signed (a : Int) : signedVal (a < 0) a.natAbs = a := by
  unfold signedVal
  by_cases h : a < 0
  · simp only [h, decide_true, if_true]; omega
  · simp only [h, decide_false, Bool.false_eq_true, if_false]; omega

theorem parse_written (base : Nat) (hb : base ≤ 16) (vec : Nat → Char) (hv : ∀ d < 16, digit? (vec d) = some d) (c : Char) (hc : suffixRadix c = base) (hcd : digits base [c] = [])
    (a : Int) (h0 : a ≠ 0) (ds : List Nat) (w : Written base a.natAbs ds) : parse false (signed (a < 0) (ds.map vec ++ [c])) = a := by
  have hn : a.natAbs ≠ 0 := Int.natAbs_ne_zero.2 h0
  have := w.canonical hn
  match ds, w.ne, w with
  | d :: t, _, w =>
    have hd : d ≠ 0 := by simpa using this
    have hd16 : d < 16 := by have := w.lt d List.mem_cons_self; omega
    have hva : vec d ≠ '-' ∧ vec d ≠ '0' := by
      refine ⟨fun e => ?_, fun e => ?_⟩
      · have := hv d hd16; rw [e] at this; cases this
      · have := hv d hd16; rw [e] at this
        have e0 : digit? '0' = some 0 := by decide
        rw [e0] at this; injection this with h; exact hd h.symm
    rw [List.map_cons, parse_suffix _ _ _ _ hva, hc]
    unfold number
    rw [show (vec d :: t.map vec ++ [c]) = ((d :: t).map vec ++ [c]) from rfl, digits_map base hb vec hv _ w.lt _ hcd, w.value, abs_signed]

/-- C74: the constructor reads back what `operator<<` has written, in each of the three bases and either case. -/
theorem insert_parse (f : Field) (upper : Bool) (a : Int) : ∃ s, insert f upper a = .ok s ∧ parse false s = a := by
  obtain ⟨ds, w, h⟩ := insert_prints f upper a
  refine ⟨_, h, ?_⟩
  by_cases h0 : a = 0
  · subst h0
    rw [w.zero rfl]
    cases f <;> cases upper <;> decide
  · exact parse_written f.base (by cases f <;> decide) _ (digitChars_digit upper) f.suffix (by cases f <;> decide) (by cases f <;> decide) a h0 ds w

/-- The constructor reads back what `IntToString` has written with a suffix in the bases 2, 8, 10 and 16. -/
theorem toString_parse (base : Nat) (hb : base = 2 ∨ base = 8 ∨ base = 10 ∨ base = 16) (upper : Bool) (a : Int) : ∃ s, intToString base upper true a = .ok s ∧ parse false s = a := by
  obtain ⟨ds, w, h⟩ := toString_prints base (by omega) upper true a
  refine ⟨_, h, ?_⟩
  by_cases h0 : a = 0
  · subst h0
    rw [w.zero rfl, if_neg (by simp)]
    cases upper <;> decide
  · simp only [h0, ne_eq, not_false_eq_true, and_self, if_true]
    have : ∃ c, suffixOf base = [c] ∧ suffixRadix c = base ∧ digits base [c] = [] := by
      rcases hb with h | h | h | h <;> subst h
      · exact ⟨'b', by decide⟩
      · exact ⟨'o', by decide⟩
      · exact ⟨'.', by decide⟩
      · exact ⟨'h', by decide⟩
    obtain ⟨c, h1, h2, h3⟩ := this
    rw [h1]
    exact parse_written base (by omega) _ (digitChar_digit upper) c h2 h3 a h0 ds w

/-- Without a suffix this holds for base 10 … -/
theorem toString_parse_decimal (upper : Bool) (a : Int) : ∃ s, intToString 10 upper false a = .ok s ∧ parse false s = a := by
  obtain ⟨ds, w, h⟩ := toString_prints 10 (by omega) upper false a
  refine ⟨_, h, ?_⟩
  simp only [Bool.false_eq_true, false_and, if_false, List.append_nil]
  by_cases h0 : a = 0
  · subst h0
    rw [w.zero rfl]
    cases upper <;> decide
  have hn : a.natAbs ≠ 0 := Int.natAbs_ne_zero.2 h0
  have hcan := w.canonical hn
  match ds, w.ne, w with
  | d :: t, _, w =>
    have hd : d ≠ 0 := by simpa using hcan
    have hd10 : d < 10 := w.lt d List.mem_cons_self
    have hva : digitChar upper d ≠ '-' ∧ digitChar upper d ≠ '0' := by
      have : ∀ u, ∀ d < 10, d ≠ 0 → digitChar u d ≠ '-' ∧ digitChar u d ≠ '0' := by decide
      exact this upper d hd10 hd
    have hs : ∀ u, ∀ d < 10, suffixRadix (digitChar u d) = 10 := by decide
    rcases eq_nil_or_append t with rfl | ⟨t', e, rfl⟩
    · have key : ∀ u, ∀ d < 10, d ≠ 0 → parse false (signed false [digitChar u d]) = d ∧ parse false (signed true [digitChar u d]) = -(d : Int) := by decide
      have hv : d = a.natAbs := by have := w.value; simpa [positional] using this
      by_cases hneg : a < 0
      · simp only [hneg, decide_true]
        rw [List.map_cons, List.map_nil, (key upper d hd10 hd).2]; omega
      · simp only [hneg, decide_false]
        rw [List.map_cons, List.map_nil, (key upper d hd10 hd).1]; omega
    · have he : e < 10 := w.lt e (by simp)
      have hdig := digits_map 10 (by decide) (digitChar upper) (digitChar_digit upper) (d :: t' ++ [e]) w.lt [] (by rfl)
      rw [List.append_nil] at hdig
      have e1 : (d :: (t' ++ [e])).map (digitChar upper) = digitChar upper d :: t'.map (digitChar upper) ++ [digitChar upper e] := by simp
      have hdig' : digits 10 ((d :: (t' ++ [e])).map (digitChar upper)) = d :: (t' ++ [e]) := hdig
      rw [e1, parse_suffix _ _ _ _ hva, hs upper e he, ← e1]
      unfold number
      rw [hdig', w.value, abs_signed]

/-- … and with `0x` in front of the digits for base 16 … -/
theorem toString_parse_hex (upper : Bool) (n : Nat) : ∃ s, intToString 16 upper false n = .ok s ∧ parse false ('0' :: 'x' :: s) = n := by
  obtain ⟨ds, w, h⟩ := toString_prints 16 (by omega) upper false n
  refine ⟨_, h, ?_⟩
  have hneg : ¬ ((n : Int) < 0) := by omega
  simp only [Bool.false_eq_true, false_and, if_false, List.append_nil, hneg, decide_false, signed]
  match ds, w.ne, w with
  | d :: t, _, w =>
    have := parse_prefix false 'x' 16 (by decide) (digitChar upper d) (t.map (digitChar upper))
    simp only [signed, signedVal, Bool.false_eq_true, if_false] at this
    rw [List.map_cons, this]
    have hdig := digits_map 16 (by decide) (digitChar upper) (digitChar_digit upper) (d :: t) w.lt [] (by rfl)
    rw [List.append_nil] at hdig
    unfold number
    rw [show digitChar upper d :: t.map (digitChar upper) = (d :: t).map (digitChar upper) from rfl, hdig, w.value]
    simp

/-- … but not otherwise: 255 comes back as 0, and 27, whose last digit is taken for a suffix, as 1. -/
theorem toString_bare_hex : (intToString 16 false false 255).map (parse false) = .ok 0 ∧ (intToString 16 false false 27).map (parse false) = .ok 1 := by decide +kernel

/-- Base 1 overruns the buffer, for every number but 0. -/
theorem toString_base_one (upper suffix : Bool) (a : Int) (ha : a ≠ 0) : intToString 1 upper suffix a = .error .undefinedBehaviour := by
  have : ∀ room n, n ≠ 0 → fill 1 (digitChar upper) room n = .error .undefinedBehaviour := by
    intro room
    induction room with
    | zero => intro n hn; simp [fill, hn]
    | succ room ih =>
      intro n hn
      unfold fill
      rw [if_neg hn, if_neg (by decide)]
      dsimp only
      rw [Nat.div_one, ih n hn]; rfl
  unfold intToString
  rw [if_neg ha, this _ _ (by omega)]

/-- `IntToString` of a built-in signed type writes every value but the least one … -/
theorem toStringT_prints (w : Nat) (base : Nat) (hb : 2 ≤ base) (upper : Bool) (a : Int) (ha : -2 ^ (w - 1) < a ∧ a < 2 ^ (w - 1)) (hw : 0 < w) :
    ∃ ds, Written base a.natAbs ds ∧ intToStringT w base upper a = .ok (signed (a < 0) (ds.map (digitChar upper))) := by
  have hlt : a.natAbs < 2 ^ (w - 1) := by
    have : ((a.natAbs : Nat) : Int) < ((2 ^ (w - 1) : Nat) : Int) := by push_cast; omega
    exact Int.ofNat_lt.1 this
  have hle : a.natAbs < base ^ w := by
    calc a.natAbs < 2 ^ (w - 1) := hlt
      _ ≤ 2 ^ w := Nat.pow_le_pow_right (by decide) (by omega)
      _ ≤ base ^ w := Nat.pow_le_pow_left hb _
  obtain ⟨ds, h1, h2, h3, h4, h5⟩ := fill_ok base hb (digitChar upper) w a.natAbs hle
  unfold intToStringT
  rw [h1]
  dsimp only
  by_cases h0 : a = 0
  · subst h0
    refine ⟨[0], ⟨by simp [positional], by simp; omega, by simp, fun h => absurd rfl h, fun _ => rfl⟩, ?_⟩
    cases upper <;> simp [signed] <;> decide
  · have hn : a.natAbs ≠ 0 := Int.natAbs_ne_zero.2 h0
    rw [if_neg h0, if_neg (by clear h4; omega)]
    refine ⟨ds.reverse, ⟨h2, fun d hd => h3 d (List.mem_reverse.1 hd), ?_, ?_, fun h => absurd h hn⟩, ?_⟩
    · obtain ⟨d, t, ht, _⟩ := h4 hn; rw [ht]; simp
    · intro _
      obtain ⟨d, t, ht, hd⟩ := h4 hn; rw [ht]; simpa using hd
    · rw [List.map_reverse]
      unfold signed
      by_cases hneg : a < 0 <;> simp [hneg]

/-- … whose negation overflows. -/
theorem toStringT_least (w : Nat) (base : Nat) (upper : Bool) : intToStringT w base upper (-2 ^ (w - 1)) = .error .undefinedBehaviour := by
  have hp : (0 : Int) < 2 ^ (w - 1) := Int.pow_pos (by decide)
  unfold intToStringT
  rw [if_neg (by omega), if_pos (by omega)]

theorem readLoop_taken (s : List Char) (hs : ∀ c ∈ s, taken c = true) (t : List Char) : readLoop (s ++ t) = (s ++ (readLoop t).1, (readLoop t).2) := by
  induction s with
  | nil => rfl
  | cons c s ih =>
    show (if taken c then (c :: (readLoop (s ++ t)).1, (readLoop (s ++ t)).2.1, (readLoop (s ++ t)).2.2) else _) = _
    rw [if_pos (hs c List.mem_cons_self), ih (fun c h => hs c (List.mem_cons_of_mem _ h))]
    rfl

theorem insert_taken (f : Field) (upper : Bool) (a : Int) (s : List Char) (h : insert f upper a = .ok s) : (∀ c ∈ s, taken c = true) ∧ ∃ c t, s = c :: t ∧ space c = false := by
  obtain ⟨ds, w, h'⟩ := insert_prints f upper a
  rw [h'] at h
  injection h with h
  have hvec : ∀ u, ∀ d < 16, taken ((digitChars u).getD d ' ') = true ∧ space ((digitChars u).getD d ' ') = false := by decide
  have hb : f.base ≤ 16 := by cases f <;> decide
  have hd : ∀ d ∈ ds, d < 16 := fun d hd => by have := w.lt d hd; omega
  have hall : ∀ c ∈ ds.map (fun d => (digitChars upper).getD d ' ') ++ [f.suffix], taken c = true := by
    intro c hc
    rcases List.mem_append.1 hc with hc | hc
    · obtain ⟨d, h1, rfl⟩ := List.mem_map.1 hc
      exact (hvec upper d (hd d h1)).1
    · rw [List.mem_singleton.1 hc]; cases f <;> decide
  rw [← h]
  unfold signed
  split
  · refine ⟨?_, '-', _, rfl, by decide⟩
    intro c hc
    rcases List.mem_cons.1 hc with rfl | hc
    · decide
    · exact hall c hc
  · refine ⟨hall, ?_⟩
    match ds, w.ne, hd with
    | d :: t, _, hd => exact ⟨_, _, rfl, (hvec upper d (hd d List.mem_cons_self)).2⟩

theorem dropWhile_spaces (sp : List Char) (hsp : ∀ c ∈ sp, space c = true) (c : Char) (hc : space c = false) (t : List Char) : (sp ++ c :: t).dropWhile space = c :: t := by
  induction sp with
  | nil => simp [hc]
  | cons b sp ih =>
    rw [List.cons_append, List.dropWhile_cons, if_pos (hsp b List.mem_cons_self)]
    exact ih fun c h => hsp c (List.mem_cons_of_mem _ h)

/-- `operator>>` skips white space and reads back what `operator<<` has written, up to a character `e` that cannot belong to a number; that character stays in the stream. -/
theorem insert_extract (f : Field) (upper : Bool) (a : Int) (sp : List Char) (hsp : ∀ c ∈ sp, space c = true) (e : Char) (he : taken e = false) (rest : List Char) :
    ∃ s, insert f upper a = .ok s ∧ extract (sp ++ s ++ e :: rest) = (a, e :: rest, false) := by
  obtain ⟨s, h1, h2⟩ := insert_parse f upper a
  refine ⟨s, h1, ?_⟩
  obtain ⟨h3, c, t, h4, h5⟩ := insert_taken f upper a s h1
  unfold extract
  have hd : (sp ++ s ++ e :: rest).dropWhile space = s ++ e :: rest := by
    rw [List.append_assoc, h4, List.cons_append, dropWhile_spaces sp hsp c h5]
  rw [hd, readLoop_taken s h3]
  unfold readLoop
  rw [if_neg (by rw [he]; decide)]
  dsimp only
  rw [List.append_nil, h2]

/-- When the number ends the stream it is read, but the stream has failed: `if (in >> a)` and `while (in >> a)` lose it. -/
theorem extract_at_end (f : Field) (upper : Bool) (a : Int) (sp : List Char) (hsp : ∀ c ∈ sp, space c = true) :
    ∃ s, insert f upper a = .ok s ∧ extract (sp ++ s) = (a, [], true) := by
  obtain ⟨s, h1, h2⟩ := insert_parse f upper a
  refine ⟨s, h1, ?_⟩
  obtain ⟨h3, c, t, h4, h5⟩ := insert_taken f upper a s h1
  unfold extract
  have hd : (sp ++ s).dropWhile space = s ++ [] := by
    rw [h4, dropWhile_spaces sp hsp c h5, List.append_nil]
  rw [hd, readLoop_taken s h3]
  dsimp only [readLoop]
  rw [List.append_nil, h2]

/-- `operator>>` does not know the prefixes `0X`, `0n` and `0N` of the constructor: it reads 0 and stops at the letter. -/
theorem extract_prefix : extract "0X1F ".toList = (0, "X1F ".toList, false) ∧ parse false "0X1F".toList = 31 ∧
    extract "0n12 ".toList = (0, "n12 ".toList, false) ∧ parse false "0n12".toList = 12 := by decide +kernel

example : (insert .hex true (-48879)).map String.ofList = .ok "-BEEFh" := by decide +kernel
example : parse false "1,234,567.".toList = 1234567 ∧ parse false "-0x1fb".toList = -507 ∧ parse true "0x34120".toList = 0x1234 ∧ parse false "101b".toList = 5 := by decide +kernel
example : extract "  -17o; 5".toList = (-15, "; 5".toList, false) := by decide +kernel
example : (intToStringT 32 16 true (-255)).map String.ofList = .ok "-FF" := by decide +kernel

end Verif.IntStr
