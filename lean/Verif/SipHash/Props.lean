import Verif.SipHash.Model
import Verif.SipHash.Spec

/-!
# C70: SipHash objects compute SipHash-c-d

For all numbers of rounds, both output sizes, all keys, all messages and all divisions of them between calls.
-/
namespace Verif.SipHash
open Verif.Cipher (rotl)

/-! ## Rounds -/

def V.tup (v : V) : Spec.Word × Spec.Word × Spec.Word × Spec.Word := (v.v0, v.v1, v.v2, v.v3)

theorem rotl_eq {w : Nat} (x : BitVec w) (n : Nat) (h : 0 < n ∧ n < w) : rotl x n = x.rotateLeft n := by
  unfold rotl BitVec.rotateLeft BitVec.rotateLeftAux
  rw [Nat.mod_eq_of_lt h.2, Nat.mod_eq_of_lt (a := w - n) (by omega)]

theorem sipround_eq (v : V) : (sipround v).tup = Spec.sipRound v.tup := by
  unfold sipround Spec.sipRound V.tup
  simp only [rotl_eq (w := 64) _ 13 (by omega), rotl_eq (w := 64) _ 32 (by omega), rotl_eq (w := 64) _ 16 (by omega), rotl_eq (w := 64) _ 17 (by omega), rotl_eq (w := 64) _ 21 (by omega)]

theorem siprounds_eq : ∀ (n : Nat) (v : V), (siprounds n v).tup = Spec.rounds n v.tup := by
  intro n
  induction n with
  | zero => intro v; rfl
  | succ n ih =>
    intro v
    rw [siprounds, ih, sipround_eq]
    unfold Spec.rounds
    rw [List.range_succ_eq_map, List.foldl_cons, List.foldl_map]

/-! ## The message so far -/

/-- The words in `x` are in the state. -/
structure Core (C : Nat) (wide : Bool) (k0 k1 : W64) (s : State) (x : List Byte) : Prop where
  mul : x.length % 8 = 0
  v : s.v.tup = ((chunks 8 x).map fun x => BitVec.ofNat 64 (leVal x)).foldl (Spec.compress C) (Spec.init wide k0 k1)
  b : s.b = BitVec.ofNat 64 x.length
  k0 : s.k0 = k0
  k1 : s.k1 = k1

/-- The object has been given `m` since the last restart. -/
def Given (C : Nat) (wide : Bool) (k0 k1 : W64) (s : State) (m : List Byte) : Prop :=
  ∃ x, m = x ++ s.acc ∧ s.acc.length < 8 ∧ Core C wide k0 k1 s x

variable {C : Nat} {wide : Bool} {k0 k1 : W64}

theorem Core.word {s : State} {x w : List Byte} (h : Core C wide k0 k1 s x) (hw : w.length = 8) (a : List Byte) :
    Core C wide k0 k1 { word C s w with acc := a } (x ++ w) := by
  have e1 : chunks 8 w = [w] := by
    have := chunks_append_block 8 (by decide) w [] hw
    rwa [List.append_nil, chunks_nil] at this
  refine ⟨by rw [List.length_append, hw]; have := h.mul; omega, ?_, ?_, h.k0, h.k1⟩
  · rw [chunks_append 8 (by decide) _ _ h.mul, e1, List.map_append, List.foldl_append, ← h.v]
    have e := siprounds_eq C { s.v with v3 := s.v.v3 ^^^ BitVec.ofNat 64 (leVal w) }
    show V.tup { siprounds C { s.v with v3 := s.v.v3 ^^^ BitVec.ofNat 64 (leVal w) } with v0 := _ } = Spec.compress C s.v.tup (BitVec.ofNat 64 (leVal w))
    unfold Spec.compress
    rw [show (s.v.tup.1, s.v.tup.2.1, s.v.tup.2.2.1, s.v.tup.2.2.2 ^^^ BitVec.ofNat 64 (leVal w)) = V.tup { s.v with v3 := s.v.v3 ^^^ BitVec.ofNat 64 (leVal w) } from rfl, ← e]
    rfl
  · show s.b + 8 = _
    rw [h.b, List.length_append, hw, BitVec.ofNat_add]; rfl

theorem Core.acc {s : State} {x : List Byte} (h : Core C wide k0 k1 s x) (a : List Byte) : Core C wide k0 k1 { s with acc := a } x := ⟨h.mul, h.v, h.b, h.k0, h.k1⟩

theorem loop_spec : ∀ (n : Nat) (s : State) (x y : List Byte), Core C wide k0 k1 s x → y.length ≤ n →
    ∃ z, y = z ++ (loop C n s y).2 ∧ (loop C n s y).2.length < 8 ∧ Core C wide k0 k1 (loop C n s y).1 (x ++ z) ∧ (loop C n s y).1.acc = s.acc
  | 0, s, x, y, h, hn => by
    have : y = [] := List.eq_nil_of_length_eq_zero (by omega)
    subst this
    exact ⟨[], rfl, by simp [loop], by simpa [loop] using h, rfl⟩
  | n + 1, s, x, y, h, hn => by
    unfold loop
    by_cases h8 : y.length ≥ 8
    · rw [if_pos h8]
      have ht : (y.take 8).length = 8 := by rw [List.length_take]; omega
      obtain ⟨z, e, l, c, a⟩ := loop_spec n (SipHash.word C s (y.take 8)) (x ++ y.take 8) (y.drop 8) (h.word ht s.acc) (by rw [List.length_drop]; omega)
      exact ⟨y.take 8 ++ z, by rw [List.append_assoc, ← e, List.take_append_drop], l, by rw [← List.append_assoc]; exact c, a⟩
    · rw [if_neg h8]
      exact ⟨[], rfl, show y.length < 8 by omega, by simpa using h, rfl⟩

theorem tail_given (s : State) (x y m : List Byte) (h : Core C wide k0 k1 s x) (hm : m = x ++ s.acc ++ y) (ha : s.acc = [] ∨ y = [] ∧ s.acc.length < 8) :
    Given C wide k0 k1 (let (s, x) := loop C y.length s y; if x.length % 8 ≠ 0 then { s with acc := s.acc ++ x.take (x.length % 8) } else s) m := by
  obtain ⟨z, e, l, c, a⟩ := loop_spec y.length s x y h (Nat.le_refl _)
  generalize loop C y.length s y = r at e l c a
  obtain ⟨s', x'⟩ := r
  dsimp only at e l c a ⊢
  rw [Nat.mod_eq_of_lt l]
  rcases ha with ha | ⟨hy, ha⟩
  · by_cases hx : x'.length ≠ 0
    · rw [if_pos hx, List.take_of_length_le (Nat.le_refl _)]
      refine ⟨x ++ z, ?_, ?_, c.acc _⟩
      · show m = x ++ z ++ (s'.acc ++ x')
        rw [hm, a, ha, List.append_nil, List.nil_append, e, List.append_assoc]
      · show (s'.acc ++ x').length < 8
        rw [a, ha]; simpa using l
    · rw [if_neg hx]
      have hx' : x' = [] := List.eq_nil_of_length_eq_zero (by omega)
      refine ⟨x ++ z, ?_, by rw [a, ha]; decide, c⟩
      rw [hm, a, ha, e, hx']; simp
  · subst hy
    have hz : z = [] ∧ x' = [] := by simpa using e.symm
    rw [hz.2]
    refine ⟨x, ?_, by simpa [a] using ha, by simpa [hz.1] using c⟩
    rw [hm]; simp [a]

theorem update_given (s : State) (m y : List Byte) (h : Given C wide k0 k1 s m) : Given C wide k0 k1 (update C s y) (m ++ y) := by
  obtain ⟨x, rfl, ha, hc⟩ := h
  unfold update
  by_cases hy : y.length = 0
  · have : y = [] := List.eq_nil_of_length_eq_zero hy
    subst this
    rw [if_pos (show ([] : List Byte).length = 0 from rfl)]
    exact ⟨x, by simp, ha, hc⟩
  rw [if_neg hy]
  by_cases h0 : s.acc.length = 0
  · have hnil : s.acc = [] := List.eq_nil_of_length_eq_zero h0
    simp only [h0, ne_eq, not_true_eq_false, if_false]
    exact tail_given s x y _ hc rfl (.inl hnil)
  · simp only [ne_eq, h0, not_false_eq_true, if_true]
    by_cases h8 : (s.acc ++ y.take (min (8 - s.acc.length) y.length)).length = 8
    · rw [if_pos h8]
      refine tail_given _ (x ++ (s.acc ++ y.take (min (8 - s.acc.length) y.length))) (y.drop (min (8 - s.acc.length) y.length)) _ ?_ ?_ (.inl rfl)
      · exact (hc.acc _).word h8 []
      · simp [List.append_assoc, List.take_append_drop]
    · rw [if_neg h8]
      rw [List.length_append, List.length_take] at h8
      have hmin : min (8 - s.acc.length) y.length = y.length := by omega
      rw [hmin, List.take_of_length_le (Nat.le_refl _), List.drop_of_length_le (Nat.le_refl _)]
      refine tail_given { s with acc := s.acc ++ y } x [] _ (hc.acc _) (by simp) (.inr ⟨rfl, ?_⟩)
      show (s.acc ++ y).length < 8
      rw [List.length_append]; omega

theorem restart_given (k0 k1 : W64) : Given C wide k0 k1 (restart wide k0 k1) [] := by
  refine ⟨[], rfl, show 0 < 8 by decide, ⟨rfl, ?_, rfl, rfl, rfl⟩⟩
  show (restart wide k0 k1).v.tup = Spec.init wide k0 k1
  unfold restart Spec.init V.tup
  cases wide
  · simp [BitVec.xor_comm]
  · simp [BitVec.xor_comm]

/-! ## The last word -/

theorem ladder_eq (acc : List Byte) : ∀ (n : Nat) (b : W64), n ≤ acc.length → n ≤ 7 → ladder acc n b = b ||| BitVec.ofNat 64 (leVal (acc.take n))
  | 0, b, _, _ => by simp [ladder]
  | n + 1, b, h, h7 => by
    rw [ladder, ladder_eq acc n _ (by omega) (by omega), BitVec.or_assoc]
    congr 1
    have e : acc.take (n + 1) = acc.take n ++ [acc.getD n 0] := by
      rw [List.take_succ, List.getD_eq_getElem?_getD, List.getElem?_eq_getElem (by omega)]; rfl
    have hl : (acc.take n).length = n := by rw [List.length_take]; omega
    have hlt := leVal_lt (acc.take n)
    rw [hl, show (256 : Nat) ^ n = 2 ^ (8 * n) by rw [Nat.pow_mul]] at hlt
    rw [e, leVal_append, hl, show (256 : Nat) ^ n = 2 ^ (8 * n) by rw [Nat.pow_mul]]
    have ev : leVal [acc.getD n 0] = (acc.getD n 0).toNat := by simp [leVal]
    rw [ev]
    generalize (acc.getD n 0).toNat = a
    generalize leVal (acc.take n) = c at hlt
    have : c + 2 ^ (8 * n) * a = (a <<< (8 * n)) ||| c := by
      rw [← Nat.shiftLeft_add_eq_or_of_lt hlt, Nat.shiftLeft_eq, Nat.mul_comm, Nat.add_comm]
    rw [this]
    apply BitVec.eq_of_getLsbD_eq
    intro i hi
    simp only [BitVec.getLsbD_or, BitVec.getLsbD_ofNat, BitVec.getLsbD_shiftLeft, Nat.testBit_or, Nat.testBit_shiftLeft, hi, decide_true, Bool.true_and]
    by_cases hb : i < 8 * n
    · simp [hb, Nat.not_le.mpr hb]
    · have : i - 8 * n < 64 := by omega
      simp [hb, this, Nat.not_lt.mp hb]

/-- The last word is that of the padded message. -/
theorem last_word (x acc : List Byte) (hx : x.length % 8 = 0) (ha : acc.length < 8) :
    ladder acc acc.length ((BitVec.ofNat 64 x.length + BitVec.ofNat 64 acc.length) <<< 56) =
      BitVec.ofNat 64 (leVal (acc ++ List.replicate (7 - acc.length) 0 ++ [BitVec.ofNat 8 (x ++ acc).length])) := by
  rw [ladder_eq acc _ _ (Nat.le_refl _) (by omega), List.take_of_length_le (Nat.le_refl _)]
  have hz : ∀ k, leVal (List.replicate k 0) = 0 := by
    intro k
    induction k with
    | zero => rfl
    | succ k ih => rw [List.replicate_succ, leVal, ih]; rfl
  have hlen : (acc ++ List.replicate (7 - acc.length) 0).length = 7 := by rw [List.length_append, List.length_replicate]; omega
  rw [leVal_append, hlen, leVal_append, hz, Nat.mul_zero, Nat.add_zero]
  have ev : leVal [BitVec.ofNat 8 (x ++ acc).length] = (x ++ acc).length % 256 := by simp [leVal]
  rw [ev, ← BitVec.ofNat_add, ← List.length_append]
  have hlt : leVal acc < 2 ^ 56 := Nat.lt_of_lt_of_le (leVal_lt acc) (by
    rw [show (2 : Nat) ^ 56 = 256 ^ 7 by decide]; exact Nat.pow_le_pow_right (by decide) (by omega))
  generalize (x ++ acc).length = n
  generalize leVal acc = c at hlt
  have : c + 256 ^ 7 * (n % 256) = ((n % 256) <<< 56) ||| c := by
    rw [← Nat.shiftLeft_add_eq_or_of_lt hlt, Nat.shiftLeft_eq, Nat.mul_comm, Nat.add_comm]
  rw [this]
  apply BitVec.eq_of_getLsbD_eq
  intro i hi
  simp only [BitVec.getLsbD_or, BitVec.getLsbD_ofNat, BitVec.getLsbD_shiftLeft, Nat.testBit_or, Nat.testBit_shiftLeft, hi, decide_true, Bool.true_and]
  rw [show (256 : Nat) = 2 ^ 8 by decide, Nat.testBit_mod_two_pow]
  by_cases hb : i < 56
  · simp [hb, Nat.not_le.mpr hb]
  · have h1 : i - 56 < 64 := by omega
    have h2 : i - 56 < 8 := by omega
    simp [hb, h1, h2, Nat.not_lt.mp hb]

theorem words_eq (x acc : List Byte) (hx : x.length % 8 = 0) (ha : acc.length < 8) : Spec.words (x ++ acc) =
    ((chunks 8 x).map fun x => BitVec.ofNat 64 (leVal x)) ++ [BitVec.ofNat 64 (leVal (acc ++ List.replicate (7 - acc.length) 0 ++ [BitVec.ofNat 8 (x ++ acc).length]))] := by
  unfold Spec.words Spec.padded
  have e : (x ++ acc).length % 8 = acc.length := by rw [List.length_append]; omega
  have hl : (acc ++ List.replicate (7 - acc.length) 0 ++ [BitVec.ofNat 8 (x ++ acc).length]).length = 8 := by
    rw [List.length_append, List.length_append, List.length_replicate]; simp; omega
  have e1 := chunks_append_block 8 (by decide) _ [] hl
  rw [List.append_nil, chunks_nil] at e1
  rw [e, List.append_assoc x, List.append_assoc x, chunks_append 8 (by decide) _ _ hx, List.map_append, e1]
  rfl

theorem final_given (D : Nat) (s : State) (m : List Byte) (n : Nat) (h : Given C wide k0 k1 s m) (hn : n ≤ digestSize wide) :
    final C D wide s n = .ok (restart wide k0 k1, ((Spec.finish D wide ((Spec.words m).foldl (Spec.compress C) (Spec.init wide k0 k1))).flatMap fun x => leBytes 8 x.toNat).take n) := by
  obtain ⟨x, rfl, ha, hc⟩ := h
  unfold final
  rw [if_neg (by omega), hc.b, last_word x s.acc hc.mul ha, words_eq x s.acc hc.mul ha, List.foldl_append, ← hc.v, hc.k0, hc.k1, Nat.min_eq_left hn]
  dsimp only
  generalize BitVec.ofNat 64 (leVal (s.acc ++ List.replicate (7 - s.acc.length) 0 ++ [BitVec.ofNat 8 (x ++ s.acc).length])) = w
  have e := siprounds_eq C { s.v with v3 := s.v.v3 ^^^ w }
  have ec : [w].foldl (Spec.compress C) s.v.tup = V.tup { siprounds C { s.v with v3 := s.v.v3 ^^^ w } with v0 := (siprounds C { s.v with v3 := s.v.v3 ^^^ w }).v0 ^^^ w } := by
    show Spec.compress C s.v.tup w = _
    unfold Spec.compress
    rw [show (s.v.tup.1, s.v.tup.2.1, s.v.tup.2.2.1, s.v.tup.2.2.2 ^^^ w) = V.tup { s.v with v3 := s.v.v3 ^^^ w } from rfl, ← e]
    rfl
  rw [ec]
  generalize siprounds C { s.v with v3 := s.v.v3 ^^^ w } = u
  unfold Spec.finish
  cases wide
  · simp only [Bool.false_eq_true, if_false]
    rw [show (V.tup { u with v0 := u.v0 ^^^ w }).1 = u.v0 ^^^ w from rfl]
    have e2 := siprounds_eq D ⟨u.v0 ^^^ w, u.v1, u.v2 ^^^ 0xff, u.v3⟩
    show Except.ok (_, (leBytes 8 (xor4 (siprounds D ⟨u.v0 ^^^ w, u.v1, u.v2 ^^^ 0xff, u.v3⟩)).toNat).take n) = .ok (_, (leBytes 8 (Spec.sum (Spec.rounds D (V.tup ⟨u.v0 ^^^ w, u.v1, u.v2 ^^^ 0xff, u.v3⟩))).toNat ++ []).take n)
    rw [← e2, List.append_nil]
    rfl
  · simp only [if_true]
    have e2 := siprounds_eq D ⟨u.v0 ^^^ w, u.v1, u.v2 ^^^ 0xee, u.v3⟩
    show Except.ok (_, (leBytes 8 (xor4 (siprounds D ⟨u.v0 ^^^ w, u.v1, u.v2 ^^^ 0xee, u.v3⟩)).toNat ++ leBytes 8 (xor4 (siprounds D
        { siprounds D ⟨u.v0 ^^^ w, u.v1, u.v2 ^^^ 0xee, u.v3⟩ with v1 := (siprounds D ⟨u.v0 ^^^ w, u.v1, u.v2 ^^^ 0xee, u.v3⟩).v1 ^^^ 0xdd })).toNat).take n) =
      .ok (_, (leBytes 8 (Spec.sum (Spec.rounds D (V.tup ⟨u.v0 ^^^ w, u.v1, u.v2 ^^^ 0xee, u.v3⟩))).toNat ++ (leBytes 8 (Spec.sum (Spec.rounds D
        ((Spec.rounds D (V.tup ⟨u.v0 ^^^ w, u.v1, u.v2 ^^^ 0xee, u.v3⟩)).1, (Spec.rounds D (V.tup ⟨u.v0 ^^^ w, u.v1, u.v2 ^^^ 0xee, u.v3⟩)).2.1 ^^^ 0xdd,
          (Spec.rounds D (V.tup ⟨u.v0 ^^^ w, u.v1, u.v2 ^^^ 0xee, u.v3⟩)).2.2.1, (Spec.rounds D (V.tup ⟨u.v0 ^^^ w, u.v1, u.v2 ^^^ 0xee, u.v3⟩)).2.2.2))).toNat ++ [])).take n)
    rw [← e2, List.append_nil]
    generalize siprounds D ⟨u.v0 ^^^ w, u.v1, u.v2 ^^^ 0xee, u.v3⟩ = u2
    have e3 := siprounds_eq D { u2 with v1 := u2.v1 ^^^ 0xdd }
    rw [show (u2.tup.1, u2.tup.2.1 ^^^ 0xdd, u2.tup.2.2.1, u2.tup.2.2.2) = V.tup { u2 with v1 := u2.v1 ^^^ 0xdd } from rfl, ← e3]
    rfl

/-! ## The claim -/

/-- **SipHash.** `SetKey` takes exactly the keys of 16 bytes. From then on, whatever the calls of `Update`, `Restart` and `TruncatedFinal`, each result is the SipHash-C-D of the
bytes given since the last restart, cut to the size asked for, and the object is then as it was after `SetKey`. -/
theorem sipHash_computes (C D : Nat) (wide : Bool) (key : List Byte) (hk : key.length = 16) (lim : Nat) :
    ∃ s0 Rep, setKey wide key = .ok s0 ∧ Rep s0 [] ∧ (obj C D wide).Computes (Spec.sipHash C D wide key) lim Rep := by
  have e16 : (key.drop 8).take 8 = key.drop 8 := List.take_of_length_le (by rw [List.length_drop]; omega)
  refine ⟨_, Given C wide (BitVec.ofNat 64 (leVal (key.take 8))) (BitVec.ofNat 64 (leVal (key.drop 8))), ?_, restart_given _ _, ⟨?_, ?_, ?_, ?_, ?_⟩⟩
  · unfold setKey; rw [if_neg (by omega), e16]
  · intro s m x h _; exact ⟨_, rfl, update_given s m x h⟩
  · intro s m h
    obtain ⟨x, _, _, hc⟩ := h
    show Given _ _ _ _ (restart wide s.k0 s.k1) []
    rw [hc.k0, hc.k1]
    exact restart_given _ _
  · intro s m n h hn
    exact ⟨_, final_given D s m n h hn, restart_given _ _⟩
  · intro s n h; exact if_pos h
  · intro m
    show (List.flatMap _ (Spec.finish _ _ _)).length = digestSize wide
    unfold Spec.finish digestSize
    cases wide <;> simp

theorem setKey_rejects (wide : Bool) (key : List Byte) (h : key.length ≠ 16) : setKey wide key = .error .invalidArgument := if_pos h

/-- The result for a message given in pieces. -/
def macOf (C D : Nat) (wide : Bool) (key : List Byte) (pieces : List (List Byte)) : Except Err (List Byte) := do
  let s ← setKey wide key
  let r ← final C D wide (pieces.foldl (update C) s) (digestSize wide)
  return r.2

/-- Told without the invariant: any pieces. -/
theorem sipHash_mac (C D : Nat) (wide : Bool) (key : List Byte) (pieces : List (List Byte)) (hk : key.length = 16) :
    macOf C D wide key pieces = .ok (Spec.sipHash C D wide key pieces.flatten) := by
  obtain ⟨s0, Rep, e, r, h⟩ := sipHash_computes C D wide key hk (pieces.flatten.length + 1)
  have hf : ∀ (ps : List (List Byte)) (s : State) (m : List Byte), Rep s m → (m ++ ps.flatten).length < pieces.flatten.length + 1 → Rep (ps.foldl (update C) s) (m ++ ps.flatten) := by
    intro ps
    induction ps with
    | nil => intro s m hr _; simpa using hr
    | cons p ps ih =>
      intro s m hr hl
      rw [List.flatten_cons, ← List.append_assoc] at hl ⊢
      obtain ⟨s', e', r'⟩ := h.update s m p hr (by rw [List.length_append] at hl; omega)
      have : s' = update C s p := (Except.ok.inj e').symm
      subst this
      exact ih _ _ r' hl
  obtain ⟨s', ef, _⟩ := h.final _ _ (digestSize wide) (hf pieces s0 [] r (by simp)) (Nat.le_refl _)
  unfold macOf
  rw [e]
  show (do let r ← (obj C D wide).final (pieces.foldl (update C) s0) (digestSize wide); return r.2 : Except Err _) = _
  rw [ef, List.take_of_length_le (by rw [h.length]; exact Nat.le_refl _)]
  rfl

def bytes (n : Nat) : List Byte := (List.range n).map (BitVec.ofNat 8)

/-- Appendix A of the paper: the bytes 0 to 14, in three pieces, under the key of the bytes 0 to 15. -/
example : macOf 2 4 false (bytes 16) [bytes 3, ((bytes 14).drop 3), [14]] = .ok (leBytes 8 0xa129ca6149be45e5) := by decide +kernel
example : Spec.sipHash 2 4 false (bytes 16) (bytes 15) = leBytes 8 0xa129ca6149be45e5 := by decide +kernel

/-- The first of the vectors for 128 bits. -/
example : macOf 2 4 true (bytes 16) [] = .ok (beBytes 16 0xa3817f04ba25a8e66df67214c7550293) := by decide +kernel

end Verif.SipHash
