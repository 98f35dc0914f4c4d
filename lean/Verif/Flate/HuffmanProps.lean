import Verif.Flate.LengthsProofs

/-!
# C36, first part: the Huffman coder

The code lengths made from symbol counts form a code that RFC 1951 allows, the encoder gives each symbol the
canonical code of RFC 1951 for these lengths, and the decoder set up with the same lengths reads it back, whatever
bits follow.
-/
namespace Verif.Flate

/-- A decoder for the given lengths exists and reads the code the encoder gives to `s`, followed by any bits
`more`, as `s`, using up exactly the bits of the code. -/
def ReadsBack (lens : List Nat) (s : Nat) : Prop :=
  ∃ (d : Decoder) (c : Code), decoderInit lens = .ok d ∧ (encoderInit lens)[s]? = some c ∧ c.len = lens.getD s 0 ∧
    c.code < 2 ^ c.len ∧ ∀ more, decodeCode d (c.code + 2 ^ c.len * more) = some (s, c.len)

theorem bits_add_mul (n a b : Nat) (h : a < 2 ^ n) : bits n (a + 2 ^ n * b) = bits n a := by
  rw [← bits_mod n (a + 2 ^ n * b), Nat.add_mul_mod_self_left, Nat.mod_eq_of_lt h]

/-- The decoder inverts the encoder, for every code RFC 1951 allows. -/
theorem huffman_round_trip {M : Nat} {lens : List Nat} (hM : M ≤ 32) (hv : ValidCode M lens) {s : Nat} (hs : lens.getD s 0 ≠ 0) :
    ReadsBack lens s := by
  obtain ⟨d, h1, h2⟩ := decoder_ok hM hv
  obtain ⟨c, h3, h4, h5⟩ := encoder_code hM hv.1 (hv.kraft_le hM) hs
  refine ⟨d, _, h1, h3, rfl, h4, fun more => h2.hit s _ hs ?_⟩
  rw [← h5, bits_add_mul _ _ _ h4]

/-- The encoder's code is the one RFC 1951 gives, first bit of the code lowest. -/
theorem huffman_canonical {M : Nat} {lens : List Nat} (hM : M ≤ 32) (hv : ValidCode M lens) {s : Nat} (hs : lens.getD s 0 ≠ 0) :
    ∃ c, (encoderInit lens)[s]? = some c ∧ c.len = lens.getD s 0 ∧ bits c.len c.code = codeBits lens s := by
  obtain ⟨c, h3, h4, h5⟩ := encoder_code hM hv.1 (hv.kraft_le hM) hs
  exact ⟨_, h3, rfl, h5⟩

/-- The lengths made from any counts are at most `M`, form a complete code (or a single code of one bit), and every
symbol that occurs, and no other, has a code: whatever order `std::sort` leaves equal counts in. -/
theorem code_lengths_valid {srt : List Leaf → List Leaf} (hs : IsSort srt) {M : Nat} (hM : 1 ≤ M) (counts : List Nat)
    (hn : counts.length ≤ 2 ^ M) (hc : ∃ c ∈ counts, c ≠ 0) :
    ValidCode M (generate srt M counts) ∧ (generate srt M counts).length = counts.length ∧
      ∀ s, s < counts.length → ((generate srt M counts).getD s 0 = 0 ↔ counts.getD s 0 = 0) := by
  obtain ⟨h1, h2, _, h4, _⟩ := generate_valid hs hM counts hn
  exact ⟨h4 hc, h1, h2⟩

/-- Together: whatever the counts, each symbol that occurs is read back.  What is missing for C36: the block
format, the search for matches and the two state machines. -/
theorem deflate_huffman_partial {srt : List Leaf → List Leaf} (hs : IsSort srt) {M : Nat} (hM : 1 ≤ M) (hM' : M ≤ 32) (counts : List Nat)
    (hn : counts.length ≤ 2 ^ M) {s : Nat} (hc : counts.getD s 0 ≠ 0) : ReadsBack (generate srt M counts) s := by
  have hsl : s < counts.length := by
    by_contra h
    exact hc (by rw [List.getD_eq_getElem?_getD, List.getElem?_eq_none (by omega)]; rfl)
  obtain ⟨h1, _, h3⟩ := code_lengths_valid hs hM counts hn ⟨counts.getD s 0, by
    rw [List.getD_eq_getElem?_getD, List.getElem?_eq_getElem hsl]; exact List.getElem_mem hsl, hc⟩
  exact huffman_round_trip hM' h1 (fun e => hc ((h3 s hsl).1 e))

/-- Insertion sort is one of the sorts allowed. -/
def insSort (l : List Leaf) : List Leaf := l.foldr (fun a r => r.takeWhile (fun b => decide (b.freq < a.freq)) ++ a :: r.dropWhile fun b => decide (b.freq < a.freq)) []

theorem insSort_isSort : IsSort insSort := by
  constructor
  · intro l
    induction l with
    | nil => exact List.Perm.refl _
    | cons a l ih =>
      show List.Perm (_ ++ a :: _) _
      refine List.perm_middle.trans (List.Perm.cons a ?_)
      rw [List.takeWhile_append_dropWhile]
      exact ih
  · intro l
    induction l with
    | nil => exact List.Pairwise.nil
    | cons a l ih =>
      show List.Pairwise _ (List.takeWhile _ (insSort l) ++ a :: List.dropWhile _ (insSort l))
      generalize insSort l = r at ih
      induction r with
      | nil => exact List.pairwise_singleton _ _
      | cons b r ihr =>
        obtain ⟨i1, i2⟩ := List.pairwise_cons.1 ih
        rw [List.takeWhile_cons, List.dropWhile_cons]
        by_cases h : b.freq < a.freq
        · rw [if_pos (decide_eq_true h), if_pos (decide_eq_true h), List.cons_append, List.pairwise_cons]
          refine ⟨fun x hx => ?_, ihr i2⟩
          have hx := List.perm_middle.mem_iff.1 hx
          rw [List.takeWhile_append_dropWhile] at hx
          rcases List.mem_cons.1 hx with rfl | hx
          · omega
          · exact i1 x hx
        · rw [if_neg (by simpa using h), if_neg (by simpa using h), List.nil_append, List.pairwise_cons]
          refine ⟨fun x hx => ?_, ih⟩
          rcases List.mem_cons.1 hx with rfl | hx
          · omega
          · have := i1 x hx; omega

/-- Nineteen counts growing so fast that the lengths must be cut at 7. -/
example : ReadsBack (generate insSort 7 [1, 1, 2, 4, 8, 16, 32, 64, 128, 256, 0, 3]) 9 :=
  deflate_huffman_partial insSort_isSort (by decide) (by decide) _ (by decide) (by decide)

example : generate insSort 7 [1, 1, 2, 4, 8, 16, 32, 64, 128, 256, 0, 3] = [7, 7, 7, 7, 7, 6, 4, 3, 2, 1, 0, 7] := by decide +kernel

end Verif.Flate
