import Verif.BaseN.Proofs2

/-!
# Properties C03-C06: base-N text encoding
-/
namespace Verif.BaseN

/-- **C03.** Feeding a message in any split into `Put` calls hands the attachment exactly the same sequence of calls, and
leaves the encoder in exactly the same state, as one `Put` of the concatenation. For every encoder state. -/
theorem encoder_chunking_independent (e : Enc) (pieces : List (List Byte)) :
    e.feed pieces = e.put2 pieces.flatten true := Enc.feed_eq e pieces

/-- **C03.** The same with the line-breaking grouper behind the encoder (`HexEncoder`, `Base32Encoder`, `Base64Encoder`...). -/
theorem textEncoder_chunking_independent (t : TextEnc) (pieces : List (List Byte)) :
    t.feed pieces = t.put2 pieces.flatten true := TextEnc.feed_eq t pieces

/-- **C03** for decoders. -/
theorem decoder_chunking_independent (d : Dec) (pieces : List (List Byte)) :
    d.feed pieces = d.put2 pieces.flatten true := Dec.feed_eq d pieces

/-- **C05.** An initialised encoder, for every base `2^w` with `1 ≤ w ≤ 7`, alphabet and padding setting, whatever the
uninitialised output buffer contained, outputs for every sequence of messages in every split the text defined by the
messages' bit strings. -/
theorem encoder_output (alphabet : Nat → Byte) (w : Nat) (padding : Option Byte) (garbage : Nat → Byte)
    (h1 : 1 ≤ w) (h7 : w ≤ 7) (messages : List (List (List Byte))) :
    ∃ e, Enc.init alphabet w padding garbage = .ok e ∧
      e.feedMany messages = messages.map fun pieces => encodeSpec alphabet w padding pieces.flatten := by
  obtain ⟨e, he, hp, hs⟩ := Enc.init_spec alphabet w padding garbage h1 (by omega)
  exact ⟨e, he, Enc.feedMany_spec messages e _ _ _ h1 (by omega) hp hs⟩

/-- "fooba" in base64: five bytes, seven symbols, one padding character (RFC 4648 section 10). -/
example : encodeSpec (ofList b64Std) 6 (some b64Pad) [0x66, 0x6f, 0x6f, 0x62, 0x61] =
    [0x5a, 0x6d, 0x39, 0x76, 0x59, 0x6d, 0x45, 0x3d] := by decide +kernel
/-- The model itself on the same input, in two pieces. -/
example : (match Enc.init (ofList b64Std) 6 (some b64Pad) (fun _ => 0xaa) with
    | .ok e => e.feedMany [[[0x66, 0x6f], [0x6f, 0x62, 0x61]]]
    | .error _ => []) = [[0x5a, 0x6d, 0x39, 0x76, 0x59, 0x6d, 0x45, 0x3d]] := by decide +kernel

/-- Bases outside `2^1..2^7` are rejected. -/
theorem encoder_rejects_base (alphabet : Nat → Byte) (w : Nat) (padding garbage) (h : w = 0 ∨ 8 ≤ w) :
    Enc.init alphabet w padding garbage = .error .invalidArgument := by
  unfold Enc.init; rw [if_pos h]

theorem decoder_rejects_base (lookup : Byte → Int) (w : Nat) (garbage) (h : w = 0 ∨ 8 ≤ w) :
    Dec.init lookup w garbage = .error .invalidArgument := by
  unfold Dec.init; rw [if_pos h]

/-- **C05** with the grouper: lines of `g` characters with separators between and the terminator at the end. -/
theorem textEncoder_output (alphabet : Nat → Byte) (w : Nat) (padding : Option Byte) (garbage : Nat → Byte)
    (g : Nat) (sep term : List Byte) (h1 : 1 ≤ w) (h7 : w ≤ 7) (messages : List (List (List Byte))) :
    ∃ e, Enc.init alphabet w padding garbage = .ok e ∧
      TextEnc.feedMany ⟨e, Grouper.init g sep term⟩ messages =
        messages.map fun pieces => groupSpec g sep term (encodeSpec alphabet w padding pieces.flatten) := by
  obtain ⟨e, he, hp, hs⟩ := Enc.init_spec alphabet w padding garbage h1 (by omega)
  exact ⟨e, he, TextEnc.feedMany_spec messages ⟨e, Grouper.init g sep term⟩ (Grouper.init g sep term) _ _ _ h1 (by omega) hp hs rfl rfl⟩

example : groupSpec 4 [newline] [newline] (encodeSpec (ofList b64Std) 6 (some b64Pad) [0x66, 0x6f, 0x6f, 0x62, 0x61]) =
    [0x5a, 0x6d, 0x39, 0x76, newline, 0x59, 0x6d, 0x45, 0x3d, newline] := by decide +kernel

/-- **C05/C06** for decoders: every text, in every split, decodes to the whole bytes of the bit string made of the values
of its alphabet characters; everything else is skipped. The table must hold -1 or a value below the base. -/
theorem decoder_output (lookup : Byte → Int) (w : Nat) (garbage : Nat → Byte) (h1 : 1 ≤ w) (h7 : w ≤ 7)
    (hlk : ∀ c, -1 ≤ lookup c ∧ lookup c < 2 ^ w) (texts : List (List (List Byte))) :
    ∃ d, Dec.init lookup w garbage = .ok d ∧
      d.feedMany texts = texts.map fun pieces => decodeSpec (symbolValue lookup) w pieces.flatten := by
  obtain ⟨d, hd, hp, hs⟩ := Dec.init_spec lookup w garbage h1 (by omega)
  exact ⟨d, hd, Dec.feedMany_spec texts d _ _ h1 (by omega) hp hs hlk⟩

/-- The tables of all built-in decoders meet the hypothesis of `decoder_output`. -/
theorem builtin_table_range (c : Codec) (hc : c ∈ builtin) (x : Byte) :
    -1 ≤ ofTable c.table x ∧ ofTable c.table x < 2 ^ c.log2base := by
  obtain ⟨_, _, _, h4, _, h6⟩ := builtin_tables c hc
  exact h6 _ (ofTable_mem _ x h4)

/-- Every built-in alphabet character decodes to its index, in every built-in codec. -/
theorem builtin_table_inverts (c : Codec) (hc : c ∈ builtin) (s : Nat) (hs : s < 2 ^ c.log2base) :
    symbolValue (ofTable c.table) (ofList c.alphabet s) = some s := by
  obtain ⟨_, _, _, _, h5, _⟩ := builtin_tables c hc
  unfold symbolValue
  rw [h5 s hs]
  simp

/-- **C04.** For every built-in codec (hex upper/lower, base32, base32hex upper/lower, base64, base64url), every line
length, every padding character, separator and terminator outside the alphabet, every sequence of messages: encoding each
in any split, then decoding the texts in any split, gives back the messages. -/
theorem decode_encode (c : Codec) (hc : c ∈ builtin) (padding : Option Byte) (g : Nat) (sep term : List Byte)
    (hpad : ∀ x, padding = some x → ofTable c.table x < 0) (hsep : ∀ x ∈ sep, ofTable c.table x < 0)
    (hterm : ∀ x ∈ term, ofTable c.table x < 0) (garbage garbage' : Nat → Byte) (messages : List (List (List Byte)))
    (texts : List (List (List Byte))) :
    ∃ e d, Enc.init (ofList c.alphabet) c.log2base padding garbage = .ok e ∧ Dec.init (ofTable c.table) c.log2base garbage' = .ok d ∧
      (texts.map List.flatten = TextEnc.feedMany ⟨e, Grouper.init g sep term⟩ messages →
        d.feedMany texts = messages.map List.flatten) := by
  obtain ⟨hw, hw8, _⟩ := builtin_tables c hc
  obtain ⟨e, he, he2⟩ := textEncoder_output (ofList c.alphabet) c.log2base padding garbage g sep term hw (by omega) messages
  obtain ⟨d, hd, hd2⟩ := decoder_output (ofTable c.table) c.log2base garbage' hw (by omega) (builtin_table_range c hc) texts
  refine ⟨e, d, he, hd, fun htexts => ?_⟩
  have hnone : ∀ x, ofTable c.table x < 0 → symbolValue (ofTable c.table) x = none := by
    intro x hx; unfold symbolValue; rw [if_neg (by omega)]
  rw [hd2]
  have : texts.map (fun pieces => decodeSpec (symbolValue (ofTable c.table)) c.log2base pieces.flatten) =
      (texts.map List.flatten).map (decodeSpec (symbolValue (ofTable c.table)) c.log2base) := by simp
  rw [this, htexts, he2, List.map_map]
  apply List.map_congr_left
  intro m _
  exact decode_encode_spec _ _ _ _ _ _ _ _ hw hw8 (builtin_table_inverts c hc)
    (fun x hx => hnone x (hpad x hx)) (fun x hx => hnone x (hsep x hx)) (fun x hx => hnone x (hterm x hx))

/-- The padding character and newline are outside every built-in alphabet, so `decode_encode` applies to the default settings. -/
example : ∀ c ∈ builtin, ofTable c.table b64Pad < 0 ∧ ofTable c.table newline < 0 := by decide +kernel

/-- **C04** for any alphabet of distinct characters and the table `InitializeDecodingLookupArray` builds for it. -/
theorem decode_encode_custom (alphabet : List Byte) (ci : Bool) (w : Nat) (h1 : 1 ≤ w) (h7 : w ≤ 7)
    (hlen : alphabet.length = 2 ^ w) (hdistinct : alphabet.Pairwise (fun a b => ∀ c ∈ keys ci a, c ∉ keys ci b))
    (hself : ∀ b ∈ alphabet, b ∈ keys ci b)
    (padding : Option Byte) (g : Nat) (sep term : List Byte)
    (hpad : ∀ x, padding = some x → ∀ b ∈ alphabet, x ∉ keys ci b) (hsep : ∀ x ∈ sep, ∀ b ∈ alphabet, x ∉ keys ci b)
    (hterm : ∀ x ∈ term, ∀ b ∈ alphabet, x ∉ keys ci b) (garbage garbage' : Nat → Byte) (pieces text : List (List Byte)) :
    ∃ e d, Enc.init (ofList alphabet) w padding garbage = .ok e ∧ Dec.init (initLookup alphabet ci) w garbage' = .ok d ∧
      (text.flatten = (TextEnc.feed ⟨e, Grouper.init g sep term⟩ pieces).2 → callBytes (d.feed text).2 = pieces.flatten) := by
  have hrange : ∀ c, -1 ≤ initLookup alphabet ci c ∧ initLookup alphabet ci c < 2 ^ w := by
    intro c
    by_cases h : ∃ i, ∃ hi : i < alphabet.length, c ∈ keys ci alphabet[i]
    · obtain ⟨i, hi, hk⟩ := h
      rw [initLookup_spec alphabet ci hdistinct i hi c hk]
      rw [hlen] at hi
      refine ⟨by omega, ?_⟩
      exact_mod_cast hi
    · rw [initLookup_none]
      · refine ⟨by omega, ?_⟩
        have : (0 : Int) < 2 ^ w := Int.pow_pos (by omega)
        omega
      · intro b hb hk
        obtain ⟨i, hi, rfl⟩ := List.getElem_of_mem hb
        exact h ⟨i, hi, hk⟩
  obtain ⟨e, he, he2⟩ := textEncoder_output (ofList alphabet) w padding garbage g sep term h1 h7 [pieces]
  obtain ⟨d, hd, hd2⟩ := decoder_output (initLookup alphabet ci) w garbage' h1 h7 hrange [text]
  refine ⟨e, d, he, hd, fun htext => ?_⟩
  simp only [TextEnc.feedMany, Dec.feedMany, List.map_cons, List.map_nil, List.cons.injEq, and_true] at he2 hd2
  have hnone : ∀ x, (∀ b ∈ alphabet, x ∉ keys ci b) → symbolValue (initLookup alphabet ci) x = none := by
    intro x hx; unfold symbolValue; rw [initLookup_none _ _ _ hx]; simp
  rw [hd2, htext, he2]
  apply decode_encode_spec _ _ _ _ _ _ _ _ h1 (by omega)
  · intro s hs
    have hi : s < alphabet.length := by omega
    have : ofList alphabet s = alphabet[s] := by
      unfold ofList; rw [List.getD_eq_getElem?_getD, List.getElem?_eq_getElem hi, Option.getD_some]
    unfold symbolValue
    rw [this, initLookup_spec alphabet ci hdistinct s hi _ (hself _ (List.getElem_mem _))]
    simp
  · exact fun x hx => hnone x (hpad x hx)
  · exact fun x hx => hnone x (hsep x hx)
  · exact fun x hx => hnone x (hterm x hx)

/-- The hypotheses are met by, for example, the base32 alphabet in case-insensitive mode. -/
example : b32Lower.length = 2 ^ 5 ∧ b32Lower.Pairwise (fun a b => ∀ c ∈ keys true a, c ∉ keys true b) ∧
    ∀ b ∈ b32Lower, b ∈ keys true b := by decide +kernel

/-- **C06.** Two texts that agree after deleting the characters the table maps to no symbol decode to the same bytes, in
any split. In particular inserting such characters anywhere changes nothing. -/
theorem decoder_ignores_nonalphabet (lookup : Byte → Int) (w : Nat) (garbage garbage' : Nat → Byte) (h1 : 1 ≤ w) (h7 : w ≤ 7)
    (hlk : ∀ c, -1 ≤ lookup c ∧ lookup c < 2 ^ w) (text text' : List (List Byte))
    (hsame : text.flatten.filter (fun c => 0 ≤ lookup c) = text'.flatten.filter (fun c => 0 ≤ lookup c)) :
    ∃ d d', Dec.init lookup w garbage = .ok d ∧ Dec.init lookup w garbage' = .ok d' ∧
      callBytes (d.feed text).2 = callBytes (d'.feed text').2 := by
  obtain ⟨d, hd, hd2⟩ := decoder_output lookup w garbage h1 h7 hlk [text]
  obtain ⟨d', hd', hd2'⟩ := decoder_output lookup w garbage' h1 h7 hlk [text']
  refine ⟨d, d', hd, hd', ?_⟩
  simp only [Dec.feedMany, List.map_cons, List.map_nil, List.cons.injEq, and_true] at hd2 hd2'
  rw [hd2, hd2']
  have key : ∀ t : List Byte, t.filterMap (symbolValue lookup) = (t.filter (fun c => 0 ≤ lookup c)).filterMap (symbolValue lookup) := by
    intro t
    induction t with
    | nil => rfl
    | cons a t ih =>
      by_cases h : 0 ≤ lookup a
      · simp [h, symbolValue] ; simpa [symbolValue] using ih
      · simp [h, symbolValue] ; simpa [symbolValue] using ih
  unfold decodeSpec decodeBits
  rw [key text.flatten, key text'.flatten, hsame]

/-- "Zm 9v" and "Zm9v" agree after deletion in base64. -/
example : ([[0x5a, 0x6d], [0x20, 0x39, 0x76]] : List (List Byte)).flatten.filter (fun c => 0 ≤ ofTable b64Array c) =
    ([[0x5a, 0x6d, 0x39, 0x76]] : List (List Byte)).flatten.filter (fun c => 0 ≤ ofTable b64Array c) := by decide +kernel

end Verif.BaseN
