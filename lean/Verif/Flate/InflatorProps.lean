import Verif.Flate.InflatorProofs

/-!
# C36, second part: `Inflator` reads DEFLATE streams

For every DEFLATE stream in the sense of RFC 1951, whoever made it, and however the bytes are divided among calls to
`Put`, with soft flushes in between, what comes out is the message, and then, unchanged, the bytes that follow the
stream.
-/
namespace Verif.Flate

/-- A call before the last one. -/
inductive Call where
  | put (d : List Byte)
  | softFlush
deriving DecidableEq, Repr

/-- The bytes the calls pass in. -/
def Call.bytes : Call → List Byte
  | .put d => d
  | .softFlush => []

/-- The calls one after the other. -/
def Inf.calls (spy : List Byte → Nat) : Inf → List Call → Except Err Inf
  | s, [] => .ok s
  | s, .put d :: cs => match s.put spy d false with
    | .error e => .error e
    | .ok s => Inf.calls spy s cs
  | s, .softFlush :: cs => match s.flush spy false with
    | .error e => .error e
    | .ok s => Inf.calls spy s cs

/-- What a new `Inflator` has delivered after these calls and a last `Put` with the message end. -/
def inflate (spy : List Byte → Nat) (cs : List Call) (last : List Byte) : Except Err (List Byte) :=
  match Inf.calls spy {} cs with
  | .error e => .error e
  | .ok s => match s.put spy last true with
    | .error e => .error e
    | .ok s => .ok s.out

/-- `ByteQueue::Spy` offers at least one byte of a queue that is not empty. -/
def SpyOk (spy : List Byte → Nat) : Prop := ∀ q, q ≠ [] → 1 ≤ spy q ∧ spy q ≤ q.length

theorem calls_at {spy : List Byte → Nat} (hspy : SpyOk spy) {m T last : List Byte} (cs : List Call) : ∀ s : Inf, At m T (cs.flatMap Call.bytes ++ last) s →
    ∃ t, Inf.calls spy s cs = .ok t ∧ At m T last t := by
  induction cs with
  | nil => intro s h; exact ⟨s, rfl, h⟩
  | cons c cs ih =>
    intro s h
    rw [List.flatMap_cons, List.append_assoc] at h
    cases c with
    | put d =>
      obtain ⟨t, e1, e2⟩ := At.put (d := d) hspy h
      rw [Inf.calls, e1]
      exact ih t e2
    | softFlush =>
      rw [Inf.calls]
      have : s.flush spy false = .ok s.flushOutput := rfl
      rw [this]
      exact ih _ (At.soft h)

theorem inflate_plan {spy : List Byte → Nat} (hspy : SpyOk spy) {s m T : List Byte} {bs : List Block} {pad : List Bool} (hbs : bs ≠ []) (hpad : pad.length < 8)
    (hs : byteBits s = blocksBits bs ++ pad) (hp : Produces 0 [] bs m) (hr : Roomy (pad.length + 8 * T.length) 0 bs) (cs : List Call) (last : List Byte)
    (hcs : cs.flatMap Call.bytes ++ last = s ++ T) : inflate spy cs last = .ok (m ++ T) := by
  have hl := congrArg List.length hs
  rw [byteBits_length, List.length_append] at hl
  have h0 : At m T (cs.flatMap Call.bytes ++ last) ({} : Inf) := by
    refine .pre bs pad rfl rfl hbs ⟨by decide, by decide⟩ rfl rfl ⟨hp, hpad, by omega, hr, by decide⟩ ?_
    rw [hcs, byteBits_append, hs, tailBits, List.append_assoc]
    rfl
  obtain ⟨t, e1, e2⟩ := calls_at hspy cs _ h0
  obtain ⟨u, e3, e4⟩ := At.last hspy e2
  unfold inflate
  rw [e1]
  simp only []
  rw [e3]
  simp only []
  rw [e4]

theorem roomy_of_extra {extra : Nat} (h : 22 ≤ extra) {m : List Byte} (bs : List Block) : ∀ (ρ pos : Nat) (o : List Byte), Produces pos o bs m → ρ ≤ 21 →
    Roomy extra ρ bs := by
  induction bs with
  | nil => intro ρ pos o _ _; trivial
  | cons b bs ih =>
    rintro ρ pos o ⟨hv, o', _, hp⟩ hρ
    refine ⟨by omega, fun _ _ => .inr (by omega), ih _ _ o' hp ?_⟩
    cases b with
    | stored => simp [lookahead]
    | fixed => simp only [lookahead]; split <;> omega
    | dynamic hd is =>
      have := hv.1.eob
      simp only [lookahead]
      omega

/-- Every DEFLATE stream followed by at least three bytes (as the trailers of the gzip and zlib formats are) is
decoded, and what follows is passed on unchanged. -/
theorem inflate_reads_streams {spy : List Byte → Nat} (hspy : SpyOk spy) {s m T : List Byte} (hs : IsDeflate s m) (hT : 3 ≤ T.length) (cs : List Call) (last : List Byte)
    (hcs : cs.flatMap Call.bytes ++ last = s ++ T) : inflate spy cs last = .ok (m ++ T) := by
  obtain ⟨bs, pad, h1, h2, h3, h4⟩ := hs
  exact inflate_plan hspy h1 h2 h3 h4 (roomy_of_extra (by omega) bs 0 0 [] h4 (by decide)) cs last hcs

/-- A DEFLATE stream that the object can tell from a truncated one: its last block is not an empty stored block, and
each block extends beyond what the object may already have taken from the input while decoding the one before. -/
def IsRoomyDeflate (s m : List Byte) : Prop :=
  ∃ (bs : List Block) (pad : List Bool), bs ≠ [] ∧ pad.length < 8 ∧ byteBits s = blocksBits bs ++ pad ∧ Produces 0 [] bs m ∧ Roomy pad.length 0 bs

theorem Roomy.mono {a b : Nat} (h : a ≤ b) (bs : List Block) : ∀ ρ, Roomy a ρ bs → Roomy b ρ bs := by
  induction bs with
  | nil => intro _ _; trivial
  | cons c bs ih =>
    rintro ρ ⟨h1, h2, h3⟩
    exact ⟨by omega, fun pad e => by rcases h2 pad e with h | h; exact .inl h; exact .inr (by omega), ih _ h3⟩

/-- Such a stream is decoded whatever follows it, even nothing. -/
theorem inflate_reads_roomy_streams {spy : List Byte → Nat} (hspy : SpyOk spy) {s m T : List Byte} (hs : IsRoomyDeflate s m) (cs : List Call) (last : List Byte)
    (hcs : cs.flatMap Call.bytes ++ last = s ++ T) : inflate spy cs last = .ok (m ++ T) := by
  obtain ⟨bs, pad, h1, h2, h3, h4, h5⟩ := hs
  exact inflate_plan hspy h1 h2 h3 h4 (Roomy.mono (by omega) bs 0 h5) cs last hcs

/-- A stream of a single block, other than an empty stored block, is one of them. -/
theorem roomy_of_single {s m : List Byte} {b : Block} {pad : List Bool} (hpad : pad.length < 8) (hs : byteBits s = b.bits true ++ pad) (hv : b.Valid 0)
    (hr : b.run [] = some m) (hne : ∀ p, b ≠ .stored p []) : IsRoomyDeflate s m := by
  refine ⟨[b], pad, by simp, hpad, hs, ⟨hv, m, hr, rfl⟩, ?_, fun p e => absurd e (hne p), trivial⟩
  have := b.bits_pos true
  simp only [blocksBits]
  omega

/-! ## Streams the object refuses -/

/-- The level 0 encoding of the empty message: a single empty stored block. -/
theorem inflate_rejects_empty_stored :
    IsDeflate [0x01, 0x00, 0x00, 0xff, 0xff] [] ∧ inflate List.length [] [0x01, 0x00, 0x00, 0xff, 0xff] = .error .invalidDataFormat := by
  refine ⟨⟨[.stored (List.replicate 5 false) []], [], by simp, by decide, by decide, ⟨⟨by decide, by decide, by decide⟩, [], rfl, rfl⟩⟩, by decide +kernel⟩

def shortTail : List Byte :=
  [4, 224, 129, 146, 36, 73, 146, 36, 201, 18, 139, 154, 71, 86, 207, 222, 123, 255, 255, 185, 8, 207, 18, 1]

def shortTailHeader : Header where
  hlit := 0
  hdist := 0
  hclen := 15
  clens := [4, 4, 4, 4, 4, 4, 4, 4, 4, 4, 4, 4, 4, 4, 4, 5, 0, 0, 5]
  ops := [⟨2, 0⟩, ⟨3, 0⟩, ⟨4, 0⟩, ⟨5, 0⟩, ⟨6, 0⟩, ⟨7, 0⟩, ⟨8, 0⟩, ⟨9, 0⟩, ⟨10, 0⟩, ⟨11, 0⟩, ⟨12, 0⟩, ⟨13, 0⟩, ⟨14, 0⟩, ⟨15, 0⟩, ⟨15, 0⟩, ⟨18, 127⟩,
    ⟨18, 92⟩, ⟨1, 0⟩, ⟨0, 0⟩]
  lens := [2, 3, 4, 5, 6, 7, 8, 9, 10, 11, 12, 13, 14, 15, 15] ++ List.replicate 241 0 ++ [1, 0]

theorem shortTailHeader_valid : shortTailHeader.Valid := by
  refine ⟨by decide, by decide, by decide, by decide, ⟨by decide, .inl (by decide)⟩, ?_, ?_, by decide +kernel, by decide +kernel, ⟨?_, .inl (by decide +kernel)⟩,
    by decide +kernel, .inr (by decide +kernel)⟩
  · intro i h1 h2
    change 19 ≤ i at h1
    omega
  · decide
  · decide +kernel

/-- A stream of two blocks, with the message `03 61`: the last block is so short that the object has taken all of it
from its input before it comes to its header, and then reports an unexpected end. -/
theorem inflate_rejects_short_tail :
    IsDeflate shortTail [3, 0x61] ∧ inflate List.length [] shortTail = .error .invalidDataFormat := by
  refine ⟨⟨[.dynamic shortTailHeader [.lit 3], .fixed [.lit 0x61]], [], by simp, by decide, by decide +kernel,
    ⟨⟨shortTailHeader_valid, ?_⟩, [3], rfl, ⟨?_, [3, 0x61], rfl, rfl⟩⟩⟩, by decide +kernel⟩
  · intro i hi
    rw [List.mem_singleton] at hi
    subst hi
    show shortTailHeader.lit.getD 3 0 ≠ 0
    decide +kernel
  · intro i hi
    rw [List.mem_singleton] at hi
    subst hi
    show fixedLit.getD 97 0 ≠ 0
    decide +kernel

/-- Seven bytes that make `DecodeHeader` write past the end of `codeLengths`: 320 code lengths into 318 places. -/
theorem inflate_header_overflow : inflate List.length [] [253, 31, 128, 228, 255, 127, 8] = .error .undefinedBehaviour := by decide +kernel

/-! ## Examples -/

theorem length_spyOk : SpyOk List.length := fun _ h => ⟨List.length_pos_iff.2 h, Nat.le_refl _⟩

/-- `abc` and then nine bytes copied from three back: a fixed block. -/
def abcStream : List Byte := [0x4b, 0x4c, 0x4a, 0x86, 0x23, 0x00]

theorem abcStream_roomy : IsRoomyDeflate abcStream [0x61, 0x62, 0x63, 0x61, 0x62, 0x63, 0x61, 0x62, 0x63, 0x61, 0x62, 0x63] := by
  refine roomy_of_single (b := .fixed [.lit 0x61, .lit 0x62, .lit 0x63, .copy 263 0 2 0]) (pad := List.replicate 2 false) (by decide) (by decide +kernel) ?_ (by decide +kernel)
    (by intro p; simp)
  intro i hi
  simp only [List.mem_cons, List.not_mem_nil, or_false] at hi
  rcases hi with rfl | rfl | rfl | rfl <;> simp only [Item.Valid] <;> decide +kernel

example : inflate List.length [.put [0x4b, 0x4c], .softFlush, .put [], .put [0x4a, 0x86]] [0x23, 0x00, 0x07] =
    .ok ([0x61, 0x62, 0x63, 0x61, 0x62, 0x63, 0x61, 0x62, 0x63, 0x61, 0x62, 0x63] ++ [0x07]) :=
  inflate_reads_roomy_streams length_spyOk abcStream_roomy _ _ (by decide)

example : inflate List.length [.put (shortTail ++ [1, 2])] [3] = .ok ([3, 0x61] ++ [1, 2, 3]) :=
  inflate_reads_streams length_spyOk inflate_rejects_short_tail.1 (by decide) _ _ (by decide)

end Verif.Flate
