import Verif.Common

/-!
# Model of the base-N coders (basecode.cpp, hex.cpp, base32.cpp, base64.cpp)

Filters are modelled attached to a sink that accepts everything (non-blocking return paths of `FILTER_OUTPUT` are not
taken). A call to the attached transformation is a pair (bytes, messageEnd).
-/
namespace Verif.BaseN

/-- A `Put2(bytes, length, messageEnd, ..)` call as seen by an attached transformation. -/
abbrev Call := List Byte × Bool

/-- `BaseN_Encoder`'s fields (basecode.h:50-56). `alphabet` is the array `m_alphabet` points to, as a function of the index. -/
structure Enc where
  alphabet : Nat → Byte
  padding : Option Byte
  bitsPerChar : Nat
  outputBlockSize : Nat
  outBuf : List Byte
  bytePos : Nat
  bitPos : Nat

namespace Enc

/-- `int i = 8; while (i%m_bitsPerChar != 0) i += 8;` (basecode.cpp:32-34); at most `bitsPerChar` iterations. -/
def lcmLoop (bitsPerChar : Nat) : Nat → Nat → Nat
  | 0, i => i
  | fuel + 1, i => if i % bitsPerChar ≠ 0 then lcmLoop bitsPerChar fuel (i + 8) else i

/-- `IsolatedInitialize` (basecode.cpp:14-38). `garbage` is the uninitialised content of the new `m_outBuf`. -/
def init (alphabet : Nat → Byte) (log2base : Nat) (padding : Option Byte) (garbage : Nat → Byte) : Except Err Enc :=
  if log2base = 0 ∨ log2base ≥ 8 then .error .invalidArgument
  else
    let obs := lcmLoop log2base log2base 8 / log2base
    .ok ⟨alphabet, padding, log2base, obs, (List.range obs).map garbage, 0, 0⟩

/-- The inner `while (true)` loop of `Put2` (basecode.cpp:50-70): spread the remaining `bitsLeft` bits, left-aligned in
the 8-bit `b`, over `m_outBuf`. The recursion is on the bits left, which decrease because `bitPos < bitsPerChar`;
`fuel` = 9 is never exhausted. -/
def spread : Nat → Enc → Nat → Nat → Enc
  | 0, e, _, _ => e
  | fuel + 1, e, b, bitsLeft =>
    let target := e.bitsPerChar - e.bitPos
    let old := e.outBuf.getD e.bytePos 0
    let e := { e with outBuf := e.outBuf.set e.bytePos (old ||| BitVec.ofNat 8 (b >>> (8 - target))) }
    if bitsLeft ≥ target then
      let e := { e with bitPos := 0, bytePos := e.bytePos + 1 }
      let bitsLeft := bitsLeft - target
      if bitsLeft = 0 then e
      else spread fuel e ((b <<< target) &&& 0xff) bitsLeft
    else { e with bitPos := e.bitPos + bitsLeft }

/-- `m_outBuf[i] = m_alphabet[m_outBuf[i]]` for `i < m_bytePos` (basecode.cpp:76-81, 92-94). -/
def translate (e : Enc) : List Byte :=
  (e.outBuf.take e.bytePos).map (fun s => e.alphabet s.toNat) ++ e.outBuf.drop e.bytePos

/-- One iteration of the outer loop (basecode.cpp:43-86): the new state and the calls made to the attachment. -/
def putByte (e : Enc) (x : Byte) : Enc × List Call :=
  let e := if e.bytePos = 0 then { e with outBuf := List.replicate e.outputBlockSize 0 } else e
  let e := spread 9 e x.toNat 8
  if e.bytePos = e.outputBlockSize then
    let buf := e.translate
    ({ e with outBuf := buf, bytePos := 0, bitPos := 0 }, [(buf.take e.outputBlockSize, false)])
  else (e, [])

/-- The `messageEnd` part (basecode.cpp:87-103). -/
def finish (e : Enc) : Enc × List Call :=
  let e := if e.bitPos > 0 then { e with bytePos := e.bytePos + 1 } else e
  let e := { e with outBuf := e.translate }
  let e := match e.padding with
    | some p =>
      if e.bytePos > 0 then
        { e with outBuf := e.outBuf.take e.bytePos ++ List.replicate (e.outputBlockSize - e.bytePos) p,
                 bytePos := e.outputBlockSize }
      else e
    | none => e
  ({ e with bytePos := 0, bitPos := 0 }, [(e.outBuf.take e.bytePos, true)])

/-- `Put2` (basecode.cpp:40-105). -/
def put2 (e : Enc) (bs : List Byte) (messageEnd : Bool) : Enc × List Call :=
  let r := bs.foldl (fun (s : Enc × List Call) x => let t := s.1.putByte x; (t.1, s.2 ++ t.2)) (e, [])
  if messageEnd then
    let f := r.1.finish
    (f.1, r.2 ++ f.2)
  else r

end Enc

/-- `BaseN_Decoder`'s fields (basecode.h:105-108). `lookup` is the 256-entry array `m_lookup` points to. -/
structure Dec where
  lookup : Byte → Int
  bitsPerChar : Nat
  outputBlockSize : Nat
  outBuf : List Byte
  bytePos : Nat
  bitPos : Nat

namespace Dec

/-- `int i = m_bitsPerChar; while (i%8 != 0) i += m_bitsPerChar;` (basecode.cpp:117-119). -/
def lcmLoop (bitsPerChar : Nat) : Nat → Nat → Nat
  | 0, i => i
  | fuel + 1, i => if i % 8 ≠ 0 then lcmLoop bitsPerChar fuel (i + bitsPerChar) else i

/-- `IsolatedInitialize` (basecode.cpp:107-123). -/
def init (lookup : Byte → Int) (log2base : Nat) (garbage : Nat → Byte) : Except Err Dec :=
  if log2base = 0 ∨ log2base ≥ 8 then .error .invalidArgument
  else
    let obs := lcmLoop log2base 8 log2base / 8
    .ok ⟨lookup, log2base, obs, (List.range obs).map garbage, 0, 0⟩

/-- `unsigned int value = m_lookup[c]` (basecode.cpp:130-131): a negative entry becomes a large unsigned value. -/
def value (d : Dec) (c : Byte) : Nat := (d.lookup c % 2 ^ 32).toNat

/-- The loop `while (m_bitPos >= 8) { m_bitPos -= 8; ++m_bytePos; }` (basecode.cpp:149-153). -/
def advance (d : Dec) : Dec := { d with bytePos := d.bytePos + d.bitPos / 8, bitPos := d.bitPos % 8 }

/-- The part of the loop body that ors the value into one byte or across two (basecode.cpp:139-148). -/
def write (d : Dec) (value : Nat) : List Byte :=
  let newBitPos := d.bitPos + d.bitsPerChar
  if newBitPos ≤ 8 then
    d.outBuf.set d.bytePos (d.outBuf.getD d.bytePos 0 ||| BitVec.ofNat 8 (value <<< (8 - newBitPos)))
  else
    let buf := d.outBuf.set d.bytePos (d.outBuf.getD d.bytePos 0 ||| BitVec.ofNat 8 (value >>> (newBitPos - 8)))
    buf.set (d.bytePos + 1) (buf.getD (d.bytePos + 1) 0 ||| BitVec.ofNat 8 (value <<< (16 - newBitPos)))

/-- One iteration of the outer loop (basecode.cpp:128-161). -/
def putByte (d : Dec) (c : Byte) : Dec × List Call :=
  let value := d.value c
  if value ≥ 256 then (d, [])
  else
    let d := if d.bytePos = 0 ∧ d.bitPos = 0 then { d with outBuf := List.replicate d.outputBlockSize 0 } else d
    let d : Dec := ({ d with outBuf := d.write value, bitPos := d.bitPos + d.bitsPerChar } : Dec).advance
    if d.bytePos = d.outputBlockSize then
      ({ d with bytePos := 0, bitPos := 0 }, [(d.outBuf.take d.outputBlockSize, false)])
    else (d, [])

/-- The `messageEnd` part (basecode.cpp:162-166). -/
def finish (d : Dec) : Dec × List Call := ({ d with bytePos := 0, bitPos := 0 }, [(d.outBuf.take d.bytePos, true)])

/-- `Put2` (basecode.cpp:125-168). -/
def put2 (d : Dec) (bs : List Byte) (messageEnd : Bool) : Dec × List Call :=
  let r := bs.foldl (fun (s : Dec × List Call) x => let t := s.1.putByte x; (t.1, s.2 ++ t.2)) (d, [])
  if messageEnd then
    let f := r.1.finish
    (f.1, r.2 ++ f.2)
  else r

end Dec

/-- `isalpha`, `toupper`, `tolower` in the C locale. -/
def isAlpha (c : Byte) : Bool := (0x41 ≤ c.toNat ∧ c.toNat ≤ 0x5a) ∨ (0x61 ≤ c.toNat ∧ c.toNat ≤ 0x7a)
def toUpper (c : Byte) : Byte := if 0x61 ≤ c.toNat ∧ c.toNat ≤ 0x7a then c - 0x20 else c
def toLower (c : Byte) : Byte := if 0x41 ≤ c.toNat ∧ c.toNat ≤ 0x5a then c + 0x20 else c

/-- `BaseN_Decoder::InitializeDecodingLookupArray` (basecode.cpp:170-189). The array is a function; the loop runs over
the alphabet in order, later entries overwriting earlier ones. -/
def initLookup (alphabet : List Byte) (caseInsensitive : Bool) : Byte → Int :=
  (alphabet.zipIdx).foldl (fun lk (p : Byte × Nat) =>
    if caseInsensitive && isAlpha p.1 then
      fun c => if c = toLower p.1 then p.2 else if c = toUpper p.1 then p.2 else lk c
    else fun c => if c = p.1 then p.2 else lk c) (fun _ => -1)

/-- `Grouper`'s fields (basecode.h:140-141). -/
structure Grouper where
  separator : List Byte
  terminator : List Byte
  groupSize : Nat
  counter : Nat

namespace Grouper

/-- `IsolatedInitialize` (basecode.cpp:191-204). -/
def init (groupSize : Nat) (separator terminator : List Byte) : Grouper := ⟨separator, terminator, groupSize, 0⟩

/-- The `while (m_inputPosition < length)` loop (basecode.cpp:211-224). Each iteration takes at least one byte because
`m_counter < m_groupSize` after the separator was output; `fuel` = `length` suffices. -/
def loop : Nat → Grouper → List Byte → Grouper × List Byte
  | 0, g, _ => (g, [])
  | fuel + 1, g, bs =>
    if bs.length = 0 then (g, [])
    else
      let sep := if g.counter = g.groupSize then g.separator else []
      let g := if g.counter = g.groupSize then { g with counter := 0 } else g
      let len := min bs.length (g.groupSize - g.counter)
      let r := loop fuel { g with counter := g.counter + len } (bs.drop len)
      (r.1, sep ++ bs.take len ++ r.2)

/-- `Put2` (basecode.cpp:206-235): the new state and the bytes sent on (the message-end signal goes with them). -/
def put2 (g : Grouper) (bs : List Byte) (messageEnd : Bool) : Grouper × List Byte :=
  let r := if g.groupSize ≠ 0 then loop bs.length g bs else (g, bs)
  if messageEnd then ({ r.1 with counter := 0 }, r.2 ++ r.1.terminator) else r

end Grouper

/-! ### The built-in codecs -/

/-- `s_vecUpper` (hex.cpp:12): "0123456789ABCDEF". -/
def hexUpper : List Byte :=
  [48, 49, 50, 51, 52, 53, 54, 55, 56, 57, 65, 66, 67, 68, 69, 70]

/-- `s_vecLower` (hex.cpp:13): "0123456789abcdef". -/
def hexLower : List Byte :=
  [48, 49, 50, 51, 52, 53, 54, 55, 56, 57, 97, 98, 99, 100, 101, 102]

/-- `s_stdUpper` (base32.cpp:10): "ABCDEFGHIJKMNPQRSTUVWXYZ23456789". -/
def b32Upper : List Byte :=
  [65, 66, 67, 68, 69, 70, 71, 72, 73, 74, 75, 77, 78, 80, 81, 82, 83, 84, 85, 86, 87, 88, 89, 90, 50, 51, 52, 53, 54, 55, 56, 57]

/-- `s_stdLower` (base32.cpp:11): "abcdefghijkmnpqrstuvwxyz23456789". -/
def b32Lower : List Byte :=
  [97, 98, 99, 100, 101, 102, 103, 104, 105, 106, 107, 109, 110, 112, 113, 114, 115, 116, 117, 118, 119, 120, 121, 122, 50, 51, 52, 53, 54, 55, 56, 57]

/-- `s_hexUpper` (base32.cpp:12): "0123456789ABCDEFGHIJKLMNOPQRSTUV". -/
def b32hexUpper : List Byte :=
  [48, 49, 50, 51, 52, 53, 54, 55, 56, 57, 65, 66, 67, 68, 69, 70, 71, 72, 73, 74, 75, 76, 77, 78, 79, 80, 81, 82, 83, 84, 85, 86]

/-- `s_hexLower` (base32.cpp:13): "0123456789abcdefghijklmnopqrstuv". -/
def b32hexLower : List Byte :=
  [48, 49, 50, 51, 52, 53, 54, 55, 56, 57, 97, 98, 99, 100, 101, 102, 103, 104, 105, 106, 107, 108, 109, 110, 111, 112, 113, 114, 115, 116, 117, 118]

/-- `s_stdVec` (base64.cpp:10): "ABCDEFGHIJKLMNOPQRSTUVWXYZabcdefghijklmnopqrstuvwxyz0123456789+/". -/
def b64Std : List Byte :=
  [65, 66, 67, 68, 69, 70, 71, 72, 73, 74, 75, 76, 77, 78, 79, 80, 81, 82, 83, 84, 85, 86, 87, 88, 89, 90, 97, 98, 99, 100, 101, 102, 103, 104, 105, 106, 107, 108, 109, 110, 111, 112, 113, 114, 115, 116, 117, 118, 119, 120, 121, 122, 48, 49, 50, 51, 52, 53, 54, 55, 56, 57, 43, 47]

/-- `s_urlVec` (base64.cpp:11): "ABCDEFGHIJKLMNOPQRSTUVWXYZabcdefghijklmnopqrstuvwxyz0123456789-_". -/
def b64Url : List Byte :=
  [65, 66, 67, 68, 69, 70, 71, 72, 73, 74, 75, 76, 77, 78, 79, 80, 81, 82, 83, 84, 85, 86, 87, 88, 89, 90, 97, 98, 99, 100, 101, 102, 103, 104, 105, 106, 107, 108, 109, 110, 111, 112, 113, 114, 115, 116, 117, 118, 119, 120, 121, 122, 48, 49, 50, 51, 52, 53, 54, 55, 56, 57, 45, 95]

/-- `s_array` (hex.cpp:14-31). -/
def hexArray : List Int :=
  [-1, -1, -1, -1, -1, -1, -1, -1, -1, -1, -1, -1, -1, -1, -1, -1, -1, -1, -1, -1, -1, -1, -1, -1, -1, -1, -1, -1, -1, -1, -1, -1,
   -1, -1, -1, -1, -1, -1, -1, -1, -1, -1, -1, -1, -1, -1, -1, -1, 0, 1, 2, 3, 4, 5, 6, 7, 8, 9, -1, -1, -1, -1, -1, -1,
   -1, 10, 11, 12, 13, 14, 15, -1, -1, -1, -1, -1, -1, -1, -1, -1, -1, -1, -1, -1, -1, -1, -1, -1, -1, -1, -1, -1, -1, -1, -1, -1,
   -1, 10, 11, 12, 13, 14, 15, -1, -1, -1, -1, -1, -1, -1, -1, -1, -1, -1, -1, -1, -1, -1, -1, -1, -1, -1, -1, -1, -1, -1, -1, -1,
   -1, -1, -1, -1, -1, -1, -1, -1, -1, -1, -1, -1, -1, -1, -1, -1, -1, -1, -1, -1, -1, -1, -1, -1, -1, -1, -1, -1, -1, -1, -1, -1,
   -1, -1, -1, -1, -1, -1, -1, -1, -1, -1, -1, -1, -1, -1, -1, -1, -1, -1, -1, -1, -1, -1, -1, -1, -1, -1, -1, -1, -1, -1, -1, -1,
   -1, -1, -1, -1, -1, -1, -1, -1, -1, -1, -1, -1, -1, -1, -1, -1, -1, -1, -1, -1, -1, -1, -1, -1, -1, -1, -1, -1, -1, -1, -1, -1,
   -1, -1, -1, -1, -1, -1, -1, -1, -1, -1, -1, -1, -1, -1, -1, -1, -1, -1, -1, -1, -1, -1, -1, -1, -1, -1, -1, -1, -1, -1, -1, -1]

/-- `s_array` (base32.cpp:15-32). -/
def b32Array : List Int :=
  [-1, -1, -1, -1, -1, -1, -1, -1, -1, -1, -1, -1, -1, -1, -1, -1, -1, -1, -1, -1, -1, -1, -1, -1, -1, -1, -1, -1, -1, -1, -1, -1,
   -1, -1, -1, -1, -1, -1, -1, -1, -1, -1, -1, -1, -1, -1, -1, -1, -1, -1, 24, 25, 26, 27, 28, 29, 30, 31, -1, -1, -1, -1, -1, -1,
   -1, 0, 1, 2, 3, 4, 5, 6, 7, 8, 9, 10, -1, 11, 12, -1, 13, 14, 15, 16, 17, 18, 19, 20, 21, 22, 23, -1, -1, -1, -1, -1,
   -1, 0, 1, 2, 3, 4, 5, 6, 7, 8, 9, 10, -1, 11, 12, -1, 13, 14, 15, 16, 17, 18, 19, 20, 21, 22, 23, -1, -1, -1, -1, -1,
   -1, -1, -1, -1, -1, -1, -1, -1, -1, -1, -1, -1, -1, -1, -1, -1, -1, -1, -1, -1, -1, -1, -1, -1, -1, -1, -1, -1, -1, -1, -1, -1,
   -1, -1, -1, -1, -1, -1, -1, -1, -1, -1, -1, -1, -1, -1, -1, -1, -1, -1, -1, -1, -1, -1, -1, -1, -1, -1, -1, -1, -1, -1, -1, -1,
   -1, -1, -1, -1, -1, -1, -1, -1, -1, -1, -1, -1, -1, -1, -1, -1, -1, -1, -1, -1, -1, -1, -1, -1, -1, -1, -1, -1, -1, -1, -1, -1,
   -1, -1, -1, -1, -1, -1, -1, -1, -1, -1, -1, -1, -1, -1, -1, -1, -1, -1, -1, -1, -1, -1, -1, -1, -1, -1, -1, -1, -1, -1, -1, -1]

/-- `s_hexArray` (base32.cpp:34-51). -/
def b32hexArray : List Int :=
  [-1, -1, -1, -1, -1, -1, -1, -1, -1, -1, -1, -1, -1, -1, -1, -1, -1, -1, -1, -1, -1, -1, -1, -1, -1, -1, -1, -1, -1, -1, -1, -1,
   -1, -1, -1, -1, -1, -1, -1, -1, -1, -1, -1, -1, -1, -1, -1, -1, 0, 1, 2, 3, 4, 5, 6, 7, 8, 9, -1, -1, -1, -1, -1, -1,
   -1, 10, 11, 12, 13, 14, 15, 16, 17, 18, 19, 20, 21, 22, 23, 24, 25, 26, 27, 28, 29, 30, 31, -1, -1, -1, -1, -1, -1, -1, -1, -1,
   -1, 10, 11, 12, 13, 14, 15, 16, 17, 18, 19, 20, 21, 22, 23, 24, 25, 26, 27, 28, 29, 30, 31, -1, -1, -1, -1, -1, -1, -1, -1, -1,
   -1, -1, -1, -1, -1, -1, -1, -1, -1, -1, -1, -1, -1, -1, -1, -1, -1, -1, -1, -1, -1, -1, -1, -1, -1, -1, -1, -1, -1, -1, -1, -1,
   -1, -1, -1, -1, -1, -1, -1, -1, -1, -1, -1, -1, -1, -1, -1, -1, -1, -1, -1, -1, -1, -1, -1, -1, -1, -1, -1, -1, -1, -1, -1, -1,
   -1, -1, -1, -1, -1, -1, -1, -1, -1, -1, -1, -1, -1, -1, -1, -1, -1, -1, -1, -1, -1, -1, -1, -1, -1, -1, -1, -1, -1, -1, -1, -1,
   -1, -1, -1, -1, -1, -1, -1, -1, -1, -1, -1, -1, -1, -1, -1, -1, -1, -1, -1, -1, -1, -1, -1, -1, -1, -1, -1, -1, -1, -1, -1, -1]

/-- `s_stdArray` (base64.cpp:13-30). -/
def b64Array : List Int :=
  [-1, -1, -1, -1, -1, -1, -1, -1, -1, -1, -1, -1, -1, -1, -1, -1, -1, -1, -1, -1, -1, -1, -1, -1, -1, -1, -1, -1, -1, -1, -1, -1,
   -1, -1, -1, -1, -1, -1, -1, -1, -1, -1, -1, 62, -1, -1, -1, 63, 52, 53, 54, 55, 56, 57, 58, 59, 60, 61, -1, -1, -1, -1, -1, -1,
   -1, 0, 1, 2, 3, 4, 5, 6, 7, 8, 9, 10, 11, 12, 13, 14, 15, 16, 17, 18, 19, 20, 21, 22, 23, 24, 25, -1, -1, -1, -1, -1,
   -1, 26, 27, 28, 29, 30, 31, 32, 33, 34, 35, 36, 37, 38, 39, 40, 41, 42, 43, 44, 45, 46, 47, 48, 49, 50, 51, -1, -1, -1, -1, -1,
   -1, -1, -1, -1, -1, -1, -1, -1, -1, -1, -1, -1, -1, -1, -1, -1, -1, -1, -1, -1, -1, -1, -1, -1, -1, -1, -1, -1, -1, -1, -1, -1,
   -1, -1, -1, -1, -1, -1, -1, -1, -1, -1, -1, -1, -1, -1, -1, -1, -1, -1, -1, -1, -1, -1, -1, -1, -1, -1, -1, -1, -1, -1, -1, -1,
   -1, -1, -1, -1, -1, -1, -1, -1, -1, -1, -1, -1, -1, -1, -1, -1, -1, -1, -1, -1, -1, -1, -1, -1, -1, -1, -1, -1, -1, -1, -1, -1,
   -1, -1, -1, -1, -1, -1, -1, -1, -1, -1, -1, -1, -1, -1, -1, -1, -1, -1, -1, -1, -1, -1, -1, -1, -1, -1, -1, -1, -1, -1, -1, -1]

/-- `s_urlArray` (base64.cpp:31-48). -/
def b64urlArray : List Int :=
  [-1, -1, -1, -1, -1, -1, -1, -1, -1, -1, -1, -1, -1, -1, -1, -1, -1, -1, -1, -1, -1, -1, -1, -1, -1, -1, -1, -1, -1, -1, -1, -1,
   -1, -1, -1, -1, -1, -1, -1, -1, -1, -1, -1, -1, -1, 62, -1, -1, 52, 53, 54, 55, 56, 57, 58, 59, 60, 61, -1, -1, -1, -1, -1, -1,
   -1, 0, 1, 2, 3, 4, 5, 6, 7, 8, 9, 10, 11, 12, 13, 14, 15, 16, 17, 18, 19, 20, 21, 22, 23, 24, 25, -1, -1, -1, -1, 63,
   -1, 26, 27, 28, 29, 30, 31, 32, 33, 34, 35, 36, 37, 38, 39, 40, 41, 42, 43, 44, 45, 46, 47, 48, 49, 50, 51, -1, -1, -1, -1, -1,
   -1, -1, -1, -1, -1, -1, -1, -1, -1, -1, -1, -1, -1, -1, -1, -1, -1, -1, -1, -1, -1, -1, -1, -1, -1, -1, -1, -1, -1, -1, -1, -1,
   -1, -1, -1, -1, -1, -1, -1, -1, -1, -1, -1, -1, -1, -1, -1, -1, -1, -1, -1, -1, -1, -1, -1, -1, -1, -1, -1, -1, -1, -1, -1, -1,
   -1, -1, -1, -1, -1, -1, -1, -1, -1, -1, -1, -1, -1, -1, -1, -1, -1, -1, -1, -1, -1, -1, -1, -1, -1, -1, -1, -1, -1, -1, -1, -1,
   -1, -1, -1, -1, -1, -1, -1, -1, -1, -1, -1, -1, -1, -1, -1, -1, -1, -1, -1, -1, -1, -1, -1, -1, -1, -1, -1, -1, -1, -1, -1, -1]

/-- An array of `byte`s read at an index (only in-range indices are read). -/
def ofList (l : List Byte) (i : Nat) : Byte := l.getD i 0

/-- A 256-entry `int` array read at a byte. -/
def ofTable (l : List Int) (c : Byte) : Int := l.getD c.toNat (-1)

/-- A built-in encoder/decoder pair: alphabet, table, `Log2Base`. -/
structure Codec where
  alphabet : List Byte
  table : List Int
  log2base : Nat

/-- `HexEncoder`/`HexDecoder` (hex.cpp:35-54), `Base32Encoder`/`Base32Decoder`, `Base32HexEncoder`/`Base32HexDecoder`
(base32.cpp:55-95), `Base64Encoder`/`Base64Decoder`, `Base64URLEncoder`/`Base64URLDecoder` (base64.cpp:52-109). -/
def builtin : List Codec :=
  [⟨hexUpper, hexArray, 4⟩, ⟨hexLower, hexArray, 4⟩, ⟨b32Upper, b32Array, 5⟩, ⟨b32Lower, b32Array, 5⟩,
   ⟨b32hexUpper, b32hexArray, 5⟩, ⟨b32hexLower, b32hexArray, 5⟩, ⟨b64Std, b64Array, 6⟩, ⟨b64Url, b64urlArray, 6⟩]

/-- `s_padding` (base64.cpp:12), `"\n"` (base64.cpp:57). -/
def b64Pad : Byte := 0x3d
def newline : Byte := 0x0a

/-- The text encoders: `m_filter` is a `BaseN_Encoder` whose attachment is a `Grouper` (hex.h, base32.h, base64.h:
`SimpleProxyFilter(new BaseN_Encoder(new Grouper), attachment)`). -/
structure TextEnc where
  enc : Enc
  grouper : Grouper

namespace TextEnc

/-- `Put2` on the chain: every call the encoder makes goes to the grouper. -/
def put2 (t : TextEnc) (bs : List Byte) (messageEnd : Bool) : TextEnc × List Byte :=
  let r := t.enc.put2 bs messageEnd
  let g := r.2.foldl (fun (s : Grouper × List Byte) (c : Call) => let u := s.1.put2 c.1 c.2; (u.1, s.2 ++ u.2)) (t.grouper, [])
  (⟨r.1, g.1⟩, g.2)

end TextEnc

end Verif.BaseN
