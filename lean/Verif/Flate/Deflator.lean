import Verif.Flate.Io
import Verif.Flate.Huffman
import Verif.Flate.Lengths
import Verif.Common

/-!
# Model of `Deflator` (zdeflate.cpp)

Arrays are functions from indices; `unsigned int` positions are natural numbers, with a wrap around written out where the
C++ lets one happen.  Memory that the C++ leaves uninitialised is a parameter (`Junk`).  Where a pointer into a buffer
would leave it, the model gives `undefinedBehaviour`.  A step that would not terminate gives `diverges`.
`WritePrestreamHeader`, `ProcessUncompressedData` and `WritePoststreamTail` do nothing in `Deflator`.
-/
namespace Verif.Flate

/-- zdeflate.h:150 `EncodedMatch`.  The fields a literal does not set are 0 here; they are not read. -/
structure Tok where
  literalCode : Nat
  literalExtra : Nat := 0
  distanceCode : Nat := 0
  distanceExtra : Nat := 0
deriving DecidableEq, Repr, Inhabited

/-- `Deflator`; `toks` is `m_matchBuffer[0 .. m_matchBufferEnd)`.  `m_headerWritten` has no effect here and is left out,
as are the dynamic encoders, which `EncodeBlock` sets anew at every use. -/
structure Deflator where
  w : Writer
  log2 : Nat
  level : Nat
  compressible : Nat
  goodMatch : Nat
  maxLazy : Nat
  maxChain : Nat
  buf : Nat → Byte
  head : Nat → Nat
  prev : Nat → Nat
  dictEnd : Nat
  start : Nat
  look : Nat
  minLook : Nat
  avail : Bool
  prevLen : Nat
  prevMatch : Nat
  toks : List Tok
  blockStart : Nat
  blockLen : Nat
  litCounts : Nat → Nat
  distCounts : Nat → Nat
  detectCount : Nat
  detectSkip : Nat

/-- `DSIZE`, zdeflate.cpp:272 -/
def Deflator.dsize (s : Deflator) : Nat := 2 ^ s.log2

/-- zdeflate.cpp:348 -/
def Deflator.maxBlock (s : Deflator) : Nat := min (2 * s.dsize) 0xffff

/-! ## Blocks -/

/-- zdeflate.cpp:231 `HuffmanEncoder::Encode` -/
def encode (enc : List Code) (w : Writer) (v : Nat) : Except Err Writer :=
  match enc[v]? with
  | none => .error .undefinedBehaviour
  | some c => .ok (w.putBits c.code c.len)

/-- zdeflate.cpp:255-260 -/
def staticLiteral : List Code :=
  encoderInit (List.replicate 144 8 ++ List.replicate 112 9 ++ List.replicate 24 7 ++ List.replicate 8 8)

/-- zdeflate.cpp:261-262 -/
def staticDistance : List Code := encoderInit (List.replicate 32 5)

/-- How many elements at the front are `v`, at most `k`. -/
def lead (v : Nat) : Nat → List Nat → Nat
  | 0, _ => 0
  | _ + 1, [] => 0
  | k + 1, x :: l => if x = v then 1 + lead v k l else 0

/-- zdeflate.cpp:619 `CodeLengthEncode`: the code, the extra bits, their number, and how far `p` has moved.  `before` is
`p[-1]`, and `none` at `begin`; the list is what is between `p` and `end`. -/
def clEncode (before : Option Nat) : List Nat → Nat × Nat × Nat × Nat
  | v :: v1 :: v2 :: rest =>
    if v = 0 ∧ v1 = 0 ∧ v2 = 0 then
      let rep := 3 + lead 0 135 rest
      if rep ≤ 10 then (17, rep - 3, 3, rep) else (18, rep - 11, 7, rep)
    else if before = some v ∧ v = v1 ∧ v = v2 then
      let rep := 3 + lead v 3 rest
      (16, rep - 3, 2, rep)
    else (v, 0, 0, 1)
  | v :: _ => (v, 0, 0, 1)
  | [] => (0, 0, 0, 1)

/-- zdeflate.cpp:697-703 and 720-727, the two loops over the code lengths: what `CodeLengthEncode` returns each time.
The first argument bounds the number of turns. -/
def clOps : Nat → Option Nat → List Nat → List (Nat × Nat × Nat)
  | 0, _, _ => []
  | _ + 1, _, [] => []
  | k + 1, before, x :: l =>
    let r := clEncode before (x :: l)
    (r.1, r.2.1, r.2.2.1) :: clOps k ((x :: l)[r.2.2.2 - 1]?) ((x :: l).drop r.2.2.2)

/-- zdeflate.cpp:695-703, the counts. -/
def clCounts (ops : List (Nat × Nat × Nat)) : Nat → Nat := ops.foldl (fun c o => tick c o.1) fun _ => 0

/-- zdeflate.cpp:685 and 689: up to the last element that is not 0. -/
def usedLen (l : List Nat) : Nat := (l.reverse.dropWhile (· == 0)).length

/-- zdeflate.cpp:706 `border` -/
def border : List Nat := [16, 17, 18, 0, 8, 7, 9, 6, 10, 5, 11, 4, 12, 3, 13, 2, 14, 1, 15]

/-- zdeflate.cpp:708-711; called with 15, the result is `hclen`. -/
def trimClens (clens : List Nat) : Nat → Nat
  | 0 => 0
  | k + 1 => if clens.getD (border.getD (k + 4) 0) 0 = 0 then trimClens clens k else k + 1

/-- zdeflate.cpp:720-727 -/
def putOps (enc : List Code) : List (Nat × Nat × Nat) → Writer → Except Err Writer
  | [], w => .ok w
  | o :: os, w => do
    let w ← encode enc w o.1
    putOps enc os (w.putBits o.2.1 o.2.2)

/-- zdeflate.cpp:717 -/
def putClens (clens : List Nat) : List Nat → Writer → Writer
  | [], w => w
  | b :: bs, w => putClens clens bs (w.putBits (clens.getD b 0) 3)

/-- zdeflate.cpp:730 -/
def lengthExtraBits : List Nat := [0, 0, 0, 0, 0, 0, 0, 0, 1, 1, 1, 1, 2, 2, 2, 2, 3, 3, 3, 3, 4, 4, 4, 4, 5, 5, 5, 5, 0]

/-- zdeflate.cpp:733 -/
def distanceExtraBits : List Nat :=
  [0, 0, 0, 0, 1, 1, 2, 2, 3, 3, 4, 4, 5, 5, 6, 6, 7, 7, 8, 8, 9, 9, 10, 10, 11, 11, 12, 12, 13, 13]

/-- zdeflate.cpp:741-753 -/
def putToks (lit dist : List Code) : List Tok → Writer → Except Err Writer
  | [], w => .ok w
  | t :: ts, w => do
    let w ← encode lit w t.literalCode
    if 257 ≤ t.literalCode then
      let w := w.putBits t.literalExtra (lengthExtraBits.getD (t.literalCode - 257) 0)
      let w ← encode dist w t.distanceCode
      putToks lit dist ts (w.putBits t.distanceExtra (distanceExtraBits.getD t.distanceCode 0))
    else putToks lit dist ts w

/-- The tokens and the end of the block, zdeflate.cpp:738-754. -/
def putBody (lit dist : List Code) (toks : List Tok) (w : Writer) : Except Err Writer := do
  let w ← putToks lit dist toks w
  encode lit w 256

/-- zdeflate.cpp:682-683; `m_literalCounts[256]` is set for the call only, as nothing else reads it. -/
def litLens (srt : List Leaf → List Leaf) (s : Deflator) : List Nat :=
  generate srt 15 ((List.range 286).map (put s.litCounts 256 1))

/-- zdeflate.cpp:687 -/
def distLens (srt : List Leaf → List Leaf) (s : Deflator) : List Nat := generate srt 15 ((List.range 30).map s.distCounts)

/-- `PutWord16(word16(v), LITTLE_ENDIAN_ORDER)` -/
def le16 (v : Nat) : List Byte := [BitVec.ofNat 8 v, BitVec.ofNat 8 (v >>> 8)]

/-- zdeflate.cpp:661 `EncodeBlock(eof, blockType)`, writing to `w`. -/
def encodeBlock (srt : List Leaf → List Leaf) (s : Deflator) (w : Writer) (eof : Bool) (blockType : Nat) : Except Err Writer :=
  let w := (w.putBits eof.toNat 1).putBits blockType 2
  if blockType = 0 then
    if 2 * s.dsize < s.blockStart + s.blockLen then .error .undefinedBehaviour
    else
      .ok (((w.flush.putBytes (le16 (s.blockLen % 65536))).putBytes (le16 (65535 - s.blockLen % 65536))).putBytes
        ((List.range s.blockLen).map fun i => s.buf (s.blockStart + i)))
  else if blockType = 2 then do
    let lit := litLens srt s
    let hlit := usedLen (lit.drop 257)
    let dist := distLens srt s
    let hdist := usedLen (dist.drop 1)
    let combined := lit.take (hlit + 257) ++ dist.take (hdist + 1)
    let ops := clOps combined.length none combined
    let clens := generate srt 7 ((List.range 19).map (clCounts ops))
    let hclen := trimClens clens 15
    let w := ((w.putBits hlit 5).putBits hdist 5).putBits hclen 4
    let w := putClens clens (border.take (hclen + 4)) w
    let w ← putOps (encoderInit clens) ops w
    putBody (encoderInit lit) (encoderInit dist) s.toks w
  else putBody staticLiteral staticDistance s.toks w

/-- zdeflate.cpp:814-818 -/
def Deflator.nextBlock (s : Deflator) (w : Writer) : Deflator :=
  { s with w := w, toks := [], blockStart := s.blockStart + s.blockLen, blockLen := 0, litCounts := fun _ => 0, distCounts := fun _ => 0 }

/-- zdeflate.cpp:781-789.  `ULONG_MAX` is that of 32 bits. -/
def dynamicLength (srt : List Leaf → List Leaf) (s : Deflator) (w : Writer) (eof : Bool) : Except Err (Nat × Writer) :=
  if s.blockLen < 128 ∧ s.level < 8 then .ok (2 ^ 32 - 1, w)
  else do
    let w ← encodeBlock srt s w.startCounting eof 2
    .ok (w.count, w.finishCounting)

/-- zdeflate.cpp:758 `EndBlock(eof)` -/
def endBlock (srt : List Leaf → List Leaf) (s : Deflator) (eof : Bool) : Except Err Deflator :=
  if s.blockLen = 0 ∧ eof = false then .ok s
  else if s.level = 0 then do
    let w ← encodeBlock srt s s.w eof 0
    if 0 < s.compressible then
      if (s.detectCount + 1) % 2 ^ 32 = s.detectSkip then .ok ({ s with level := s.compressible, detectCount := 1 }.nextBlock w)
      else .ok ({ s with detectCount := (s.detectCount + 1) % 2 ^ 32 }.nextBlock w)
    else .ok (s.nextBlock w)
  else do
    let storedLen := 8 * (s.blockLen + 4) + (s.w.bits + 3 + 7) / 8 * 8 - s.w.bits
    let w1 ← encodeBlock srt s s.w.startCounting eof 1
    let staticLen := w1.count
    let w1 := w1.finishCounting
    let (dynamicLen, w2) ← dynamicLength srt s w1 eof
    if storedLen ≤ staticLen ∧ storedLen ≤ dynamicLen then do
      let w3 ← encodeBlock srt s w2 eof 0
      if 0 < s.compressible then
        .ok ({ s with level := if s.detectSkip ≠ 0 then 0 else s.level,
                      detectSkip := if s.detectSkip ≠ 0 then min (2 * s.detectSkip) 128 else 1 }.nextBlock w3)
      else .ok (s.nextBlock w3)
    else do
      let w3 ← encodeBlock srt s w2 eof (if staticLen ≤ dynamicLen then 1 else 2)
      if 0 < s.compressible then .ok ({ s with detectSkip := 0 }.nextBlock w3) else .ok (s.nextBlock w3)

/-! ## Searching for repeated strings -/

/-- zdeflate.cpp:385 `ComputeHash(m_byteBuffer + i)` -/
def Deflator.hash (s : Deflator) (i : Nat) : Nat :=
  (((s.buf i).toNat <<< 10) ^^^ ((s.buf (i + 1)).toNat <<< 5) ^^^ (s.buf (i + 2)).toNat) &&& (s.dsize - 1)

/-- `std::mismatch(scan+3, scanEnd, match+3)`: how many of the next `k` bytes agree. -/
def Deflator.agree (s : Deflator) : Nat → Nat → Nat → Nat
  | 0, _, _ => 0
  | k + 1, i, j => if s.buf i = s.buf j then 1 + s.agree k (i + 1) (j + 1) else 0

/-- zdeflate.cpp:408-438, the loop of `LongestMatch`; `none` if it turns more than `fuel` times.  `chainLength` wraps
around.  Gives `bestLength` and `bestMatch`. -/
def Deflator.chain (s : Deflator) (limit : Nat) : Nat → Nat → Nat → Nat → Nat → Option (Nat × Nat)
  | 0, _, _, _, _ => none
  | fuel + 1, current, chainLength, bestLength, bestMatch =>
    if limit < current ∧ (chainLength + 2 ^ 32 - 1) % 2 ^ 32 > 0 then
      let chainLength := (chainLength + 2 ^ 32 - 1) % 2 ^ 32
      let scan := s.start
      if s.buf (scan + (bestLength - 1)) = s.buf (current + (bestLength - 1)) ∧ s.buf (scan + bestLength) = s.buf (current + bestLength) ∧
          s.buf scan = s.buf current ∧ s.buf (scan + 1) = s.buf (current + 1) then
        let len := 3 + s.agree (min 258 s.look - 3) (scan + 3) (current + 3)
        if bestLength < len then
          if len = min 258 s.look then some (len, current)
          else s.chain limit fuel (s.prev (current % s.dsize)) chainLength len current
        else s.chain limit fuel (s.prev (current % s.dsize)) chainLength bestLength bestMatch
      else s.chain limit fuel (s.prev (current % s.dsize)) chainLength bestLength bestMatch
    else some (bestLength, bestMatch)

/-- zdeflate.cpp:391 `LongestMatch(bestMatch)`, with `previousLength` for `m_previousLength`: the length returned, and
`bestMatch`. -/
def Deflator.longestMatch (s : Deflator) (previousLength : Nat) : Except Err (Nat × Nat) :=
  let bestLength := max previousLength 2
  if s.look ≤ bestLength then .ok (0, 0)
  else
    let limit := if s.dsize - 258 < s.start then s.start - (s.dsize - 258) else 0
    let current := s.head (s.hash s.start)
    let chainLength := if s.goodMatch ≤ previousLength then s.maxChain >>> 2 else s.maxChain
    match s.chain limit (current + 1) current chainLength bestLength 0 with
    | none => .error .diverges
    | some (len, m) => .ok (if 0 < m then len else 0, m)

/-- zdeflate.cpp:442 `InsertString(start)` -/
def Deflator.insertString (s : Deflator) (start : Nat) : Deflator :=
  { s with prev := put s.prev (start % s.dsize) (s.head (s.hash start)), head := put s.head (s.hash start) (start % 65536) }

/-- zdeflate.cpp:469-470; the loop turns at most `k` times. -/
def Deflator.insertStrings : Nat → Deflator → Deflator
  | 0, s => s
  | k + 1, s =>
    if s.dictEnd < s.start ∧ s.dictEnd + 3 ≤ s.start + s.look then
      Deflator.insertStrings k { s.insertString s.dictEnd with dictEnd := s.dictEnd + 1 }
    else s

/-- zdeflate.cpp:580 `lengthCodes`, as runs of equal entries. -/
def lengthCodes : List Nat :=
  [257, 258, 259, 260, 261, 262, 263, 264] ++ List.replicate 2 265 ++ List.replicate 2 266 ++ List.replicate 2 267 ++
    List.replicate 2 268 ++ List.replicate 4 269 ++ List.replicate 4 270 ++ List.replicate 4 271 ++ List.replicate 4 272 ++
    List.replicate 8 273 ++ List.replicate 8 274 ++ List.replicate 8 275 ++ List.replicate 8 276 ++ List.replicate 16 277 ++
    List.replicate 16 278 ++ List.replicate 16 279 ++ List.replicate 16 280 ++ List.replicate 32 281 ++ List.replicate 32 282 ++
    List.replicate 32 283 ++ List.replicate 31 284 ++ [285]

/-- zdeflate.cpp:597 -/
def lengthBases : List Nat :=
  [3, 4, 5, 6, 7, 8, 9, 10, 11, 13, 15, 17, 19, 23, 27, 31, 35, 43, 51, 59, 67, 83, 99, 115, 131, 163, 195, 227, 258]

/-- zdeflate.cpp:600 -/
def distanceBases : List Nat :=
  [1, 2, 3, 4, 5, 7, 9, 13, 17, 25, 33, 49, 65, 97, 129, 193, 257, 385, 513, 769, 1025, 1537, 2049, 3073, 4097, 6145, 8193, 12289,
    16385, 24577]

/-- zdeflate.cpp:567, 577: make room in `m_matchBuffer`. -/
def Deflator.room (srt : List Leaf → List Leaf) (s : Deflator) : Except Err Deflator :=
  if s.toks.length = s.dsize / 2 then endBlock srt s false else .ok s

/-- zdeflate.cpp:565 `LiteralByte(b)` -/
def literalByte (srt : List Leaf → List Leaf) (s : Deflator) (b : Byte) : Except Err Deflator := do
  let s ← s.room srt
  if s.dsize / 2 ≤ s.toks.length then .error .undefinedBehaviour
  else .ok { s with toks := s.toks ++ [{ literalCode := b.toNat }], litCounts := tick s.litCounts b.toNat, blockLen := s.blockLen + 1 }

/-- zdeflate.cpp:575 `MatchFound(distance, length)` -/
def matchFound (srt : List Leaf → List Leaf) (s : Deflator) (distance length : Nat) : Except Err Deflator := do
  let s ← s.room srt
  if s.dsize / 2 ≤ s.toks.length ∨ length < 3 ∨ 256 ≤ length - 3 then .error .undefinedBehaviour
  else
    let lengthCode := lengthCodes.getD (length - 3) 0
    let distanceCode := (distanceBases.takeWhile fun b => decide (b ≤ distance)).length - 1
    .ok { s with
      toks := s.toks ++ [{ literalCode := lengthCode, literalExtra := length - lengthBases.getD (lengthCode - 257) 0,
                           distanceCode := distanceCode, distanceExtra := distance - distanceBases.getD distanceCode 0 }]
      litCounts := tick s.litCounts lengthCode
      distCounts := tick s.distCounts distanceCode
      blockLen := s.blockLen + length }

/-- zdeflate.cpp:474-483: no search is made when the previous match is long enough. -/
def Deflator.lazyMatch (s : Deflator) : Except Err (Nat × Nat) :=
  if s.maxLazy ≤ s.prevLen then .ok (0, 0) else s.longestMatch s.prevLen

/-- zdeflate.cpp:472-498, when a match at the previous position waits. -/
def Deflator.stepLazy (srt : List Leaf → List Leaf) (s : Deflator) : Except Err Deflator := do
  let r ← s.lazyMatch
  if r.1 = 0 then do
    let s ← matchFound srt s ((s.start - 1 + 2 ^ 32 - s.prevMatch) % 2 ^ 32) s.prevLen
    if s.look < s.prevLen - 1 then .error .undefinedBehaviour
    else .ok { s with start := s.start + (s.prevLen - 1), look := s.look - (s.prevLen - 1), avail := false }
  else do
    let s ← literalByte srt { s with prevLen := r.1, prevMatch := r.2 } (s.buf (s.start - 1))
    .ok { s with start := s.start + 1, look := s.look - 1 }

/-- zdeflate.cpp:499-508, when none does. -/
def Deflator.stepFirst (srt : List Leaf → List Leaf) (s : Deflator) : Except Err Deflator := do
  let r ← s.longestMatch 0
  if r.1 ≠ 0 then .ok { s with prevLen := r.1, prevMatch := r.2, avail := true, start := s.start + 1, look := s.look - 1 }
  else do
    let s ← literalByte srt { s with prevLen := r.1, prevMatch := r.2 } (s.buf s.start)
    .ok { s with start := s.start + 1, look := s.look - 1 }

/-- zdeflate.cpp:469-509, the body of the loop of `ProcessBuffer`. -/
def Deflator.step (srt : List Leaf → List Leaf) (s : Deflator) : Except Err Deflator :=
  let s := Deflator.insertStrings (s.start - s.dictEnd) s
  if s.avail then s.stepLazy srt else s.stepFirst srt

/-- zdeflate.cpp:467-512 -/
def Deflator.steps (srt : List Leaf → List Leaf) : Nat → Deflator → Except Err Deflator
  | 0, s => if s.minLook < s.look then .error .diverges else .ok s
  | k + 1, s => if s.minLook < s.look then do Deflator.steps srt k (← s.step srt) else .ok s

/-- zdeflate.cpp:450 `ProcessBuffer` -/
def processBuffer (srt : List Leaf → List Leaf) (s : Deflator) : Except Err Deflator :=
  if s.level = 0 then
    .ok { s with start := s.start + s.look, look := 0, blockLen := s.start + s.look - s.blockStart, avail := false }
  else do
    let s ← Deflator.steps srt s.look s
    if s.minLook = 0 ∧ s.avail then do
      let s ← literalByte srt s (s.buf (s.start - 1))
      .ok { s with avail := false }
    else .ok s

/-! ## Putting data in -/

/-- zdeflate.cpp:355-374, the slide of the window. -/
def Deflator.slide (s : Deflator) : Except Err Deflator :=
  let d := s.dsize
  if s.start < d ∨ s.blockStart < d then .error .undefinedBehaviour
  else .ok { s with
    buf := fun i => if i < d then s.buf (i + d) else s.buf i
    dictEnd := if s.dictEnd < d then 0 else s.dictEnd - d
    start := s.start - d
    prevMatch := (s.prevMatch + 2 ^ 32 - d) % 2 ^ 32
    blockStart := s.blockStart - d
    head := fun h => s.head h - d
    prev := fun c => s.prev c - d }

/-- zdeflate.cpp:350-376, when the window is full. -/
def makeRoom (srt : List Leaf → List Leaf) (s : Deflator) : Except Err Deflator :=
  if s.maxBlock - 258 ≤ s.start then
    if s.blockStart < s.dsize then do (← endBlock srt s false).slide else s.slide
  else .ok s

/-- zdeflate.cpp:346 `FillWindow(str, length)`: the number of bytes accepted. -/
def fillWindow (srt : List Leaf → List Leaf) (s : Deflator) (str : List Byte) : Except Err (Nat × Deflator) := do
  let s ← makeRoom srt s
  if s.maxBlock < s.start + s.look then .error .undefinedBehaviour
  else
    let accepted := min (s.maxBlock - (s.start + s.look)) str.length
    let at' := s.start + s.look
    .ok (accepted, { s with
      buf := fun i => if at' ≤ i ∧ i < at' + accepted then str.getD (i - at') 0 else s.buf i
      look := s.look + accepted })

/-- zdeflate.cpp:526-534, the loop of `Put2`. -/
def putLoop (srt : List Leaf → List Leaf) : Nat → Deflator → List Byte → Except Err Deflator
  | _, s, [] => .ok s
  | 0, _, _ :: _ => .error .diverges
  | k + 1, s, b :: str => do
    let (n, s) ← fillWindow srt s (b :: str)
    let s ← processBuffer srt s
    putLoop srt k s ((b :: str).drop n)

/-- zdeflate.cpp:289 `Reset(forceReset)`; the bit buffer is another matter. -/
def Deflator.reset (s : Deflator) : Deflator :=
  { s with avail := false, dictEnd := 0, start := 0, look := 0, minLook := 258, toks := [], blockStart := 0, blockLen := 0,
           detectCount := 1, detectSkip := 0, head := fun _ => 0, litCounts := fun _ => 0, distCounts := fun _ => 0 }

/-- zdeflate.cpp:521 `Put2(str, length, messageEnd, true)` -/
def Deflator.put2 (srt : List Leaf → List Leaf) (s : Deflator) (str : List Byte) (messageEnd : Bool) : Except Err Deflator := do
  let s ← putLoop srt str.length s str
  if messageEnd then do
    let s ← processBuffer srt { s with minLook := 0 }
    let s ← endBlock srt s true
    .ok { s with w := s.w.flush }.reset
  else .ok s

/-- zdeflate.cpp:551 `IsolatedFlush(hardFlush, true)` -/
def Deflator.isolatedFlush (srt : List Leaf → List Leaf) (s : Deflator) (hardFlush : Bool) : Except Err Deflator := do
  let s ← processBuffer srt { s with minLook := 0 }
  let s ← endBlock srt { s with minLook := 258 } false
  if hardFlush then do
    let w ← encodeBlock srt s s.w false 0
    .ok { s with w := w }
  else .ok s

/-- zdeflate.cpp:326 `configurationTable`: columns 0, 1 and 3. -/
def configurationTable : List (Nat × Nat × Nat) :=
  [(0, 0, 0), (4, 3, 4), (4, 3, 8), (4, 3, 32), (4, 4, 16), (8, 16, 32), (8, 16, 128), (8, 32, 256), (32, 128, 1024), (32, 258, 4096)]

/-- zdeflate.cpp:316 `SetDeflateLevel(deflateLevel)` -/
def Deflator.setLevel (srt : List Leaf → List Leaf) (s : Deflator) (n : Int) : Except Err Deflator :=
  if ¬(0 ≤ n ∧ n ≤ 9) then .error .invalidArgument
  else if n = s.level then .ok s
  else do
    let s ← endBlock srt s false
    let c := configurationTable.getD n.toNat default
    .ok { s with goodMatch := c.1, maxLazy := c.2.1, maxChain := c.2.2, level := n.toNat }

/-- What the memory contains that is not initialised. -/
structure Junk where
  buf : Nat → Byte
  prev : Nat → Nat
  prevLen : Nat
  prevMatch : Nat

/-- zdeflate.cpp:237 `Deflator(attachment, deflateLevel, log2WindowSize, detectUncompressible)` and zdeflate.cpp:265
`IsolatedInitialize`: `m_deflateLevel` is -1 when `SetDeflateLevel` is called, and there is no block to end. -/
def Deflator.new (j : Junk) (deflateLevel log2WindowSize : Int) (detect : Bool) : Except Err Deflator :=
  if ¬(9 ≤ log2WindowSize ∧ log2WindowSize ≤ 15) then .error .invalidArgument
  else if ¬(0 ≤ deflateLevel ∧ deflateLevel ≤ 9) then .error .invalidArgument
  else
    let c := configurationTable.getD deflateLevel.toNat default
    .ok { w := {}, log2 := log2WindowSize.toNat, level := deflateLevel.toNat, compressible := if detect then deflateLevel.toNat else 0,
          goodMatch := c.1, maxLazy := c.2.1, maxChain := c.2.2, buf := j.buf, head := fun _ => 0, prev := j.prev, dictEnd := 0,
          start := 0, look := 0, minLook := 258, avail := false, prevLen := j.prevLen, prevMatch := j.prevMatch % 2 ^ 32, toks := [],
          blockStart := 0, blockLen := 0, litCounts := fun _ => 0, distCounts := fun _ => 0, detectCount := 1, detectSkip := 0 }

end Verif.Flate
