import Verif.Flate.Io
import Verif.Flate.Huffman
import Verif.Flate.Format

/-!
# Model of `Inflator` (zinflate.cpp)

The tables of the format (`lengthStarts`, `lengthExtraBits`, `distanceStarts`, `distanceExtraBits`, `border`) are the
same numbers as in the specification and are taken from there.  An exception ends the model's run: what the object
would do if it were used afterwards is not modelled.  A new window holds unspecified bytes; the model takes zeros, and no theorem
uses them.  Message-end and flush signals to the attachment are not modelled.
-/
namespace Verif.Flate

/-- zinflate.h: `State` -/
inductive Phase where
  | preStream | waitHeader | decodingBody | postStream | afterEnd
deriving DecidableEq, Repr, Inhabited

/-- zinflate.h: `NextDecode` -/
inductive Next where
  | literal | lengthBits | distance | distanceBits
deriving DecidableEq, Repr, Inhabited

/-- `m_window.size()`: `1 << GetLog2WindowSize()`, zinflate.h:128 -/
def windowSize : Nat := 32768

/-- `Inflator`.  `rd` is `m_reader` and `m_inQueue`; `out` is what the attachment has received. -/
structure Inf where
  phase : Phase := .preStream
  repeats : Bool := false
  eof : Bool := false
  wrapped : Bool := false
  blockType : Nat := 255
  storedLen : Nat := 65535
  next : Next := .literal
  literal : Nat := 0
  distance : Nat := 0
  dynLit : Decoder := default
  dynDist : Decoder := default
  rd : Reader := {}
  window : Nat → Byte := fun _ => 0
  current : Nat := 0
  lastFlush : Nat := 0
  out : List Byte := []

/-- `m_window[a .. b)` -/
def windowPart (w : Nat → Byte) (a b : Nat) : List Byte := (List.range' a (b - a)).map w

/-- zinflate.cpp:244-249 and 260-266: the window is full. -/
def Inf.wrap (s : Inf) : Inf :=
  if s.current = windowSize then
    { s with out := s.out ++ windowPart s.window s.lastFlush windowSize, lastFlush := 0, current := 0, wrapped := true }
  else s

/-- zinflate.cpp:241 `OutputByte(b)` -/
def Inf.outputByte (s : Inf) (b : Byte) : Inf :=
  Inf.wrap { s with window := fun i => if i = s.current then b else s.window i, current := s.current + 1 }

/-- `memcpy(m_window + i, l, l.size())` -/
def writeWindow (w : Nat → Byte) (i : Nat) (l : List Byte) : Nat → Byte := fun k => if i ≤ k ∧ k < i + l.length then l.getD (k - i) 0 else w k

/-- zinflate.cpp:253 `OutputString(string, length)`; every turn of the loop takes at least one byte. -/
def Inf.outputString : Nat → Inf → List Byte → Inf
  | 0, s, _ => s
  | f + 1, s, l =>
    if l.length = 0 then s
    else
      let len := min l.length (windowSize - s.current)
      Inf.outputString f (Inf.wrap { s with window := writeWindow s.window s.current (l.take len), current := s.current + len }) (l.drop len)

/-- zinflate.cpp:283-285 and 289-292: `n` times `OutputByte(m_window[start++])`. -/
def Inf.copyLoop : Nat → Nat → Inf → Inf
  | 0, _, s => s
  | n + 1, start, s => Inf.copyLoop n (start + 1) (s.outputByte (s.window start))

/-- zinflate.cpp:288-297 -/
def Inf.copyRest (s : Inf) (start length : Nat) : Inf :=
  if start + length > s.current ∨ s.current + length ≥ windowSize then s.copyLoop length start
  else { s with window := writeWindow s.window s.current (windowPart s.window start (start + length)), current := s.current + length }
where
  copyLoop (s : Inf) (n start : Nat) : Inf := Inf.copyLoop n start s

/-- zinflate.cpp:272 `OutputPast(length, distance)` -/
def Inf.outputPast (s : Inf) (length distance : Nat) : Except Err Inf :=
  let go (start : Nat) : Except Err Inf :=
    if start + length > windowSize then
      .ok ((Inf.copyLoop (windowSize - start) start s).copyRest 0 (length - (windowSize - start)))
    else .ok (s.copyRest start length)
  if distance ≤ s.current then go (s.current - distance)
  else if s.wrapped ∧ distance ≤ windowSize then go (s.current + windowSize - distance)
  else .error .invalidDataFormat

/-- zinflate.cpp:210 `HuffmanDecoder::Decode(reader, value)`: result, `value`, reader. -/
def decodeSym (d : Decoder) (r : Reader) : Except Err (Bool × Nat × Reader) :=
  match decodeCode d (r.fill d.maxBits).2.buf with
  | none => .error .undefinedBehaviour
  | some (v, l) => .ok (if l > (r.fill d.maxBits).2.bits then (false, v, (r.fill d.maxBits).2) else (true, v, (r.fill d.maxBits).2.skip l))

/-! ## The header of a block -/

/-- zinflate.cpp:410-414: the loop reading the lengths of the code length code; the list starts at index `i`. -/
def readClens : Nat → Nat → Reader → (Nat → Nat) → Reader × (Nat → Nat)
  | 0, _, r, a => (r, a)
  | n + 1, i, r, a => readClens n (i + 1) (r.get 3).2 (put a (order.getD i 0) (r.get 3).1)

/-- zinflate.cpp:421-458: the loop reading the code lengths.  `acc` is `codeLengths[0 .. i)`; the array has 286+32
entries, and writing past its end is undefined.  The number of entries is a parameter so that an array that is long
enough can be considered as well. -/
def readLens (d : Decoder) (total : Nat) : Nat → List Nat → Reader → (cap : Nat := 286 + 32) → Except Err (List Nat × Reader)
  | 0, _, _, _ => .error .diverges
  | f + 1, acc, r, cap =>
    if acc.length < total then
      match decodeSym d r with
      | .error e => .error e
      | .ok (false, _, _) => .error .invalidDataFormat
      | .ok (true, k, r) =>
        let put (count rep : Nat) (r : Reader) : Except Err (List Nat × Reader) :=
          if acc.length + count > total then .error .invalidDataFormat
          else if acc.length + count > cap then .error .undefinedBehaviour
          else readLens d total f (acc ++ List.replicate count rep) r cap
        if k ≤ 15 then put 1 k r
        else if k = 16 then
          if (r.fill 2).1 = false then .error .invalidDataFormat
          else if acc.length = 0 then .error .invalidDataFormat
          else put (3 + ((r.fill 2).2.get 2).1) (acc.getD (acc.length - 1) 0) ((r.fill 2).2.get 2).2
        else if k = 17 then
          if (r.fill 3).1 = false then .error .invalidDataFormat
          else put (3 + ((r.fill 3).2.get 3).1) 0 ((r.fill 3).2.get 3).2
        else if k = 18 then
          if (r.fill 7).1 = false then .error .invalidDataFormat
          else put (11 + ((r.fill 7).2.get 7).1) 0 ((r.fill 7).2.get 7).2
        else put 0 0 r
    else .ok (acc, r)

/-- zinflate.cpp:396-474: dynamic codes.  `HuffmanDecoder::Err` becomes `BadBlockErr`: both have the same type. -/
def Inf.readDynamic (s : Inf) (cap : Nat := 286 + 32) : Except Err Inf :=
  if (s.rd.fill 14).1 = false then .error .invalidDataFormat
  else
    let (hlit, r) := (s.rd.fill 14).2.get 5
    let (hdist, r) := r.get 5
    let (hclen, r) := r.get 4
    let (r, a) := readClens (hclen + 4) 0 r fun _ => 0
    match decoderInit ((List.range 19).map a) with
    | .error e => .error e
    | .ok d =>
      match readLens d (hlit + 257 + hdist + 1) (hlit + 257 + hdist + 2) [] r cap with
      | .error e => .error e
      | .ok (lens, r) =>
        match decoderInit (lens.take (hlit + 257)) with
        | .error e => .error e
        | .ok dl =>
          if hdist = 0 ∧ lens.getD (hlit + 257) 0 = 0 then
            if hlit ≠ 0 then .error .invalidDataFormat
            else .ok { s with rd := r, dynLit := dl, next := .literal, phase := .decodingBody }
          else
            match decoderInit (lens.drop (hlit + 257)) with
            | .error e => .error e
            | .ok dd => .ok { s with rd := r, dynLit := dl, dynDist := dd, next := .literal, phase := .decodingBody }

/-- zinflate.cpp:383-392, stored blocks. -/
def Inf.readStored (s : Inf) : Except Err Inf :=
  if ((s.rd.skip (s.rd.bits % 8)).fill 32).1 = false then .error .invalidDataFormat
  else
    let (len, r) := ((s.rd.skip (s.rd.bits % 8)).fill 32).2.get 16
    let (nlen, r) := r.get 16
    if nlen ≠ 65535 - len then .error .invalidDataFormat
    else .ok { s with rd := r, storedLen := len, phase := .decodingBody }

/-- zinflate.cpp:374 `DecodeHeader()` -/
def Inf.decodeHeader (s : Inf) (cap : Nat := 286 + 32) : Except Err Inf :=
  if (s.rd.fill 3).1 = false then .error .invalidDataFormat
  else
    let (eof, r) := (s.rd.fill 3).2.get 1
    let (type, r) := r.get 2
    let s := { s with rd := r, eof := eof != 0, blockType := type }
    if type = 0 then s.readStored
    else if type = 1 then .ok { s with next := .literal, phase := .decodingBody }
    else if type = 2 then s.readDynamic cap
    else .error .invalidDataFormat

/-! ## The body of a block -/

/-- zinflate.cpp:615 `CreateFixedLiteralDecoder` -/
def fixedLitDecoder : Except Err Decoder :=
  decoderInit (List.replicate 144 8 ++ List.replicate 112 9 ++ List.replicate 24 7 ++ List.replicate 8 8)

/-- zinflate.cpp:626 `CreateFixedDistanceDecoder` -/
def fixedDistDecoder : Except Err Decoder := decoderInit (List.replicate 32 5)

/-- zinflate.cpp:634 `GetLiteralDecoder` -/
def Inf.litDecoder (s : Inf) : Except Err Decoder := if s.blockType = 1 then fixedLitDecoder else .ok s.dynLit

/-- zinflate.cpp:648 `GetDistanceDecoder` -/
def Inf.distDecoder (s : Inf) : Except Err Decoder := if s.blockType = 1 then fixedDistDecoder else .ok s.dynDist

/-- How a step of the loop ends: go on, out of input, end of the block. -/
inductive Sig where
  | go | wait | stop
deriving DecidableEq, Repr

/-- zinflate.cpp:523-576: from one label of the `switch` to the next.  `next` is the label; the C++ stores it in
`m_nextDecode` only when it leaves the loop for want of input, and reads it only when it comes back. -/
def Inf.bodyStep (lit dist : Decoder) (s : Inf) : Except Err (Sig × Inf) :=
  match s.next with
  | .literal =>
    match decodeSym lit s.rd with
    | .error e => .error e
    | .ok (false, v, r) => .ok (.wait, { s with rd := r, literal := v })
    | .ok (true, v, r) =>
      if v < 256 then .ok (.go, { s with rd := r, literal := v }.outputByte (BitVec.ofNat 8 v))
      else if v = 256 then .ok (.stop, { s with rd := r, literal := v })
      else if v > 285 then .error .invalidDataFormat
      else .ok (.go, { s with rd := r, literal := v, next := .lengthBits })
  | .lengthBits =>
    let n := lengthExtra.getD (s.literal - 257) 0
    if (s.rd.fill n).1 = false then .ok (.wait, { s with rd := (s.rd.fill n).2 })
    else .ok (.go, { s with rd := ((s.rd.fill n).2.get n).2,
                            literal := ((s.rd.fill n).2.get n).1 + lengthBase.getD (s.literal - 257) 0, next := .distance })
  | .distance =>
    match decodeSym dist s.rd with
    | .error e => .error e
    | .ok (false, v, r) => .ok (.wait, { s with rd := r, distance := v })
    | .ok (true, v, r) => .ok (.go, { s with rd := r, distance := v, next := .distanceBits })
  | .distanceBits =>
    if s.distance ≥ 30 then .error .invalidDataFormat
    else
      let n := distExtra.getD s.distance 0
      if (s.rd.fill n).1 = false then .ok (.wait, { s with rd := (s.rd.fill n).2 })
      else
        let d := ((s.rd.fill n).2.get n).1 + distBase.getD s.distance 0
        match { s with rd := ((s.rd.fill n).2.get n).2, distance := d, next := .literal }.outputPast s.literal d with
        | .error e => .error e
        | .ok s => .ok (.go, s)

/-- zinflate.cpp:526-576: the loop; `true` if the block has ended. -/
def Inf.bodyLoop (lit dist : Decoder) : Nat → Inf → Except Err (Bool × Inf)
  | 0, _ => .error .diverges
  | f + 1, s =>
    match s.bodyStep lit dist with
    | .error e => .error e
    | .ok (.go, s) => Inf.bodyLoop lit dist f s
    | .ok (.wait, s) => .ok (false, s)
    | .ok (.stop, s) => .ok (true, s)

/-- zinflate.cpp:489-501: the loop for stored blocks.  `spy q` is the number of bytes `m_inQueue.Spy` offers at once. -/
def Inf.storedLoop (spy : List Byte → Nat) : Nat → Inf → Except Err (Bool × Inf)
  | 0, _ => .error .diverges
  | f + 1, s =>
    if s.rd.queue.length = 0 then .ok (false, s)
    else
      let size := min s.storedLen (spy s.rd.queue)
      let t := Inf.outputString (size + 1) s (s.rd.queue.take size)
      let t := { t with rd := { t.rd with queue := s.rd.queue.drop size }, storedLen := s.storedLen - size }
      if t.storedLen = 0 then .ok (true, t) else Inf.storedLoop spy f t

/-- zinflate.cpp:605 `FlushOutput()` -/
def Inf.flushOutput (s : Inf) : Inf :=
  if s.phase ≠ .preStream then { s with out := s.out ++ windowPart s.window s.lastFlush s.current, lastFlush := s.current } else s

/-- zinflate.cpp:590-593: the loop -/
def takeBytes : Nat → Reader → List Byte × Reader
  | 0, r => ([], r)
  | n + 1, r => (BitVec.ofNat 8 (r.get 8).1 :: (takeBytes n (r.get 8).2).1, (takeBytes n (r.get 8).2).2)

/-- zinflate.cpp:580-600: the end of a block. -/
def Inf.endBlock (s : Inf) : Inf :=
  if s.eof then
    let s := s.flushOutput
    let r := s.rd.skip (s.rd.bits % 8)
    let r := if r.bits ≠ 0 then { (takeBytes (r.bits / 8) r).2 with queue := (takeBytes (r.bits / 8) r).1 ++ (takeBytes (r.bits / 8) r).2.queue } else r
    { s with rd := r, phase := .postStream }
  else { s with phase := .waitHeader }

/-- zinflate.cpp:482 `DecodeBody()` -/
def Inf.decodeBody (spy : List Byte → Nat) (s : Inf) : Except Err (Bool × Inf) :=
  let r : Except Err (Bool × Inf) :=
    if s.blockType = 0 then Inf.storedLoop spy (s.rd.queue.length + 1) s
    else match s.litDecoder, s.distDecoder with
      | .ok l, .ok d => Inf.bodyLoop l d (4 * (s.rd.bits + 8 * s.rd.queue.length) + 4) s
      | .error e, _ => .error e
      | _, .error e => .error e
  match r with
  | .error e => .error e
  | .ok (true, s) => .ok (true, s.endBlock)
  | .ok (false, s) => .ok (false, s)

/-- zinflate.cpp:348 `MAX_HEADER_SIZE`: `BitsToBytes(3+5+5+4+19*7+286*15+19*15)` -/
def maxHeaderSize : Nat := (3 + 5 + 5 + 4 + 19 * 7 + 286 * 15 + 19 * 15 + 7) / 8

/-- zinflate.cpp:329 `ProcessInput(flush)`, for the raw format (no header and no trailer around the stream). -/
def Inf.processInput (spy : List Byte → Nat) (flush : Bool) : Nat → Inf → (cap : Nat := 286 + 32) → Except Err Inf
  | 0, _, _ => .error .diverges
  | f + 1, s, cap =>
    match s.phase with
    | .preStream =>
      Inf.processInput spy flush f { s with phase := .waitHeader, wrapped := false, current := 0, lastFlush := 0, window := fun _ => 0 } cap
    | .waitHeader =>
      if s.rd.queue.length < (if flush then 1 else maxHeaderSize) then .ok s
      else match s.decodeHeader cap with
        | .error e => .error e
        | .ok s => Inf.processInput spy flush f s cap
    | .decodingBody =>
      match s.decodeBody spy with
      | .error e => .error e
      | .ok (true, s) => Inf.processInput spy flush f s cap
      | .ok (false, s) => .ok s
    | .postStream =>
      let s := { s with phase := if s.repeats then .preStream else .afterEnd }
      if s.rd.queue.length = 0 then .ok s else Inf.processInput spy flush f s cap
    | .afterEnd => .ok { s with out := s.out ++ s.rd.queue, rd := { s.rd with queue := [] } }

/-- zinflate.cpp:301 `Put2(inString, length, messageEnd, blocking)`, blocking. -/
def Inf.put (spy : List Byte → Nat) (s : Inf) (data : List Byte) (messageEnd : Bool) (cap : Nat := 286 + 32) : Except Err Inf :=
  let s := { s with rd := { s.rd with queue := s.rd.queue ++ data } }
  match Inf.processInput spy messageEnd (2 * (s.rd.bits + 8 * s.rd.queue.length) + 10) s cap with
  | .error e => .error e
  | .ok s => if messageEnd ∧ ¬ (s.phase = .preStream ∨ s.phase = .afterEnd) then .error .invalidDataFormat else .ok s

/-- zinflate.cpp:317 `IsolatedFlush(hardFlush, blocking)`, blocking. -/
def Inf.flush (spy : List Byte → Nat) (s : Inf) (hard : Bool) (cap : Nat := 286 + 32) : Except Err Inf :=
  if hard then
    match Inf.processInput spy true (2 * (s.rd.bits + 8 * s.rd.queue.length) + 10) s cap with
    | .error e => .error e
    | .ok s => .ok s.flushOutput
  else .ok s.flushOutput

end Verif.Flate
