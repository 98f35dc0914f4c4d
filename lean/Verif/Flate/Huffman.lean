import Verif.Flate.Bits

/-!
# Model of the Huffman coder and decoder (zdeflate.cpp, zinflate.cpp)

Symbols are list positions; arrays of code lengths and counts are lists.
`unsigned int` arithmetic on codes is taken modulo `2^32`.
-/
namespace Verif.Flate

/-- misc.h:2255 `ByteReverse(word32)`, the portable branch (lines 2274-2276). -/
def byteReverse32 (v : BitVec 32) : BitVec 32 :=
  (((v &&& 0xFF00FF00#32) >>> 8) ||| ((v &&& 0x00FF00FF#32) <<< 8)).rotateLeft 16

/-- misc.h:2348 `BitReverse(word32)`. -/
def bitReverse32 (v : BitVec 32) : BitVec 32 :=
  let v := ((v &&& 0xAAAAAAAA#32) >>> 1) ||| ((v &&& 0x55555555#32) <<< 1)
  let v := ((v &&& 0xCCCCCCCC#32) >>> 2) ||| ((v &&& 0x33333333#32) <<< 2)
  let v := ((v &&& 0xF0F0F0F0#32) >>> 4) ||| ((v &&& 0x0F0F0F0F#32) <<< 4)
  byteReverse32 v

/-- misc.h:2388 `BitReverse<code_t>`, `code_t` being a 32-bit `unsigned int`. -/
def bitReverse (v : Nat) : Nat := (bitReverse32 (BitVec.ofNat 32 v)).toNat

/-- `a[l]++` -/
def tick (f : Nat → Nat) (l : Nat) : Nat → Nat := fun i => if i = l then f i + 1 else f i

/-- `a[l] = v` -/
def put (f : Nat → Nat) (l v : Nat) : Nat → Nat := fun i => if i = l then v else f i

/-- `blCount`, zdeflate.cpp:206-210 and zinflate.cpp:94-98. -/
def blCount (lens : List Nat) : Nat → Nat := lens.foldl tick fun _ => 0

/-- `*std::max_element(codeBits, codeBits+nCodes)` -/
def maxLen (lens : List Nat) : Nat := lens.foldl max 0

/-! ## The encoder -/

/-- `HuffmanEncoder::Code` -/
structure Code where
  code : Nat
  len : Nat
deriving DecidableEq, Repr, Inhabited

/-- `nextCode[i]` as set up by zdeflate.cpp:212-219. -/
def startCodes (bl : Nat → Nat) : Nat → Nat
  | 0 => 0
  | 1 => 0
  | i + 2 => ((startCodes bl (i + 1) + bl (i + 1)) * 2) % 2 ^ 32

/-- zdeflate.cpp:222-228, the loop handing out codes.  The code of a symbol of length zero is not
written by the loop; it is never read, and is 0 here. -/
def assignCodes : (Nat → Nat) → List Nat → List Code
  | _, [] => []
  | next, l :: ls =>
    if l ≠ 0 then ⟨bitReverse (next l) >>> (32 - l), l⟩ :: assignCodes (tick next l) ls
    else ⟨0, 0⟩ :: assignCodes next ls

/-- zdeflate.cpp:199 `HuffmanEncoder::Initialize`.  With no codes the C++ leaves the table alone
("assume this object won't be used"); the model gives an empty table. -/
def encoderInit (lens : List Nat) : List Code :=
  if maxLen lens = 0 then [] else assignCodes (startCodes (blCount lens)) lens

/-! ## The decoder -/

/-- `HuffmanDecoder::CodeInfo` -/
structure Info where
  code : Nat
  len : Nat
  value : Nat
deriving DecidableEq, Repr, Inhabited

/-- `HuffmanDecoder`.  The cache is not stored: an entry is a function of the low bits of the code
looked up, so filling it once or at every use is the same. -/
structure Decoder where
  maxBits : Nat
  cacheBits : Nat
  table : List Info
deriving DecidableEq, Repr, Inhabited

/-- zinflate.cpp:60 `NormalizeCode` -/
def normalize (code len : Nat) : Nat := (code <<< (32 - len)) % 2 ^ 32

/-- zinflate.cpp:101-114: `nextCode` and the final `code`, refusing an overflow. -/
def startChecked (bl : Nat → Nat) : Nat → Except Err (Nat × (Nat → Nat))
  | 0 => .ok (0, fun _ => 0)
  | 1 => .ok (0, fun _ => 0)
  | i + 2 =>
    match startChecked bl (i + 1) with
    | .error e => .error e
    | .ok (code, next) =>
      if code > (code + bl (i + 1)) % 2 ^ 32 then .error .invalidDataFormat
      else if (code + bl (i + 1)) % 2 ^ 32 > ((code + bl (i + 1)) % 2 ^ 32 * 2) % 2 ^ 32 then .error .invalidDataFormat
      else .ok (((code + bl (i + 1)) % 2 ^ 32 * 2) % 2 ^ 32, put next (i + 2) (((code + bl (i + 1)) % 2 ^ 32 * 2) % 2 ^ 32))

/-- zinflate.cpp:124-138, the loop filling `m_codeToValue`. -/
def assignInfos : (Nat → Nat) → Nat → List Nat → List Info
  | _, _, [] => []
  | next, i, l :: ls =>
    if l ≠ 0 then ⟨normalize (next l) l, l, i⟩ :: assignInfos (tick next l) (i + 1) ls
    else assignInfos next (i + 1) ls

/-- Insertion by code. -/
def insertInfo (e : Info) : List Info → List Info
  | [] => [e]
  | f :: l => if e.code < f.code then e :: f :: l else f :: insertInfo e l

/-- `std::sort(m_codeToValue.begin(), m_codeToValue.end())`, zinflate.cpp:139.  The codes of a code
RFC 1951 allows are distinct, so that every sort gives the same list.  The C++ lets one other kind of code through: more
than two symbols, all of length one.  There the order of equal codes is up to `std::sort`; the model takes the order in
which the first symbol of a kind is the last of its equals. -/
def sortInfos (l : List Info) : List Info := l.foldr insertInfo []

/-- zinflate.cpp:65 `HuffmanDecoder::Initialize` -/
def decoderInit (lens : List Nat) : Except Err Decoder :=
  if lens.length = 0 then .error .invalidDataFormat
  else if maxLen lens > 32 then .error .invalidDataFormat
  else if maxLen lens = 0 then .error .invalidDataFormat
  else match startChecked (blCount lens) (maxLen lens) with
    | .error e => .error e
    | .ok (code, next) =>
      if code > (2 ^ maxLen lens + 2 ^ 64 - blCount lens (maxLen lens)) % 2 ^ 64 then .error .invalidDataFormat
      else if maxLen lens ≠ 1 ∧ code < (2 ^ maxLen lens + 2 ^ 64 - blCount lens (maxLen lens)) % 2 ^ 64 then .error .invalidDataFormat
      else .ok ⟨maxLen lens, min 9 (maxLen lens), sortInfos (assignInfos next 0 lens)⟩

/-- `std::upper_bound(m_codeToValue.begin(), m_codeToValue.end(), x, CodeLessThan())` as an index:
the table is sorted, so the binary search finds the first entry whose code exceeds `x`. -/
def upperBound (table : List Info) (x : Nat) : Nat := (table.takeWhile fun e => decide (e.code ≤ x)).length

/-- `HuffmanDecoder::LookupEntry` of types 1, 2, 3. -/
inductive Entry where
  | done (value len : Nat)
  | direct (begin len : Nat)
  | search (begin stop : Nat)
deriving DecidableEq, Repr

/-- `m_normalizedCacheMask`, zinflate.cpp:144 -/
def cacheMask (d : Decoder) : Nat := normalize (2 ^ d.cacheBits - 1) d.cacheBits

/-- zinflate.cpp:156 `FillCacheEntry`; `none` if `upper_bound` finds the very beginning, when the C++
would step in front of the table. -/
def fillEntry (d : Decoder) (norm : Nat) : Option Entry :=
  if upperBound d.table (norm &&& cacheMask d) = 0 then none
  else match d.table[upperBound d.table (norm &&& cacheMask d) - 1]? with
    | none => none
    | some info =>
      if info.len ≤ d.cacheBits then some (.done info.value info.len)
      else match d.table[upperBound d.table (((norm &&& cacheMask d) + (2 ^ 32 - 1 - cacheMask d)) % 2 ^ 32) - 1]? with
        | none => none
        | some last =>
          if info.len = last.len then some (.direct (upperBound d.table (norm &&& cacheMask d) - 1) info.len)
          else some (.search (upperBound d.table (norm &&& cacheMask d) - 1)
            (upperBound d.table (((norm &&& cacheMask d) + (2 ^ 32 - 1 - cacheMask d)) % 2 ^ 32)))

/-- zinflate.cpp:183 `Decode(code, value)`: value and length. -/
def decodeCode (d : Decoder) (code : Nat) : Option (Nat × Nat) :=
  match fillEntry d (bitReverse code) with
  | none => none
  | some (.done v l) => some (v, l)
  | some (.direct b l) =>
    (d.table[b + ((bitReverse code <<< d.cacheBits) % 2 ^ 32) >>> (32 - (l - d.cacheBits))]?).map fun e => (e.value, e.len)
  | some (.search b e) =>
    if upperBound ((d.table.take e).drop b) (bitReverse code) = 0 then none
    else (((d.table.take e).drop b)[upperBound ((d.table.take e).drop b) (bitReverse code) - 1]?).map fun e => (e.value, e.len)

end Verif.Flate
