import Verif.Integer.EncModel
import Verif.Misc.Precision
import Verif.Words

/-!
# Model of ASN.1 DER encoding and BER decoding (asn.cpp, asn.h, integer.cpp)

A `BufferedTransformation` that is written to is the list of bytes put into it; one that is read from is the list of bytes it
still holds (C01 shows that a `ByteQueue` is such a list).  A decoder returns the decoded value and what is left of its input.
What is left of the input when a decoder throws is not modelled.
-/
namespace Verif.Asn
open Verif.Misc

/-- A function reading from a `BufferedTransformation`. -/
abbrev Parser (α : Type) := List Byte → Except Err (α × List Byte)

/-! ## Lengths -/

/-- asn.cpp:32-36, `for (j=BytePrecision(length); j; --j) bt.Put(byte(length >> (j-1)*8))`. -/
def lengthLoop (length : Nat) : Nat → List Byte
  | 0 => []
  | j + 1 => BitVec.ofNat 8 (length >>> (j * 8)) :: lengthLoop length j

/-- asn.cpp:20-39 `DERLengthEncode`; `length` is an `lword` (8 bytes). -/
def derLength (length : Nat) : List Byte :=
  if length ≤ 0x7f then [BitVec.ofNat 8 length]
  else (BitVec.ofNat 8 (bytePrecision 8 length) ||| 0x80) :: lengthLoop length (bytePrecision 8 length)

/-- What `bool BERLengthDecode(bt, lword &length, bool &definiteLength)` reports: `return false`, or `definiteLength = false`,
or `definiteLength = true` and the length. -/
inductive Len where
  | truncated
  | indefinite
  | definite (n : Nat)
deriving DecidableEq, Repr

/-- asn.cpp:64-74, `while (lengthBytes--)`; `8*(sizeof(length)-1)` is 56 and the shift is an `lword` shift. -/
def lengthBytes : Nat → Nat → Parser Len
  | 0, length, bt => .ok (.definite length, bt)
  | k + 1, length, bt =>
    if length >>> 56 ≠ 0 then .error .berDecodeErr
    else match bt with
      | [] => .ok (.truncated, [])
      | b :: bt => lengthBytes k ((length <<< 8) % 2 ^ 64 ||| b.toNat) bt

/-- asn.cpp:41-77 `BERLengthDecode(bt, lword &length, bool &definiteLength)`. -/
def berLength (bt : List Byte) : Except Err (Len × List Byte) :=
  match bt with
  | [] => .ok (.truncated, [])
  | b :: bt =>
    if b &&& 0x80 = 0 then .ok (.definite b.toNat, bt)
    else if (b &&& 0x7f).toNat = 0 then .ok (.indefinite, bt)
    else lengthBytes (b &&& 0x7f).toNat 0 bt

/-- asn.cpp:79-88 `BERLengthDecode(bt, size_t &length)`, with `sizeof(size_t) = sz`: `none` is `return false`. -/
def berLengthSize (sz : Nat) : Parser (Option Nat) := fun bt => do
  let r ← berLength bt
  match r.1 with
  | .truncated => .error .berDecodeErr
  | .indefinite => .ok (none, r.2)
  | .definite n => if n % 256 ^ sz = n then .ok (some n, r.2) else .error .berDecodeErr

/-- The pattern `byte b; if (!bt.Get(b) || b != asnTag) BERDecodeError();` (for instance asn.cpp:98-100). -/
def getTag (asnTag : Byte) : Parser Unit
  | [] => .error .berDecodeErr
  | b :: bt => if b = asnTag then .ok ((), bt) else .error .berDecodeErr

/-! ## Null and strings -/

/-- asn.cpp:90-94 `DEREncodeNull`. -/
def derNull : List Byte := [0x05, 0x00]

/-- asn.cpp:96-104 `BERDecodeNull`. -/
def berNull (sz : Nat) : Parser Unit := fun bt => do
  let r ← getTag 0x05 bt
  let l ← berLengthSize sz r.2
  match l.1 with
  | none => .error .berDecodeErr
  | some n => if n ≠ 0 then .error .berDecodeErr else .ok ((), l.2)

/-- asn.cpp:107-113 `DEREncodeOctetString`, asn.cpp:154-160 `DEREncodeTextString` and asn.cpp:210-216 `DEREncodeDate`: the same
code with the tag as a parameter. -/
def derString (asnTag : Byte) (str : List Byte) : List Byte := asnTag :: (derLength str.length ++ str)

/-- asn.cpp:120-136 and 138-152 `BERDecodeOctetString`, asn.cpp:172-189 and 191-208 `BERDecodeTextString`, asn.cpp:218-235
`BERDecodeDate`: the same code with the tag as a parameter. -/
def berString (sz : Nat) (asnTag : Byte) : Parser (List Byte) := fun bt => do
  let r ← getTag asnTag bt
  let l ← berLengthSize sz r.2
  match l.1 with
  | none => .error .berDecodeErr
  | some bc => if bc > l.2.length then .error .berDecodeErr else .ok (l.2.take bc, l.2.drop bc)

/-- asn.cpp:237-244 `DEREncodeBitString`. `strLen+1` is a `size_t` sum; callers' buffers are shorter than the address space. -/
def derBitString (str : List Byte) (unusedBits : Nat) : List Byte :=
  0x03 :: (derLength (str.length + 1) ++ BitVec.ofNat 8 unusedBits :: str)

/-- asn.cpp:246-269 `BERDecodeBitString`: the bytes and the number of unused bits. -/
def berBitString (sz : Nat) : Parser (List Byte × Nat) := fun bt => do
  let r ← getTag 0x03 bt
  let l ← berLengthSize sz r.2
  match l.1 with
  | none => .error .berDecodeErr
  | some bc =>
    if bc = 0 then .error .berDecodeErr
    else if bc > l.2.length then .error .berDecodeErr
    else match l.2 with
      | [] => .error .berDecodeErr
      | unused :: bt =>
        if unused.toNat > 7 then .error .berDecodeErr
        else if (bt.take (bc - 1)).length ≠ bc - 1 then .error .berDecodeErr
        else .ok ((bt.take (bc - 1), unused.toNat), bt.drop (bc - 1))

/-! ## Unsigned integers of a C++ type -/

/-- asn.h:835-837, `buf[i+1] = byte(w >> (sizeof(w)-1-i)*8)` for `i` from 0: the last `k` bytes of `buf`. -/
def unsignedBuf (w : Nat) : Nat → List Byte
  | 0 => []
  | k + 1 => BitVec.ofNat 8 (w >>> (k * 8)) :: unsignedBuf w k

/-- asn.h:839-840, `while (bc > 1 && buf[sizeof(w)+1-bc] == 0) --bc;` -/
def trimCount (size : Nat) (buf : List Byte) : Nat → Nat
  | 0 => 0
  | bc + 1 => if bc + 1 > 1 ∧ buf.getD (size + 1 - (bc + 1)) 0 = 0 then trimCount size buf bc else bc + 1

/-- asn.h:820-849 `DEREncodeUnsigned<T>` for `sizeof(T) = size`. -/
def derUnsigned (size : Nat) (w : Nat) (asnTag : Byte) : List Byte :=
  if asnTag = 0x01 then asnTag :: (derLength 1 ++ [if w ≠ 0 then 0xff else 0])
  else
    let buf := 0 :: unsignedBuf w size
    let bc := trimCount size buf size
    let bc := if buf.getD (size + 1 - bc) 0 &&& 0x80 ≠ 0 then bc + 1 else bc
    asnTag :: (derLength bc ++ (buf.drop (size + 1 - bc)).take bc)

/-- asn.h:890-894, `while (bc > sizeof(w) && *ptr == 0) { bc--; ptr++; }`. -/
def skipZeros (size : Nat) : List Byte → List Byte
  | [] => []
  | b :: bs => if bs.length + 1 > size ∧ b = 0 then skipZeros size bs else b :: bs

/-- asn.h:898-900, `w = 0; for (...) w = (w << 8) | ptr[i];` in a type of `size` bytes. -/
def foldBytes (size : Nat) : Nat → List Byte → Nat
  | w, [] => w
  | w, b :: bs => foldBytes size ((w <<< 8 ||| b.toNat) % 256 ^ size) bs

/-- asn.h:860-904 `BERDecodeUnsigned<T>`.  For `T = bool` the conversion back to `bool` is not modelled. -/
def berUnsigned (sz size : Nat) (asnTag : Byte) (minValue maxValue : Nat) : Parser Nat := fun bt => do
  let r ← getTag asnTag bt
  let l ← berLengthSize sz r.2
  match l.1 with
  | none => .error .berDecodeErr
  | some bc =>
    if bc > l.2.length then .error .berDecodeErr
    else if asnTag = 0x01 ∧ bc ≠ 1 then .error .berDecodeErr
    else if (asnTag = 0x02 ∨ asnTag = 0x0a) ∧ bc = 0 then .error .berDecodeErr
    else
      let p := skipZeros size (l.2.take bc)
      if p.length > size then .error .berDecodeErr
      else
        let w := foldBytes size 0 p
        if w < minValue ∨ w > maxValue then .error .berDecodeErr else .ok (w, l.2.drop bc)

/-! ## Object identifiers -/

/-- asn.cpp:309-310, `for (i=...; i != 0; i-=7) bt.Put((byte)(0x80 | ((v >> i) & 0x7f)))`; `i` starts at a multiple of 7. -/
def oidLoop (v : Nat) (i : Nat) : List Byte :=
  if i = 0 then [] else (0x80 ||| (BitVec.ofNat 8 (v >>> i) &&& 0x7f)) :: oidLoop v (i - 7)
termination_by i
decreasing_by omega

/-- asn.cpp:307-312 `OID::EncodeValue`; `RoundUpToMultipleOf(n, 7)` is `(n + 6) / 7 * 7` (misc.h). -/
def oidEncodeValue (v : Nat) : List Byte :=
  oidLoop v ((max 7 (bitPrecision 4 v) + 6) / 7 * 7 - 7) ++ [BitVec.ofNat 8 v &&& 0x7f]

/-- asn.cpp:314-331 `OID::DecodeValue`, with `v` and `i` the locals: the value, the count of bytes read, and the rest. -/
def oidDecodeValue : Nat → Nat → Parser (Nat × Nat)
  | _, _, [] => .error .berDecodeErr
  | v, i, b :: bt =>
    if v >>> 25 ≠ 0 then .error .berDecodeErr
    else
      let v := ((v <<< 7) % 2 ^ 32 + (b &&& 0x7f).toNat) % 2 ^ 32
      if b &&& 0x80 = 0 then .ok ((v, i + 1), bt) else oidDecodeValue v (i + 1) bt

/-- asn.cpp:337-339, the content octets of an object identifier; the caller guarantees at least two arcs. -/
def oidContent (values : List Nat) : List Byte :=
  BitVec.ofNat 8 (values.getD 0 0 * 40 + values.getD 1 0) :: (values.drop 2).flatMap oidEncodeValue

/-- asn.cpp:333-343 `OID::DEREncode`. -/
def derOid (values : List Nat) : List Byte :=
  0x06 :: (derLength (oidContent values).length ++ oidContent values)

/-- asn.cpp:362-371, `while (length > 0)`.  Each pass consumes at least one byte, so `length` passes are enough (`fuel`). -/
def oidArcs : Nat → Nat → List Nat → Parser (List Nat)
  | _, 0, values, bt => .ok (values, bt)
  | 0, _ + 1, _, _ => .error .diverges
  | fuel + 1, length + 1, values, bt => do
    let r ← oidDecodeValue 0 0 bt
    if r.1.2 > length + 1 then .error .berDecodeErr
    else oidArcs fuel (length + 1 - r.1.2) (values ++ [r.1.1]) r.2

/-- asn.cpp:345-372 `OID::BERDecode`. -/
def berOid (sz : Nat) : Parser (List Nat) := fun bt => do
  let r ← getTag 0x06 bt
  let l ← berLengthSize sz r.2
  match l.1 with
  | none => .error .berDecodeErr
  | some length =>
    if length < 1 then .error .berDecodeErr
    else match l.2 with
      | [] => .error .berDecodeErr
      | b :: bt => oidArcs (length - 1) (length - 1) [b.toNat / 40, b.toNat % 40] bt

/-! ## Constructed values -/

/-- asn.cpp:596-631 `DERGeneralEncoder`: what its `MessageEnd` puts, given what was put into the encoder. -/
def derGeneral (asnTag : Byte) (content : List Byte) : List Byte := asnTag :: (derLength content.length ++ content)

/-- asn.cpp:501-512 `BERGeneralDecoder::Init`. -/
def berInit (asnTag : Byte) : Parser (Option Nat) := fun bt => do
  let r ← getTag asnTag bt
  let l ← berLength r.2
  match l.1 with
  | .truncated => .error .berDecodeErr
  | .indefinite => if asnTag &&& 0x20 = 0 then .error .berDecodeErr else .ok (none, l.2)
  | .definite n => .ok (some n, l.2)

/-- asn.cpp:483-594 `BERGeneralDecoder dec(bt, asnTag); ...body...; dec.MessageEnd()`.  A definite-length decoder shows the body
at most `m_length` bytes (`TransferTo2`, `CopyRangeTo2`), counts what it takes (`ReduceLength`), and `MessageEnd` demands that
nothing remains; an indefinite one passes the stream through and `MessageEnd` consumes two zero bytes.  The body receives
`RemainingLength` when definite. -/
def berGeneral (asnTag : Byte) {α : Type} (body : Option Nat → Parser α) : Parser α := fun bt => do
  let r ← berInit asnTag bt
  match r.1 with
  | some n => do
    let x ← body (some n) (r.2.take n)
    if n - ((r.2.take n).length - x.2.length) ≠ 0 then .error .berDecodeErr
    else .ok (x.1, r.2.drop n)
  | none => do
    let x ← body none r.2
    match x.2 with
    | b0 :: b1 :: bt => if b0 = 0 ∧ b1 = 0 then .ok (x.1, bt) else .error .berDecodeErr
    | _ => .error .berDecodeErr

/-- asn.cpp:277-283, the two branches of `DERReencode`; `loop` is the `while` of the second. -/
def reencodeBody (loop : Parser (List Byte)) : Option Nat → Parser (List Byte)
  | some n, s => .ok (s.take n, s.drop n)
  | none, s => loop s

/-- asn.cpp:271-286 `DERReencode`: what is put into `dest`, and what is left of `source`.  The nested decoder is only created over
an indefinite-length one, which passes reads through.  Each call consumes at least two bytes of `source`; `fuel` bounds the calls. -/
def derReencode : Nat → Parser (List Byte)
  | 0, _ => .error .diverges
  | fuel + 1, source =>
    let tag := source.headD 0
    let rec loop : Nat → List Byte → Parser (List Byte)
      | 0, _, _ => .error .diverges
      | k + 1, enc, src =>
        if src.take 2 = [0, 0] then .ok (enc, src)
        else do
          let x ← derReencode fuel src
          loop k (enc ++ x.1) x.2
    (berGeneral tag (reencodeBody (fun s => loop (s.length + 1) [] s)) source).map (fun x => (derGeneral tag x.1, x.2))

/-- asn.cpp:271-286 `DERReencode(source, dest)` with enough fuel for every input. -/
def derReencodeTop : Parser (List Byte) := fun source => derReencode (source.length + 1) source

/-! ## Big integers -/

/-- integer.cpp:3449-3454 `Integer::DEREncode`. -/
def derInteger (ws : Nat) (x : Integer.Obj) : List Byte :=
  derGeneral 0x02 (Integer.encode ws x (Integer.minEncodedSize ws x true) true)

/-- integer.cpp:3463-3470 `Integer::BERDecode`.  `INTEGER` is a primitive tag, so `Init` refuses indefinite lengths. -/
def berInteger (ws : Nat) : Parser Integer.Obj :=
  berGeneral 0x02 (fun len => match len with
    | none => fun _ => .error .berDecodeErr
    | some n => fun s => if s.length < n then .error .berDecodeErr else Integer.decode ws s n true)

/-- integer.cpp:3472-3477 `Integer::DEREncodeAsOctetString`. -/
def derIntegerOctets (ws : Nat) (x : Integer.Obj) (length : Nat) : List Byte :=
  derGeneral 0x04 (Integer.encode ws x length false)

/-- integer.cpp:3479-3486 `Integer::BERDecodeAsOctetString`. -/
def berIntegerOctets (ws : Nat) (length : Nat) : Parser Integer.Obj :=
  berGeneral 0x04 (fun len => match len with
    | none => fun _ => .error .berDecodeErr
    | some n => fun s => if n ≠ length then .error .berDecodeErr else Integer.decode ws s length false)

/-- integer.cpp:3496-3503 `Integer::OpenPGPEncode`; `word16(BitCount())` truncates. -/
def pgpEncode (ws : Nat) (x : Integer.Obj) : List Byte :=
  let bitCount := Integer.bitCount ws x % 2 ^ 16
  beBytes 2 bitCount ++ Integer.encode ws x ((bitCount + 7) / 8) false

/-- integer.cpp:3512-3518 `Integer::OpenPGPDecode`; `OpenPGPDecodeErr` is `Err.other`. -/
def pgpDecode (ws : Nat) : Parser Integer.Obj := fun bt =>
  if bt.length < 2 then .error .other
  else if (bt.drop 2).length < (beVal (bt.take 2) + 7) / 8 then .error .other
  else Integer.decode ws (bt.drop 2) ((beVal (bt.take 2) + 7) / 8) false

end Verif.Asn
