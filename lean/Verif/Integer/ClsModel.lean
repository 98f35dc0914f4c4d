import Verif.Common
import Verif.Integer.ArrModel
import Verif.Misc.Precision

/-!
# Model of class Integer (integer.cpp): representation, addition, subtraction, comparison, shifts

`ws` is `WORD_SIZE` in bytes, so `WORD_BITS = 8 * ws` and the base is `2^(8*ws)`.  An object is its word array and its
sign flag.  A method that changes `*this` returns the new object.  In-place calls such as `PositiveAdd(*this, *this, t)`
are modelled by passing the same array for the result's old contents and for the operand: the code reads every operand
word before it overwrites it.  Sizes are unbounded: there is no address-space limit.
-/
namespace Verif.Integer

open Verif.Misc

/-- integer.h:743-744: the word array `reg` and the sign. -/
structure Obj where
  reg : List Nat
  neg : Bool
deriving DecidableEq, Repr

/-- `2^WORD_BITS`. -/
abbrev base (ws : Nat) : Nat := 2 ^ (8 * ws)

/-- integer.cpp:2950 `RoundupSizeTable`. -/
def roundupSizeTable : List Nat := [2, 2, 2, 4, 4, 8, 8, 8, 8]

/-- integer.cpp:2952-2964 `RoundupSize(n)`.  `BitPrecision` of a `size_t` is replaced by `bitLen`, which
`Misc.bitPrecision_eq` shows it computes. -/
def roundupSize (n : Nat) : Nat :=
  if n ≤ 8 then roundupSizeTable.getD n 0
  else if n ≤ 16 then 16
  else if n ≤ 32 then 32
  else if n ≤ 64 then 64
  else 1 <<< bitLen (n - 1)

/-- integer.cpp:2966-2970 default constructor. -/
def zero : Obj := ⟨[0, 0], false⟩

/-- integer.cpp:3179-3184 `Integer(word value, size_t length)`. -/
def ofWord (value length : Nat) : Obj := ⟨value :: List.replicate (roundupSize length - 1) 0, false⟩

/-- integer.cpp:3350-3353 `WordCount`. -/
def wordCount (x : Obj) : Nat := countWords x.reg

/-- integer.cpp:2972-2976 copy constructor: `RoundupSize(WordCount())` words are copied. -/
def copyCtor (t : Obj) : Obj := ⟨t.reg.take (roundupSize (wordCount t)), t.neg⟩

/-- integer.cpp:3099-3109 `operator=` (not self-assignment). -/
def assign (self t : Obj) : Obj :=
  if self.reg.length ≠ t.reg.length ∨ t.reg.getD (t.reg.length / 2) 0 = 0 then
    ⟨t.reg.take (roundupSize (wordCount t)), t.neg⟩
  else ⟨t.reg.take self.reg.length, t.neg⟩

/-- integer.cpp:3094-3097 `operator!`. -/
def isZero (x : Obj) : Bool := if x.neg then false else (x.reg.getD 0 0 == 0 && wordCount x == 0)

/-- secblock.h:1179-1188 `CleanGrow`. -/
def cleanGrow (r : List Nat) (n : Nat) : List Nat := r ++ List.replicate (n - r.length) 0

/-- integer.cpp:3916-3943, the arrays in `PositiveAdd(sum, a, b)`: new `sum.reg` from the old one.  -/
def positiveAdd (B : Nat) (sum a b : List Nat) : List Nat :=
  let p : List Nat × Nat :=
    if a.length ≠ b.length ∧ a.length > b.length then
      let r := baselineAdd B b.length a b
      let s := writeAt (writeAt sum 0 r.1) b.length (a.drop b.length)
      let i := increment B r.2 ((s.drop b.length).take (a.length - b.length))
      (writeAt s b.length i.1, i.2)
    else if a.length = b.length then
      let r := baselineAdd B a.length a b
      (writeAt sum 0 r.1, r.2)
    else
      let r := baselineAdd B a.length a b
      let s := writeAt (writeAt sum 0 r.1) a.length (b.drop a.length)
      let i := increment B r.2 ((s.drop a.length).take (b.length - a.length))
      (writeAt s a.length i.1, i.2)
  if p.2 ≠ 0 then
    let g := cleanGrow p.1 (2 * p.1.length)
    g.set (g.length / 2) 1
  else p.1

/-- Round up to even, integer.cpp:3947-3950. -/
def evenUp (n : Nat) : Nat := n + n % 2

/-- integer.cpp:3945-3982 `PositiveSubtract(diff, a, b)`: new array and sign of `diff`. -/
def positiveSubtract (B : Nat) (diff a b : List Nat) : Obj :=
  let aSize := evenUp (countWords a)
  let bSize := evenUp (countWords b)
  if aSize > bSize then
    let r := baselineSub B bSize a b
    let s := writeAt (writeAt diff 0 r.1) bSize ((a.drop bSize).take (aSize - bSize))
    let d := decrement B r.2 ((s.drop bSize).take (aSize - bSize))
    ⟨writeAt s bSize d.1, false⟩
  else if aSize = bSize then
    if compareW a b aSize ≥ 0 then ⟨writeAt diff 0 (baselineSub B aSize a b).1, false⟩
    else ⟨writeAt diff 0 (baselineSub B aSize b a).1, true⟩
  else
    let r := baselineSub B aSize b a
    let s := writeAt (writeAt diff 0 r.1) aSize ((b.drop aSize).take (bSize - aSize))
    let d := decrement B r.2 ((s.drop aSize).take (bSize - aSize))
    ⟨writeAt s aSize d.1, true⟩

/-- integer.cpp:3990-4011 `Plus`. -/
def plus (ws : Nat) (a b : Obj) : Obj :=
  let sum := (ofWord 0 (max a.reg.length b.reg.length)).reg
  if a.neg = false then
    if b.neg = false then ⟨positiveAdd (base ws) sum a.reg b.reg, false⟩
    else positiveSubtract (base ws) sum a.reg b.reg
  else
    if b.neg = false then positiveSubtract (base ws) sum b.reg a.reg
    else ⟨positiveAdd (base ws) sum a.reg b.reg, true⟩

/-- integer.cpp:4013-4034 `operator+=`. -/
def plusAssign (ws : Nat) (a t : Obj) : Obj :=
  let r := cleanGrow a.reg t.reg.length
  if a.neg = false then
    if t.neg = false then ⟨positiveAdd (base ws) r r t.reg, false⟩
    else positiveSubtract (base ws) r r t.reg
  else
    if t.neg = false then positiveSubtract (base ws) r t.reg r
    else ⟨positiveAdd (base ws) r r t.reg, true⟩

/-- integer.cpp:4036-4057 `Minus`. -/
def minus (ws : Nat) (a b : Obj) : Obj :=
  let diff := (ofWord 0 (max a.reg.length b.reg.length)).reg
  if a.neg = false then
    if b.neg = false then positiveSubtract (base ws) diff a.reg b.reg
    else ⟨positiveAdd (base ws) diff a.reg b.reg, false⟩
  else
    if b.neg = false then ⟨positiveAdd (base ws) diff a.reg b.reg, true⟩
    else positiveSubtract (base ws) diff b.reg a.reg

/-- integer.cpp:4059-4080 `operator-=`. -/
def minusAssign (ws : Nat) (a t : Obj) : Obj :=
  let r := cleanGrow a.reg t.reg.length
  if a.neg = false then
    if t.neg = false then positiveSubtract (base ws) r r t.reg
    else ⟨positiveAdd (base ws) r r t.reg, false⟩
  else
    if t.neg = false then ⟨positiveAdd (base ws) r r t.reg, true⟩
    else positiveSubtract (base ws) r t.reg r

/-- integer.cpp:4385-4389 `Negate`. -/
def negate (x : Obj) : Obj := if isZero x = false then ⟨x.reg, !x.neg⟩ else x

/-- integer.cpp:3159-3164 unary minus. -/
def neg (x : Obj) : Obj := negate (copyCtor x)

/-- integer.cpp:3166-3171 `AbsoluteValue`. -/
def absoluteValue (x : Obj) : Obj := ⟨(copyCtor x).reg, false⟩

/-- integer.cpp:3763-3782 `operator++`. -/
def preInc (ws : Nat) (x : Obj) : Obj :=
  if x.neg = false then
    let i := increment (base ws) 1 x.reg
    if i.2 ≠ 0 then
      let g := cleanGrow i.1 (2 * i.1.length)
      ⟨g.set (g.length / 2) 1, false⟩
    else ⟨i.1, false⟩
  else
    let d := decrement (base ws) 1 x.reg
    if countWords d.1 = 0 then zero else ⟨d.1, true⟩

/-- integer.cpp:3784-3800 `operator--`; `-One()` is `[1, 0]` with negative sign. -/
def preDec (ws : Nat) (x : Obj) : Obj :=
  if x.neg = true then
    let i := increment (base ws) 1 x.reg
    if i.2 ≠ 0 then
      let g := cleanGrow i.1 (2 * i.1.length)
      ⟨g.set (g.length / 2) 1, true⟩
    else ⟨i.1, true⟩
  else
    let d := decrement (base ws) 1 x.reg
    if d.2 ≠ 0 then ⟨[1, 0], true⟩ else ⟨d.1, false⟩

/-- integer.cpp:4391-4399 `PositiveCompare`. -/
def positiveCompare (a t : Obj) : Int :=
  let size := wordCount a
  let tSize := wordCount t
  if size ≠ tSize then (if size > tSize then 1 else -1) else compareW a.reg t.reg size

/-- integer.cpp:4401-4417 `Compare`. -/
def compare (a t : Obj) : Int :=
  if a.neg = false then
    if t.neg = false then positiveCompare a t else 1
  else
    if t.neg = false then -1 else -positiveCompare a t

/-- misc.h:1163-1166 `BitsToWords`. -/
def bitsToWords (ws n : Nat) : Nat := (n + 8 * ws - 1) / (8 * ws)

/-- misc.h:1153-1156 `BytesToWords`. -/
def bytesToWords (ws n : Nat) : Nat := (n + ws - 1) / ws

/-- integer.cpp:3120-3132 `SetBit(n, true)`. -/
def setBit (ws : Nat) (x : Obj) (n : Nat) : Obj :=
  let r := cleanGrow x.reg (roundupSize (bitsToWords ws (n + 1)))
  ⟨r.set (n / (8 * ws)) (r.getD (n / (8 * ws)) 0 ||| 1 <<< (n % (8 * ws))), x.neg⟩

/-- integer.cpp:3111-3118 `GetBit`. -/
def getBit (ws : Nat) (x : Obj) (n : Nat) : Bool :=
  if n / (8 * ws) < x.reg.length then decide ((x.reg.getD (n / (8 * ws)) 0 >>> (n % (8 * ws))) &&& 1 ≠ 0) else false

/-- integer.cpp:3087-3092 `Power2`. -/
def power2 (ws e : Nat) : Obj := setBit ws (ofWord 0 (bitsToWords ws (e + 1))) e

/-- integer.cpp:3134-3141 `GetByte`. -/
def getByte (ws : Nat) (x : Obj) (n : Nat) : Byte :=
  if n / ws < x.reg.length then BitVec.ofNat 8 (x.reg.getD (n / ws) 0 >>> (n % ws * 8)) else 0

/-- integer.cpp:3355-3362 `ByteCount`. -/
def byteCount (ws : Nat) (x : Obj) : Nat :=
  if wordCount x ≠ 0 then (wordCount x - 1) * ws + bytePrecision ws (x.reg.getD (wordCount x - 1) 0) else 0

/-- integer.cpp:3364-3371 `BitCount`. -/
def bitCount (ws : Nat) (x : Obj) : Nat :=
  if wordCount x ≠ 0 then (wordCount x - 1) * (8 * ws) + bitPrecision ws (x.reg.getD (wordCount x - 1) 0) else 0

/-- integer.cpp:4082-4092 `operator<<=`. -/
def shlAssign (ws : Nat) (x : Obj) (n : Nat) : Obj :=
  let wc := wordCount x
  let sw := n / (8 * ws)
  let sb := n % (8 * ws)
  let r0 := cleanGrow x.reg (roundupSize (wc + bitsToWords ws n))
  let r1 := writeAt r0 0 (shiftWordsLeftByWords (r0.take (wc + sw)) sw)
  let r2 := writeAt r1 sw (shiftWordsLeftByBits (8 * ws) sb ((r1.drop sw).take (wc + bitsToWords ws sb))).1
  ⟨r2, x.neg⟩

/-- integer.cpp:4094-4106 `operator>>=`. -/
def shrAssign (ws : Nat) (x : Obj) (n : Nat) : Obj :=
  let wc := wordCount x
  let sw := n / (8 * ws)
  let sb := n % (8 * ws)
  let r1 := writeAt x.reg 0 (shiftWordsRightByWords (x.reg.take wc) sw)
  let r2 := if wc > sw then writeAt r1 0 (shiftWordsRightByBits (8 * ws) sb (r1.take (wc - sw))) else r1
  if x.neg = true ∧ countWords r2 = 0 then zero else ⟨r2, x.neg⟩

end Verif.Integer
