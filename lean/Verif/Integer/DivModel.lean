import Verif.Integer.MulCls

/-!
# Model of the division routines of integer.cpp

Words have `W` bits, `B = 2^W`; a double word is a number below `B*B` (the build with `CRYPTOPP_NATIVE_DWORD_AVAILABLE`).
Loops carry a fuel argument.  The theorems show that the loop condition is false in the state returned, so the fuel never
cuts a loop short.
-/
namespace Verif.Integer

open Verif.Misc

/-- integer.cpp:355-377 `DWord::operator-`: subtraction modulo `B*B`. -/
def dsub (B x y : Nat) : Nat := (((x : Int) - y) % ((B * B : Nat) : Int)).toNat

/-- integer.cpp:405 `GetHighHalfAsBorrow`: `0 - high`. -/
def asBorrow (B u : Nat) : Nat := (B - u / B) % B

/-- Quotient and the three words of `A`. -/
abbrev Div3 := Nat × Nat × Nat × Nat

/-- integer.cpp:503-512: the correction loop of `DivideThreeWordsByTwo`. -/
def div3Fix (B b0 b1 : Nat) : Nat → Div3 → Div3
  | 0, s => s
  | f + 1, (q, a0, a1, a2) =>
    if a2 ≠ 0 ∨ a1 > b1 ∨ (a1 = b1 ∧ a0 ≥ b0) then
      let u := dsub B a0 b0
      let v := dsub B (dsub B a1 b1) (asBorrow B u)
      div3Fix B b0 b1 f ((q + 1) % B, u % B, v % B, (a2 + v / B) % B)
    else (q, a0, a1, a2)

/-- integer.cpp:486-492: the quotient estimate. -/
def div3Est (B a0 a1 a2 b0 b1 : Nat) : Nat :=
  if b1 > 0 ∧ ¬ (b1 + 1) % B = 0 then (a1 + B * a2) / ((b1 + 1) % B) % B
  else if (b1 + 1) % B = 0 then a2
  else (a0 + B * a1) / b0 % B

/-- integer.cpp:476-515 `DivideThreeWordsByTwo(A, B0, B1)`: the quotient and the words left in `A`. -/
def div3 (B a0 a1 a2 b0 b1 : Nat) : Div3 :=
  let q := div3Est B a0 a1 a2 b0 b1
  let p := b0 * q
  let u := dsub B a0 (p % B)
  let v := dsub B (dsub B (dsub B a1 (p / B)) (asBorrow B u)) (b1 * q)
  div3Fix B b0 b1 B (q, u % B, v % B, (a2 + v / B) % B)

/-- integer.cpp:519-538 `DivideFourWordsByTwo`: the two-word quotient. -/
def div4 (B a0 a1 a2 a3 b0 b1 : Nat) : Nat × Nat :=
  if ¬ (b0 = 0 ∧ b1 = 0) then
    let r1 := div3 B a1 a2 a3 b0 b1
    let r0 := div3 B a0 r1.2.1 r1.2.2.1 b0 b1
    (r0.1, r1.1)
  else (a2, a3)

/-- integer.cpp:2730-2748 `AtomicDivide(Q, A, B)`; the two words of `B` are passed as values (they are a local array). -/
def atomicDivide (B : Nat) (m : WMem) (Q A b0 b1 : Nat) : WMem :=
  let q := div4 B (m A) (m (A + 1)) (m (A + 2)) (m (A + 3)) b0 b1
  setW (setW m Q q.1) (Q + 1) q.2

/-- integer.cpp:2761-2766, the loop of `CorrectQuotientEstimate`. -/
def correctLoop (B : Nat) (R Q Bp N : Nat) : Nat → WMem → WMem
  | 0, m => m
  | f + 1, m =>
    if m (R + N) ≠ 0 ∨ mCmp m R Bp N ≥ 0 then
      let r := mSub B m R R Bp N
      let m1 := setW r.1 (R + N) ((r.1 (R + N) + (B - r.2)) % B)
      let m2 := setW m1 Q ((m1 Q + 1) % B)
      let m3 := setW m2 (Q + 1) ((m2 (Q + 1) + if m2 Q = 0 then 1 else 0) % B)
      correctLoop B R Q Bp N f m3
    else m

/-- integer.cpp:2751-2767 `CorrectQuotientEstimate(R, T, Q, B, N)`. -/
def correctQuotientEstimate (B : Nat) (m : WMem) (R T Q Bp N : Nat) : WMem :=
  let m1 := asymmetricMultiply B m T (T + N + 2) Q 2 Bp N
  let m2 := (mSub B m1 R R T (N + 2)).1
  correctLoop B R Q Bp N B m2

/-- integer.cpp:2800-2804, the loop that brings the top of `TA` below `TB`; `X` is `TA+NA-NB`, `E` is `TA+NA`, `Q` is
`Q+NA-NB`. -/
def topLoop (B : Nat) (X E Q TB NB : Nat) : Nat → WMem → WMem
  | 0, m => m
  | f + 1, m =>
    if m E ≠ 0 ∨ mCmp m X TB NB ≥ 0 then
      let r := mSub B m X X TB NB
      let m1 := setW r.1 E ((r.1 E + (B - r.2)) % B)
      let m2 := setW m1 Q ((m1 Q + 1) % B)
      topLoop B X E Q TB NB f m2
    else m

/-- integer.cpp:2818-2822, `for (i=NA-2; i>=NB; i-=2)`.  The counter is `i + 2`, stepping down by two. -/
def divLoop (B : Nat) (Q TA TB TP NB b0 b1 : Nat) : Nat → WMem → Nat → WMem
  | 0, m, _ => m
  | f + 1, m, n =>
    if n ≥ NB + 2 then
      let i := n - 2
      let m1 := atomicDivide B m (Q + i - NB) (TA + i - 2) b0 b1
      let m2 := correctQuotientEstimate B m1 (TA + i - NB) TP (Q + i - NB) TB NB
      divLoop B Q TA TB TP NB b0 b1 f m2 i
    else m

/-- `ShiftWordsLeftByBits(r, n, s)` (words.h:149-161) on memory. -/
def mShl (W : Nat) (m : WMem) (r n s : Nat) : WMem := storeW m r (shiftWordsLeftByBits W s (loadW m r n)).1

/-- `ShiftWordsRightByBits(r, n, s)` (words.h:172-184) on memory. -/
def mShr (W : Nat) (m : WMem) (r n s : Nat) : WMem := storeW m r (shiftWordsRightByBits W s (loadW m r n))

/-- integer.cpp:2786-2796: copy and normalise the divisor and the dividend.  Returns memory, `shiftWords`, `shiftBits`. -/
def divNormalize (W : Nat) (m : WMem) (TA TB A NA Bp NB : Nat) : WMem × Nat × Nat :=
  let sw := if m (Bp + (NB - 1)) = 0 then 1 else 0
  let m1 := setW (setW m (TB + (NB - 1)) 0) TB 0
  let m2 := mCopy m1 (TB + sw) Bp (NB - sw)
  let sb := W - bitLen (m2 (TB + (NB - 1)))
  let m3 := mShl W m2 TB NB sb
  let m4 := setW (setW (setW m3 (TA + (NA + 1)) 0) (TA + NA) 0) TA 0
  let m5 := mCopy m4 (TA + sw) A NA
  (mShl W m5 TA (NA + 2) sb, sw, sb)

/-- integer.cpp:2798-2810: the leading digit of the quotient.  Returns memory and the new `NA`. -/
def divTop (B : Nat) (m : WMem) (Q TA TB NA NB : Nat) : WMem × Nat :=
  if m (TA + (NA + 1)) = 0 ∧ m (TA + NA) ≤ 1 then
    let m1 := setW (setW m (Q + (NA - NB)) 0) (Q + (NA - NB + 1)) 0
    (topLoop B (TA + (NA - NB)) (TA + NA) (Q + (NA - NB)) TB NB B m1, NA)
  else (m, NA + 2)

/-- integer.cpp:2775-2828 `Divide(R, Q, T, A, NA, B, NB)`. -/
def divideM (W : Nat) (m : WMem) (R Q T A NA Bp NB : Nat) : WMem :=
  let B := 2 ^ W
  let TA := T
  let TB := T + NA + 2
  let TP := T + NA + 2 + NB
  let n := divNormalize W m TA TB A NA Bp NB
  let t := divTop B n.1 Q TA TB NA NB
  let b0 := (t.1 (TB + (NB - 2)) + 1) % B
  let b1 := (t.1 (TB + (NB - 1)) + if b0 = 0 then 1 else 0) % B
  let m3 := divLoop B Q TA TB TP NB b0 b1 t.2 t.1 t.2
  let m4 := mCopy m3 R (TA + n.2.1) NB
  mShr W m4 R NB n.2.2

/-- integer.cpp:4215-4242 `PositiveDivide(remainder, quotient, a, b)`: new remainder and quotient.  The remainder, quotient,
workspace and operand arrays are placed one after another in one memory; the workspace is uninitialised (`junk`).  `a` and `b`
are different objects from the outputs (that is how `DividedBy` and `Modulo` call it). -/
def positiveDivide (ws : Nat) (junk : WMem) (a b : Obj) : Except Err (Obj × Obj) :=
  let aSize := wordCount a
  let bSize := wordCount b
  if bSize = 0 then .error .divideByZero
  else if aSize < bSize then .ok (⟨(assign zero a).reg, false⟩, zero)
  else
    let aSize := evenUp aSize
    let bSize := evenUp bSize
    let rSize := roundupSize bSize
    let qSize := roundupSize (aSize - bSize + 2)
    let Q := rSize
    let T := Q + qSize
    let A := T + (aSize + 3 * (bSize + 2))
    let Bp := A + a.reg.length
    let m := storeW (storeW (mZero junk 0 (rSize + qSize)) A a.reg) Bp b.reg
    let m' := divideM (8 * ws) m 0 Q T A aSize Bp bSize
    .ok (⟨loadW m' 0 rSize, false⟩, ⟨loadW m' Q qSize, false⟩)

/-- integer.cpp:4244-4260 `Integer::Divide(remainder, quotient, dividend, divisor)`. -/
def divide (ws : Nat) (junk : WMem) (a b : Obj) : Except Err (Obj × Obj) := do
  let (r, q) ← positiveDivide ws junk a b
  let (r, q) :=
    if a.neg then
      let q := negate q
      if isZero r = false then (assign r (minus ws (absoluteValue b) r), preDec ws q) else (r, q)
    else (r, q)
  .ok (r, if b.neg then negate q else q)

end Verif.Integer
