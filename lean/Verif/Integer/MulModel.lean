import Verif.Integer.MulPrograms

/-!
# Model of the multiplication routines of integer.cpp

Pointers are word addresses into one memory (`WMem.lean`).  `s_recursionLimit` is 16 and the function tables hold the
`Baseline_*` functions, i.e. the build without `CRYPTOPP_INTEGER_SSE2` (32-bit x86 only).  The recursions carry a fuel
argument; the entry points pass the operand size, which always suffices.
-/
namespace Verif.Integer

/-- integer.cpp:2206-2228 with `Baseline_Multiply2/4/8/16` (1270-1302, 1418-1425): `s_pMul[i](R, A, B)`.  There is no entry
3 and none above 4; calling it is undefined.  The model leaves memory alone there, and the theorems only reach sizes that
are powers of two. -/
def sMul (B : Nat) (i : Nat) (m : WMem) (R A Bp : Nat) : WMem :=
  match i with
  | 0 => runIns B R A Bp 0 m mul2
  | 1 => runIns B R A Bp 0 m mul4
  | 2 => runIns B R A Bp 0 m mul8
  | 4 => runIns B R A Bp 0 m mul16
  | _ => m

/-- integer.cpp:2206-2228 with `Baseline_Square2/4/8/16` (1304-1326, 1427-1433): `s_pSqu[i](R, A)`. -/
def sSqu (B : Nat) (i : Nat) (m : WMem) (R A : Nat) : WMem :=
  match i with
  | 0 => runIns B R A A 0 m squ2
  | 1 => runIns B R A A 0 m squ4
  | 2 => runIns B R A A 0 m squ8
  | 4 => runIns B R A A 0 m squ16
  | _ => m

/-- integer.cpp:2206-2228 with `Baseline_MultiplyBottom2/4/8/16` (1328-1350, 1435-1442): `s_pBot[i](R, A, B)`. -/
def sBot (B : Nat) (i : Nat) (m : WMem) (R A Bp : Nat) : WMem :=
  match i with
  | 0 => runIns B R A Bp 0 m bot2
  | 1 => runIns B R A Bp 0 m bot4
  | 2 => runIns B R A Bp 0 m bot8
  | 4 => runIns B R A Bp 0 m bot16
  | _ => m

/-- integer.cpp:1378-1385 `Baseline_MultiplyTop2(R, A, B, L)`: multiply into a local array `T[4]` and copy `T[2]`, `T[3]`.
The local array is placed at an address above the three arrays and its contents dropped afterwards. -/
def top2 (B : Nat) (m : WMem) (R A Bp : Nat) : WMem :=
  let t := R + A + Bp + 4
  let m' := runIns B t A Bp 0 m mul2
  setW (setW m R (m' (t + 2))) (R + 1) (m' (t + 3))

/-- integer.cpp:2183-2228 with `Baseline_MultiplyTop2/4/8/16` (1378-1415, 1444-1467): `s_pTop[i](R, A, B, L)`. -/
def sTop (B : Nat) (i : Nat) (m : WMem) (R A Bp L : Nat) : WMem :=
  match i with
  | 0 => top2 B m R A Bp
  | 1 => runIns B R A Bp L m top4
  | 2 => runIns B R A Bp L m top8
  | 4 => runIns B R A Bp L m top16
  | _ => m

/-- A C `int` converted to `word`. -/
def toWord (B : Nat) (x : Int) : Nat := (x % (B : Int)).toNat

/-- integer.cpp:2280-2281 (also 2283-2284, 2371-2372, 2374-2375):
`AN2 = Compare(A0, A1, N2) > 0 ? 0 : N2; Subtract(R0, A + AN2, A + (N2 ^ AN2), N2)`.  Returns memory and `AN2`. -/
def absDiff (B : Nat) (m : WMem) (R A N2 : Nat) : WMem × Nat :=
  let AN2 := if mCmp m A (A + N2) N2 > 0 then 0 else N2
  ((mSub B m R (A + AN2) (A + (N2 ^^^ AN2)) N2).1, AN2)

/-- integer.cpp:2292-2304: the additions that combine the three half-size products; `same` is `AN2 == BN2`. -/
def karCombine (B : Nat) (m : WMem) (R T N N2 : Nat) (same : Bool) : WMem :=
  let r1 := mAdd B m (R + N) (R + N) (R + N2) N2
  let r2 := mAdd B r1.1 (R + N2) (R + N) R N2
  let c2 := r1.2 + r2.2
  let r3 := mAdd B r2.1 (R + N) (R + N) (R + N + N2) N2
  let r4 := if same then mSub B r3.1 (R + N2) (R + N2) T N else mAdd B r3.1 (R + N2) (R + N2) T N
  let c3 : Int := (r1.2 : Int) + r3.2 + (if same then -(r4.2 : Int) else r4.2)
  let r5 := mInc B r4.1 (R + N) N2 c2
  (mInc B r5.1 (R + N + N2) N2 (toWord B (c3 + r5.2))).1

/-- integer.cpp:2270-2306 `RecursiveMultiply(R, T, A, B, N)`. -/
def recMul (B : Nat) : Nat → WMem → Nat → Nat → Nat → Nat → Nat → WMem
  | 0, m, _, _, _, _, _ => m
  | f + 1, m, R, T, A, Bp, N =>
    if N ≤ 16 then sMul B (N / 4) m R A Bp
    else
      let N2 := N / 2
      let d1 := absDiff B m R A N2
      let d2 := absDiff B d1.1 (R + N2) Bp N2
      let m3 := recMul B f d2.1 (R + N) (T + N) (A + N2) (Bp + N2) N2
      let m4 := recMul B f m3 T (T + N) R (R + N2) N2
      let m5 := recMul B f m4 R (T + N) A Bp N2
      karCombine B m5 R T N N2 (d1.2 == d2.2)

/-- integer.cpp:2410-2413 `Multiply(R, T, A, B, N)`. -/
def multiplyM (B : Nat) (m : WMem) (R T A Bp N : Nat) : WMem := recMul B N m R T A Bp N

/-- integer.cpp:2325-2328: the additions of `RecursiveSquare`. -/
def squCombine (B : Nat) (m : WMem) (R T N N2 : Nat) : WMem :=
  let r1 := mAdd B m (R + N2) (R + N2) T N
  let r2 := mAdd B r1.1 (R + N2) (R + N2) T N
  (mInc B r2.1 (R + N + N2) N2 (r1.2 + r2.2)).1

/-- integer.cpp:2312-2330 `RecursiveSquare(R, T, A, N)`. -/
def recSqu (B : Nat) : Nat → WMem → Nat → Nat → Nat → Nat → WMem
  | 0, m, _, _, _, _ => m
  | f + 1, m, R, T, A, N =>
    if N ≤ 16 then sSqu B (N / 4) m R A
    else
      let N2 := N / 2
      let m1 := recSqu B f m R (T + N) A N2
      let m2 := recSqu B f m1 (R + N) (T + N) (A + N2) N2
      let m3 := multiplyM B m2 T (T + N) A (A + N2) N2
      squCombine B m3 R T N N2

/-- integer.cpp:2415-2418 `Square(R, T, A, N)`. -/
def squareM (B : Nat) (m : WMem) (R T A N : Nat) : WMem := recSqu B N m R T A N

/-- integer.cpp:2337-2353 `RecursiveMultiplyBottom(R, T, A, B, N)`. -/
def recBot (B : Nat) : Nat → WMem → Nat → Nat → Nat → Nat → Nat → WMem
  | 0, m, _, _, _, _, _ => m
  | f + 1, m, R, T, A, Bp, N =>
    if N ≤ 16 then sBot B (N / 4) m R A Bp
    else
      let N2 := N / 2
      let m1 := multiplyM B m R T A Bp N2
      let m2 := recBot B f m1 T (T + N2) (A + N2) Bp N2
      let m3 := (mAdd B m2 (R + N2) (R + N2) T N2).1
      let m4 := recBot B f m3 T (T + N2) A (Bp + N2) N2
      (mAdd B m4 (R + N2) (R + N2) T N2).1

/-- integer.cpp:2420-2423 `MultiplyBottom(R, T, A, B, N)`. -/
def multiplyBottomM (B : Nat) (m : WMem) (R T A Bp N : Nat) : WMem := recBot B N m R T A Bp N

/-- integer.cpp:2382-2406: the second part of `MultiplyTop`; `T[01]` holds `|A1-A0|*|B1-B0|` and `R[01]` holds `A1*B1`.
`t` is the comparison `Compare(T2, R0, N2) == -1`. -/
def topCombine (B : Nat) (m : WMem) (R T L N N2 : Nat) (same : Bool) : WMem :=
  let r1 := mSub B m (T + N) (L + N2) L N2
  let r2 := if same then mAdd B r1.1 (T + N) (T + N) T N2 else mSub B r1.1 (T + N) (T + N) T N2
  let c2 : Int := (r1.2 : Int) + (if same then -(r2.2 : Int) else r2.2)
  let t : Int := if mCmp r2.1 (T + N) R N2 = -1 then 1 else 0
  let r3 := if same then mSub B r2.1 (T + N) (T + N) (T + N2) N2 else mAdd B r2.1 (T + N) (T + N) (T + N2) N2
  let c3 : Int := t + (if same then -(r3.2 : Int) else r3.2)
  let c2' := c2 + t
  let r4 := if c2' ≥ 0 then mInc B r3.1 (T + N) N2 (toWord B c2') else mDec B r3.1 (T + N) N2 (toWord B (-c2'))
  let c3' : Int := c3 + (if c2' ≥ 0 then (r4.2 : Int) else -(r4.2 : Int))
  let r5 := mAdd B r4.1 R (T + N) (R + N2) N2
  (mInc B r5.1 (R + N2) N2 (toWord B (c3' + r5.2))).1

/-- integer.cpp:2361-2408 `MultiplyTop(R, T, L, A, B, N)`. -/
def multiplyTopM (B : Nat) (m : WMem) (R T L A Bp N : Nat) : WMem :=
  if N ≤ 16 then sTop B (N / 4) m R A Bp (m (L + (N - 1)))
  else
    let N2 := N / 2
    let d1 := absDiff B m R A N2
    let d2 := absDiff B d1.1 (R + N2) Bp N2
    let m3 := multiplyM B d2.1 T (T + N) R (R + N2) N2
    let m4 := multiplyM B m3 R (T + N) (A + N2) (Bp + N2) N2
    topCombine B m4 R T L N N2 (d1.2 == d2.2)

/-- integer.cpp:2474-2477 and 2481-2484, the loops `for (i = i0; i < NB; i += 2*NA) Multiply(D + i, T, A, B + i, NA)`. -/
def mulLoop (B : Nat) (D T A Bp NA NB : Nat) : Nat → WMem → Nat → WMem
  | 0, m, _ => m
  | f + 1, m, i =>
    if i < NB then mulLoop B D T A Bp NA NB f (multiplyM B m (D + i) T A (Bp + i) NA) (i + 2 * NA) else m

/-- integer.cpp:2469-2490: `AsymmetricMultiply` after the operands are ordered and the one-word case is out of the way. -/
def asymBlocks (B : Nat) (m : WMem) (R T A NA Bp NB : Nat) : WMem :=
  let m1 :=
    if NB / NA % 2 = 0 then
      let a := multiplyM B m R T A Bp NA
      let b := mCopy a (T + 2 * NA) (R + NA) NA
      let c := mulLoop B (T + NA) T A Bp NA NB NB b (2 * NA)
      mulLoop B R T A Bp NA NB NB c NA
    else
      let a := mulLoop B R T A Bp NA NB NB m 0
      mulLoop B (T + NA) T A Bp NA NB NB a NA
  let r := mAdd B m1 (R + NA) (R + NA) (T + 2 * NA) (NB - NA)
  if r.2 ≠ 0 then (mInc B r.1 (R + NB) NA 1).1 else r.1

/-- integer.cpp:2449-2490: `AsymmetricMultiply` for `NA < NB`. -/
def asymOrdered (B : Nat) (m : WMem) (R T A NA Bp NB : Nat) : WMem :=
  if NA = 2 ∧ m (A + 1) = 0 then
    if m A = 0 then mZero m R (NB + 2)
    else if m A = 1 then
      let m1 := mCopy m R Bp NB
      setW (setW m1 (R + (NB + 1)) 0) (R + NB) 0
    else
      let r := mLinear B m R Bp (m A) NB
      setW (setW r.1 (R + NB) r.2) (R + (NB + 1)) 0
  else asymBlocks B m R T A NA Bp NB

/-- integer.cpp:2430-2491 `AsymmetricMultiply(R, T, A, NA, B, NB)`. -/
def asymmetricMultiply (B : Nat) (m : WMem) (R T A NA Bp NB : Nat) : WMem :=
  if NA = NB then (if A ≠ Bp then multiplyM B m R T A Bp NA else squareM B m R T A NA)
  else if NA > NB then asymOrdered B m R T Bp NB A NA
  else asymOrdered B m R T A NA Bp NB

/-- integer.cpp:194-195, the loop `for (i=3; i<WORD_BITS; i*=2) R = R*(2-R*A)` on words of `W` bits. -/
def atomicInvLoop (W A : Nat) : Nat → Nat → Nat → Nat
  | 0, R, _ => R
  | f + 1, R, i => if i < W then atomicInvLoop W A f (R * ((2 + (2 ^ W - R * A % 2 ^ W)) % 2 ^ W) % 2 ^ W) (i * 2) else R

/-- integer.cpp:188-199 `AtomicInverseModPower2(A)`. -/
def atomicInverseModPower2 (W A : Nat) : Nat := atomicInvLoop W A W (A % 8) 3

/-- integer.cpp:2497-2521 `RecursiveInverseModPower2(R, T, A, N)`; words of `W` bits. -/
def recInv (W : Nat) : Nat → WMem → Nat → Nat → Nat → Nat → WMem
  | 0, m, _, _, _, _ => m
  | f + 1, m, R, T, A, N =>
    let B := 2 ^ W
    if N ≠ 2 then
      let N2 := N / 2
      let m1 := recInv W f m R T A N2
      let m2 := setW m1 T 1
      let m3 := mZero m2 (T + 1) (N2 - 1)
      let m4 := multiplyTopM B m3 (R + N2) (T + N2) T R A N2
      let m5 := multiplyBottomM B m4 T (T + N2) R (A + N2) N2
      let m6 := (mAdd B m5 T (R + N2) T N2).1
      let m7 := mNeg B m6 T N2
      multiplyBottomM B m7 (R + N2) (T + N2) R T N2
    else
      let m1 := setW m T (atomicInverseModPower2 W (m A))
      let m2 := setW m1 (T + 1) 0
      let m3 := sBot B 0 m2 (T + 2) T A
      let m4 := mNeg B m3 (T + 2) 2
      let m5 := (mInc B m4 (T + 2) 2 2).1
      sBot B 0 m5 R T (T + 2)

/-- integer.cpp:2497-2521 entry point. -/
def recursiveInverseModPower2 (W : Nat) (m : WMem) (R T A N : Nat) : WMem := recInv W N m R T A N

/-- integer.cpp:2529-2541 `MontgomeryReduce(R, T, X, M, U, N)` (the `#if 1` branch); `(0-borrow) & N` is `N` when there was a
borrow and 0 otherwise. -/
def montgomeryReduce (B : Nat) (m : WMem) (R T X M U N : Nat) : WMem :=
  let m1 := multiplyBottomM B m R T X U N
  let m2 := multiplyTopM B m1 T (T + N) X R M N
  let r3 := mSub B m2 T (X + N) T N
  let m4 := (mAdd B r3.1 (T + N) T M N).1
  mCopy m4 R (T + (if r3.2 ≠ 0 then N else 0)) N

end Verif.Integer
