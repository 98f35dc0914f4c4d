import Verif.Integer.DivModel

/-!
# The almost Montgomery inverse and scaling by powers of two modulo an odd number (integer.cpp:2830-2948)
-/
namespace Verif.Integer

/-- integer.cpp:2830-2835 `EvenWordCount(X, N)` (`N` is even in every call; the code would read `X[-1]` for odd `N`). -/
def evenWC (m : WMem) (X : Nat) : Nat → Nat
  | 0 => 0
  | 1 => 1
  | n + 2 => if m (X + n) = 0 ∧ m (X + (n + 1)) = 0 then evenWC m X n else n + 2

/-- misc.h:1072-1120 `TrailingZeros(v)`: the number of low zero bits of a non-zero word of `W` bits (a compiler builtin in the
usual configurations, whose meaning this is). -/
def trailingZeros : Nat → Nat → Nat
  | 0, _ => 0
  | W + 1, v => if v % 2 = 1 then 0 else trailingZeros W (v / 2) + 1

/-- words.h:194-203 `ShiftWordsLeftByWords(r, n, k)` on memory. -/
def mShlWords (m : WMem) (r n k : Nat) : WMem := storeW m r (shiftWordsLeftByWords (loadW m r n) k)

/-- words.h:212-221 `ShiftWordsRightByWords(r, n, k)` on memory. -/
def mShrWords (m : WMem) (r n k : Nat) : WMem := storeW m r (shiftWordsRightByWords (loadW m r n) k)

/-- words.h:149-161 `ShiftWordsLeftByBits(r, n, s)` on memory, with the word shifted out. -/
def mShlC (W : Nat) (m : WMem) (r n s : Nat) : WMem × Nat :=
  let p := shiftWordsLeftByBits W s (loadW m r n)
  (storeW m r p.1, p.2)

/-- The local variables of `AlmostInverse` (integer.cpp:2847-2853); `b`, `c`, `f`, `g` are pointers.  `k` is a natural number; the
code's `unsigned int k` is the same number whenever the result theorem's bound `2*N*W` fits in it. -/
structure AISt where
  m : WMem
  b : Nat
  c : Nat
  f : Nat
  g : Nat
  bcLen : Nat
  fgLen : Nat
  k : Nat
  s : Bool

/-- integer.cpp:2871-2876: the body of the inner loop when `f` is not zero. -/
def aiWordShift (W : Nat) (st : AISt) : AISt :=
  let m1 := mShrWords st.m st.f st.fgLen 1
  let bc := st.bcLen + 2 * (if m1 (st.c + (st.bcLen - 1)) ≠ 0 then 1 else 0)
  { st with m := mShlWords m1 st.c bc 1, bcLen := bc, k := st.k + W }

/-- integer.cpp:2863-2878: `while (!t)`.  `none`: the iteration limit was reached; `some (true, _)`: `f` is zero. -/
def aiInner (W : Nat) : Nat → AISt → Option (Bool × AISt)
  | 0, _ => none
  | n + 1, st =>
    if st.m st.f = 0 then
      if evenWC st.m st.f st.fgLen = 0 then some (true, st) else aiInner W n (aiWordShift W st)
    else some (false, st)

/-- integer.cpp:2894-2898: remove `i` factors of two from `f`. -/
def aiBitShift (W : Nat) (st : AISt) (i : Nat) : AISt :=
  let m1 := mShr W st.m st.f st.fgLen i
  let r := mShlC W m1 st.c st.bcLen i
  { st with
    m := setW r.1 (st.c + st.bcLen) ((r.1 (st.c + st.bcLen) + r.2) % 2 ^ W)
    bcLen := st.bcLen + 2 * (if r.2 ≠ 0 then 1 else 0)
    k := st.k + i }

/-- integer.cpp:2900-2903: swap so that `f >= g`. -/
def aiSwap (st : AISt) : AISt :=
  if mCmp st.m st.f st.g st.fgLen = -1 then { st with f := st.g, g := st.f, b := st.c, c := st.b, s := !st.s } else st

/-- integer.cpp:2905: drop two leading zero words. -/
def aiShrink (st : AISt) : AISt :=
  { st with fgLen := st.fgLen - 2 * (if st.m (st.f + (st.fgLen - 2)) = 0 ∧ st.m (st.f + (st.fgLen - 1)) = 0 then 1 else 0) }

/-- integer.cpp:2907-2910: `f -= g; b += c`. -/
def aiSub (W : Nat) (st : AISt) : AISt :=
  let m1 := (mSub (2 ^ W) st.m st.f st.f st.g st.fgLen).1
  let r := mAdd (2 ^ W) m1 st.b st.b st.c st.bcLen
  { st with
    m := setW r.1 (st.b + st.bcLen) ((r.1 (st.b + st.bcLen) + r.2) % 2 ^ W)
    bcLen := st.bcLen + 2 * r.2 }

/-- integer.cpp:2860-2912: `while (1)`. -/
def aiLoop (W R M N : Nat) : Nat → AISt → Option (WMem × Nat)
  | 0, _ => none
  | n + 1, st =>
    match aiInner W (st.fgLen + 1) st with
    | none => none
    | some (true, st1) => some (mZero st1.m R N, 0)
    | some (false, st1) =>
      let i := trailingZeros W (st1.m st1.f)
      if st1.m st1.f >>> i = 1 ∧ st1.m (st1.f + 1) = 0 ∧ evenWC st1.m (st1.f + 2) (st1.fgLen - 2) = 0 then
        some (if st1.s then (mSub (2 ^ W) st1.m R M st1.b N).1 else mCopy st1.m R st1.b N, st1.k + i)
      else
        aiLoop W R M N n (aiSub W (aiShrink (aiSwap (aiBitShift W st1 i))))

/-- integer.cpp:2843-2912 `AlmostInverse(R, T, A, NA, M, N)`: memory and `k`.  `none` would mean that the loop did not end within
`2*N*W + 2` iterations. -/
def almostInverse (W : Nat) (m : WMem) (R T A NA M N : Nat) : Option (WMem × Nat) :=
  let fgLen := evenWC m M N
  let m1 := setW (mZero m T (3 * N)) T 1
  let m2 := mCopy m1 (T + 2 * N) A NA
  let m3 := mCopy m2 (T + 3 * N) M N
  aiLoop W R M N (2 * N * W + 2) ⟨m3, T, T + N, T + 2 * N, T + 3 * N, 2, fgLen, 0, false⟩

/-- integer.cpp:2922-2933: the loop of `DivideByPower2Mod`. -/
def divPow2Loop (W R M N : Nat) : Nat → WMem → WMem
  | 0, m => m
  | k + 1, m =>
    if m R % 2 = 0 then divPow2Loop W R M N k (mShr W m R N 1)
    else
      let r := mAdd (2 ^ W) m R R M N
      let m2 := mShr W r.1 R N 1
      divPow2Loop W R M N k (setW m2 (R + (N - 1)) ((m2 (R + (N - 1)) + (r.2 <<< (W - 1)) % 2 ^ W) % 2 ^ W))

/-- integer.cpp:2918-2935 `DivideByPower2Mod(R, A, k, M, N)`. -/
def divideByPower2Mod (W : Nat) (m : WMem) (R A k M N : Nat) : WMem := divPow2Loop W R M N k (mCopy m R A N)

/-- integer.cpp:2943-2947: the loop of `MultiplyByPower2Mod`. -/
def mulPow2Loop (W R M N : Nat) : Nat → WMem → WMem
  | 0, m => m
  | k + 1, m =>
    let r := mShlC W m R N 1
    if r.2 ≠ 0 ∨ mCmp r.1 R M N ≥ 0 then mulPow2Loop W R M N k (mSub (2 ^ W) r.1 R R M N).1
    else mulPow2Loop W R M N k r.1

/-- integer.cpp:2939-2948 `MultiplyByPower2Mod(R, A, k, M, N)`. -/
def multiplyByPower2Mod (W : Nat) (m : WMem) (R A k M N : Nat) : WMem := mulPow2Loop W R M N k (mCopy m R A N)

end Verif.Integer
