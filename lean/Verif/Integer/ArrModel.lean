import Verif.Integer.Value

/-!
# Model of the word-array routines of integer.cpp and words.h

A word is a `Nat` below the base `B = 2^WORD_BITS`; every result is reduced explicitly where the C++ type wraps.  Arrays
are lists.  A routine that overwrites its argument returns the new contents.  Reading all operands before writing the
result is faithful for the in-place calls the library makes because each loop reads index `i` before writing index `i`.
-/
namespace Verif.Integer

/-- integer.cpp:144-153 `Compare(A, B, N)`: from the most significant word down. -/
def compareW (A Bs : List Nat) : Nat → Int
  | 0 => 0
  | n + 1 =>
    if A.getD n 0 > Bs.getD n 0 then 1
    else if A.getD n 0 < Bs.getD n 0 then -1
    else compareW A Bs n

/-- integer.cpp:161-163, the carry loop of `Increment`. -/
def incRest (B : Nat) : List Nat → List Nat × Nat
  | [] => ([], 1)
  | w :: ws =>
    if (w + 1) % B ≠ 0 then ((w + 1) % B :: ws, 0)
    else
      let r := incRest B ws
      ((w + 1) % B :: r.1, r.2)

/-- integer.cpp:155-166 `Increment(A, N, b)` on the `N` words of the list.  `N = 0` fails the assertion of line 157 and is
given no meaning here (the result is the empty array). -/
def increment (B : Nat) (b : Nat) : List Nat → List Nat × Nat
  | [] => ([], 0)
  | t :: ws =>
    if (t + b) % B ≥ t then ((t + b) % B :: ws, 0)
    else
      let r := incRest B ws
      ((t + b) % B :: r.1, r.2)

/-- integer.cpp:174-176, the borrow loop of `Decrement`: `if (A[i]--) return 0;`. -/
def decRest (B : Nat) : List Nat → List Nat × Nat
  | [] => ([], 1)
  | w :: ws =>
    if w ≠ 0 then ((w + (B - 1)) % B :: ws, 0)
    else
      let r := decRest B ws
      ((w + (B - 1)) % B :: r.1, r.2)

/-- integer.cpp:168-179 `Decrement(A, N, b)`; `t - b` wraps. -/
def decrement (B : Nat) (b : Nat) : List Nat → List Nat × Nat
  | [] => ([], 0)
  | t :: ws =>
    if (t + (B - b)) % B ≤ t then ((t + (B - b)) % B :: ws, 0)
    else
      let r := decRest B ws
      ((t + (B - b)) % B :: r.1, r.2)

/-- integer.cpp:181-186 `TwosComplement`: decrement, then complement every word. -/
def twosComplement (B : Nat) (A : List Nat) : List Nat :=
  (decrement B 1 A).1.map fun w => B - 1 - w

/-- integer.cpp:244 `AddWithCarry(u, a, b)`: `t = a+b; u0 = t+u1; u1 = (t<a) + (u0<t)`.  Returns `(u0, u1)`. -/
def addWithCarry (B : Nat) (u a b : Nat) : Nat × Nat :=
  let t := (a + b) % B
  let u0 := (t + u) % B
  (u0, (if t < a then 1 else 0) + (if u0 < t then 1 else 0))

/-- integer.cpp:245 `SubtractWithBorrow(u, a, b)`: `t = a-b; u0 = t-u1; u1 = (t>a) + (u0>t)`. -/
def subtractWithBorrow (B : Nat) (u a b : Nat) : Nat × Nat :=
  let t := (a + (B - b)) % B
  let u0 := (t + (B - u)) % B
  (u0, (if t > a then 1 else 0) + (if u0 > t then 1 else 0))

/-- integer.cpp:941-947, `k` iterations of the loop of `Baseline_Add`, two words each. -/
def addPairs (B : Nat) : Nat → Nat → List Nat → List Nat → List Nat × Nat
  | 0, u, _, _ => ([], u)
  | k + 1, u, A, Bs =>
    let s := addWithCarry B u (A.getD 0 0) (Bs.getD 0 0)
    let t := addWithCarry B s.2 (A.getD 1 0) (Bs.getD 1 0)
    let r := addPairs B k t.2 (A.drop 2) (Bs.drop 2)
    (s.1 :: t.1 :: r.1, r.2)

/-- integer.cpp:935-949 `Baseline_Add(N, C, A, B)`: the loop `i < N; i += 2` runs `⌈N/2⌉` times, so an odd `N` touches one
word too many.  Returns the words written to `C` and the carry. -/
def baselineAdd (B N : Nat) (A Bs : List Nat) : List Nat × Nat := addPairs B ((N + 1) / 2) 0 A Bs

/-- integer.cpp:957-963, the loop of `Baseline_Sub`. -/
def subPairs (B : Nat) : Nat → Nat → List Nat → List Nat → List Nat × Nat
  | 0, u, _, _ => ([], u)
  | k + 1, u, A, Bs =>
    let s := subtractWithBorrow B u (A.getD 0 0) (Bs.getD 0 0)
    let t := subtractWithBorrow B s.2 (A.getD 1 0) (Bs.getD 1 0)
    let r := subPairs B k t.2 (A.drop 2) (Bs.drop 2)
    (s.1 :: t.1 :: r.1, r.2)

/-- integer.cpp:951-965 `Baseline_Sub(N, C, A, B)`. -/
def baselineSub (B N : Nat) (A Bs : List Nat) : List Nat × Nat := subPairs B ((N + 1) / 2) 0 A Bs

/-- integer.cpp:968-983 `LinearMultiply(C, A, b, N)` on the words of the list: product words and final carry. -/
def linearMultiply (B : Nat) (b : Nat) : Nat → List Nat → List Nat × Nat
  | carry, [] => ([], carry)
  | carry, a :: as =>
    let p := a * b + carry
    let r := linearMultiply B b (p / B) as
    (p % B :: r.1, r.2)

/-- words.h:21-26 `CountWords(x, n)`: drop leading (most significant) zero words. -/
def countWordsN (A : List Nat) : Nat → Nat
  | 0 => 0
  | n + 1 => if A.getD n 0 = 0 then countWordsN A n else n + 1

/-- words.h:21-26 on a whole array. -/
def countWords (A : List Nat) : Nat := countWordsN A A.length

/-- `CopyWords(r + off, src, n)` (words.h:48-56) and the result of any routine that overwrites `r[off, off + n)`. -/
def writeAt (r : List Nat) (off : Nat) (src : List Nat) : List Nat :=
  r.take off ++ src ++ r.drop (off + src.length)

/-- words.h:149-161 `ShiftWordsLeftByBits`, the loop: `W` is `WORD_BITS`, `s = shiftBits`. -/
def shlLoop (W s : Nat) : Nat → List Nat → List Nat × Nat
  | carry, [] => ([], carry)
  | carry, u :: us =>
    let r := shlLoop W s (u >>> (W - s)) us
    (((u <<< s) % 2 ^ W ||| carry) :: r.1, r.2)

/-- words.h:149-161 `ShiftWordsLeftByBits(r, n, shiftBits)` on the `n` words of the list. -/
def shiftWordsLeftByBits (W s : Nat) (A : List Nat) : List Nat × Nat :=
  if s ≠ 0 then shlLoop W s 0 A else (A, 0)

/-- words.h:172-184, the loop of `ShiftWordsRightByBits`, over the words from the most significant down. -/
def shrLoop (W s : Nat) : Nat → List Nat → List Nat
  | _, [] => []
  | carry, u :: us => (u >>> s ||| carry) :: shrLoop W s ((u <<< (W - s)) % 2 ^ W) us

/-- words.h:172-184 `ShiftWordsRightByBits(r, n, shiftBits)`; the word shifted out is not used by the modelled callers. -/
def shiftWordsRightByBits (W s : Nat) (A : List Nat) : List Nat :=
  if s ≠ 0 then (shrLoop W s 0 A.reverse).reverse else A

/-- words.h:194-203 `ShiftWordsLeftByWords(r, n, shiftWords)` on the `n` words of the list. -/
def shiftWordsLeftByWords (A : List Nat) (k : Nat) : List Nat :=
  List.replicate (min k A.length) 0 ++ A.take (A.length - min k A.length)

/-- words.h:212-221 `ShiftWordsRightByWords(r, n, shiftWords)` on the `n` words of the list. -/
def shiftWordsRightByWords (A : List Nat) (k : Nat) : List Nat :=
  A.drop (min k A.length) ++ List.replicate (min k A.length) 0

end Verif.Integer
