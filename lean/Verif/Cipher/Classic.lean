import Verif.Cipher.Feistel

/-!
# Skipjack, SHACAL-2, 3-Way and IDEA
-/
namespace Verif.Cipher

/-! ## Skipjack -/

namespace Skipjack

/-- skipjack.cpp:86-101 `UncheckedSetKey`: `tab[i*256 + c]` is `fTable[c ^ key[9-i]]`. -/
def tab (key : List Byte) (i : Nat) (c : Nat) : W16 := BitVec.ofNat 16 (entry skipjackF (c ^^^ (key.getD (9 - i) 0).toNat))

/-- skipjack.cpp:47-53 `g(tab, w, i, j, k, l)` -/
def g (t : Nat → Nat → W16) (i j k l : Nat) (w : W16) : W16 :=
  let w := w ^^^ (t i (w &&& 0xff).toNat <<< 8)
  let w := w ^^^ t j (w >>> 8).toNat
  let w := w ^^^ (t k (w &&& 0xff).toNat <<< 8)
  w ^^^ t l (w >>> 8).toNat

/-- skipjack.cpp:64-70 `h(tab, w, i, j, k, l)` -/
def h (t : Nat → Nat → W16) (i j k l : Nat) (w : W16) : W16 :=
  let w := w ^^^ t l (w >>> 8).toNat
  let w := w ^^^ (t k (w &&& 0xff).toNat <<< 8)
  let w := w ^^^ t j (w >>> 8).toNat
  w ^^^ (t i (w &&& 0xff).toNat <<< 8)

/-- skipjack.cpp:55-59, 72-76: the indices of `g0` .. `g4` and `h0` .. `h4`. -/
def bytes4 (n : Nat) : Nat × Nat × Nat × Nat :=
  match n with
  | 0 => (0, 1, 2, 3)
  | 1 => (4, 5, 6, 7)
  | 2 => (8, 9, 0, 1)
  | 3 => (2, 3, 4, 5)
  | _ => (6, 7, 8, 9)

/-- `g0` .. `g4` -/
def gn (t : Nat → Nat → W16) (n : Nat) : W16 → W16 := g t (bytes4 n).1 (bytes4 n).2.1 (bytes4 n).2.2.1 (bytes4 n).2.2.2

/-- `h0` .. `h4` -/
def hn (t : Nat → Nat → W16) (n : Nat) : W16 → W16 := h t (bytes4 n).1 (bytes4 n).2.1 (bytes4 n).2.2.1 (bytes4 n).2.2.2

/-- The word `w`i is word `4 - i` of the block: `Get(w4)(w3)(w2)(w1)`. -/
def at4 (w : Nat) : Nat := 4 - w

/-- A line: `G(a); b ^= a ^ c`, with `G` a permutation of words. -/
def lineA (G : W16 → W16) (a b : Nat) (c : Nat) (l : List W16) : List W16 :=
  let l := l.set (at4 a) (G (wd l (at4 a)))
  l.set (at4 b) (wd l (at4 b) ^^^ (wd l (at4 a) ^^^ BitVec.ofNat 16 c))

/-- A line: `b ^= a ^ c; G(a)`. -/
def lineB (G : W16 → W16) (a b : Nat) (c : Nat) (l : List W16) : List W16 :=
  let l := l.set (at4 b) (wd l (at4 b) ^^^ (wd l (at4 a) ^^^ BitVec.ofNat 16 c))
  l.set (at4 a) (G (wd l (at4 a)))

/-- skipjack.cpp:116-157: kind of line (`true`: rule A), which `g`, `a`, `b`, `c`. -/
def encLines : List (Bool × Nat × Nat × Nat × Nat) :=
  [(true, 0, 1, 4, 1), (true, 1, 4, 3, 2), (true, 2, 3, 2, 3), (true, 3, 2, 1, 4), (true, 4, 1, 4, 5), (true, 0, 4, 3, 6), (true, 1, 3, 2, 7), (true, 2, 2, 1, 8),
   (false, 3, 1, 2, 9), (false, 4, 4, 1, 10), (false, 0, 3, 4, 11), (false, 1, 2, 3, 12), (false, 2, 1, 2, 13), (false, 3, 4, 1, 14), (false, 4, 3, 4, 15), (false, 0, 2, 3, 16),
   (true, 1, 1, 4, 17), (true, 2, 4, 3, 18), (true, 3, 3, 2, 19), (true, 4, 2, 1, 20), (true, 0, 1, 4, 21), (true, 1, 4, 3, 22), (true, 2, 3, 2, 23), (true, 3, 2, 1, 24),
   (false, 4, 1, 2, 25), (false, 0, 4, 1, 26), (false, 1, 3, 4, 27), (false, 2, 2, 3, 28), (false, 3, 1, 2, 29), (false, 4, 4, 1, 30), (false, 0, 3, 4, 31), (false, 1, 2, 3, 32)]

/-- skipjack.cpp:170-211 -/
def decLines : List (Bool × Nat × Nat × Nat × Nat) :=
  [(true, 1, 2, 3, 32), (true, 0, 3, 4, 31), (true, 4, 4, 1, 30), (true, 3, 1, 2, 29), (true, 2, 2, 3, 28), (true, 1, 3, 4, 27), (true, 0, 4, 1, 26), (true, 4, 1, 2, 25),
   (false, 3, 2, 1, 24), (false, 2, 3, 2, 23), (false, 1, 4, 3, 22), (false, 0, 1, 4, 21), (false, 4, 2, 1, 20), (false, 3, 3, 2, 19), (false, 2, 4, 3, 18), (false, 1, 1, 4, 17),
   (true, 0, 2, 3, 16), (true, 4, 3, 4, 15), (true, 3, 4, 1, 14), (true, 2, 1, 2, 13), (true, 1, 2, 3, 12), (true, 0, 3, 4, 11), (true, 4, 4, 1, 10), (true, 3, 1, 2, 9),
   (false, 2, 2, 1, 8), (false, 1, 3, 2, 7), (false, 0, 4, 3, 6), (false, 4, 1, 4, 5), (false, 3, 2, 1, 4), (false, 2, 3, 2, 3), (false, 1, 4, 3, 2), (false, 0, 1, 4, 1)]

/-- One line. -/
def line (G : Nat → W16 → W16) (l : List W16) (s : Bool × Nat × Nat × Nat × Nat) : List W16 :=
  if s.1 then lineA (G s.2.1) s.2.2.1 s.2.2.2.1 s.2.2.2.2 l else lineB (G s.2.1) s.2.2.1 s.2.2.2.1 s.2.2.2.2 l

/-- skipjack.cpp:108-160, 165-214 `ProcessAndXorBlock`, with cryptlib.cpp:58-62 `SetKey`. -/
def setKey (key : List Byte) : Except Err Keyed :=
  if key.length ≠ 10 then .error .invalidArgument
  else .ok (ofWords .little 2 4 (fun l => encLines.foldl (line (gn (tab key))) l) (fun l => decLines.foldl (line (hn (tab key))) l))

end Skipjack

/-! ## SHACAL-2 -/

namespace Shacal2

/-- shacal2.cpp:24 `S0` -/
def bigS0 (x : W32) : W32 := rotr x 2 ^^^ rotr x 13 ^^^ rotr x 22
/-- shacal2.cpp:25 `S1` -/
def bigS1 (x : W32) : W32 := rotr x 6 ^^^ rotr x 11 ^^^ rotr x 25
/-- shacal2.cpp:26 `s0` -/
def smallS0 (x : W32) : W32 := rotr x 7 ^^^ rotr x 18 ^^^ (x >>> 3)
/-- shacal2.cpp:27 `s1` -/
def smallS1 (x : W32) : W32 := rotr x 17 ^^^ rotr x 19 ^^^ (x >>> 10)
/-- shacal2.cpp:29 `Ch` -/
def ch (x y z : W32) : W32 := z ^^^ (x &&& (y ^^^ z))
/-- shacal2.cpp:30 `Maj` -/
def maj (x y z : W32) : W32 := (x &&& y) ||| (z &&& (x ||| y))

/-- shacal2.cpp:62-79 `UncheckedSetKey`: the words `rk[0 .. 64)` from position `i` on; 48 times a word is appended. -/
def expand : Nat → List W32 → List W32
  | 0, rk => rk
  | n + 1, rk =>
    let i := rk.length - 16
    expand n (rk ++ [wd rk i + smallS0 (wd rk (i + 1)) + wd rk (i + 9) + smallS1 (wd rk (i + 14))])

/-- The whole schedule; `K[i]` is added to `rk[i]` after its last use. -/
def schedule (key : List Byte) : List W32 := ((expand 48 (getUserKey .big 4 16 key)).zip shacal2K).map fun p => p.1 + BitVec.ofNat 32 p.2

/-- shacal2.cpp:34-35 `R(a, .., h, k)` where the arguments are the variables `a .. h` rotated `j` places: argument `i` is variable
`(i + 8 - j) % 8`. -/
def r (j : Nat) (k : W32) (l : List W32) : List W32 :=
  let v (i : Nat) : Nat := (i + 8 - j) % 8
  let h := wd l (v 7) + (bigS1 (wd l (v 4)) + ch (wd l (v 4)) (wd l (v 5)) (wd l (v 6)) + k)
  let d := wd l (v 3) + h
  let h := h + (bigS0 (wd l (v 0)) + maj (wd l (v 0)) (wd l (v 1)) (wd l (v 2)))
  (l.set (v 3) d).set (v 7) h

/-- shacal2.cpp:39-40 `P(a, .., h, k)`, in the same way. -/
def p (j : Nat) (k : W32) (l : List W32) : List W32 :=
  let v (i : Nat) : Nat := (i + 8 - j) % 8
  let h := wd l (v 7) - (bigS0 (wd l (v 0)) + maj (wd l (v 0)) (wd l (v 1)) (wd l (v 2)))
  let d := wd l (v 3) - h
  let h := h - (bigS1 (wd l (v 4)) + ch (wd l (v 4)) (wd l (v 5)) (wd l (v 6)) + k)
  (l.set (v 3) d).set (v 7) h

/-- shacal2.cpp:103-113: in turn `j` of the loop, eight rounds. -/
def enc (rk : List W32) (l : List W32) : List W32 :=
  (List.range 8).foldl (fun l j => [0, 1, 2, 3, 4, 5, 6, 7].foldl (fun l i => r i (wd rk (8 * j + i)) l) l) l

/-- shacal2.cpp:135-145: the pointer goes down from `rk + 64`; `P(b, c, .., h, a)` comes first. -/
def dec (rk : List W32) (l : List W32) : List W32 :=
  (List.range 8).foldl (fun l j => [7, 6, 5, 4, 3, 2, 1, 0].foldl (fun l i => p i (wd rk (63 - 8 * j - (7 - i))) l) l) l

/-- SHACAL-2 with cryptlib.cpp:58-62 `SetKey`: 16 to 64 bytes. -/
def setKey (key : List Byte) : Except Err Keyed :=
  if key.length < 16 ∨ 64 < key.length then .error .invalidArgument
  else .ok (ofWords .big 4 8 (enc (schedule key)) (dec (schedule key)))

end Shacal2

/-! ## 3-Way -/

namespace ThreeWay

/-- Three words. -/
abbrev St := W32 × W32 × W32

/-- 3way.cpp:25-30 `reverseBits(a)`: the bits of each byte. -/
def reverseBits (a : W32) : W32 :=
  let a := ((a &&& 0xAAAAAAAA) >>> 1) ||| ((a &&& 0x55555555) <<< 1)
  let a := ((a &&& 0xCCCCCCCC) >>> 2) ||| ((a &&& 0x33333333) <<< 2)
  ((a &&& 0xF0F0F0F0) >>> 4) ||| ((a &&& 0x0F0F0F0F) <<< 4)

/-- misc.h: `ByteReverse(word32)` -/
def byteReverse (a : W32) : W32 := (a <<< 24) ||| ((a &&& 0xff00) <<< 8) ||| ((a >>> 8) &&& 0xff00) ||| (a >>> 24)

/-- 3way.cpp:32-38 `mu` -/
def mu (s : St) : St := (reverseBits s.2.2, reverseBits s.2.1, reverseBits s.1)

/-- 3way.cpp:40-48 `pi_gamma_pi` -/
def piGammaPi (s : St) : St :=
  let b2 := rotl s.2.2 1
  let b0 := rotl s.1 22
  (rotl (b0 ^^^ (s.2.1 ||| ~~~b2)) 1, s.2.1 ^^^ (b2 ||| ~~~b0), rotl (b2 ^^^ (b0 ||| ~~~s.2.1)) 22)

/-- 3way.cpp:51-61 `theta` -/
def theta (s : St) : St :=
  let (a0, a1, a2) := s
  let c := a0 ^^^ a1 ^^^ a2
  let c := rotl c 16 ^^^ rotl c 8
  let b0 := (a0 <<< 24) ^^^ (a2 >>> 8) ^^^ (a1 <<< 8) ^^^ (a0 >>> 24)
  let b1 := (a1 <<< 24) ^^^ (a0 >>> 8) ^^^ (a2 <<< 8) ^^^ (a1 >>> 24)
  (a0 ^^^ (c ^^^ b0), a1 ^^^ (c ^^^ b1), a2 ^^^ (c ^^^ (b0 >>> 16) ^^^ (b1 <<< 16)))

/-- 3way.cpp:63-67 `rho` -/
def rho (s : St) : St := piGammaPi (theta s)

/-- 3way.cpp:98-100: the key and the round constant are added. -/
def addKey (k : St) (rc : W32) (s : St) : St := (s.1 ^^^ (k.1 ^^^ (rc <<< 16)), s.2.1 ^^^ k.2.1, s.2.2 ^^^ (k.2.2 ^^^ rc))

/-- 3way.cpp:103-104: the next round constant. -/
def nextRc (rc : W32) : W32 :=
  let rc := rc <<< 1
  if rc &&& 0x10000 ≠ 0 then rc ^^^ 0x11011 else rc

/-- 3way.cpp:96-109: the rounds and the last addition and `theta`. -/
def rounds (k : St) : Nat → W32 → St → St
  | 0, rc, s => theta (addKey k rc s)
  | n + 1, rc, s => rounds k n (nextRc rc) (rho (addKey k rc s))

/-- The words of a block as a state. -/
def ofList (l : List W32) : St := (wd l 0, wd l 1, wd l 2)
/-- And back. -/
def toList (s : St) : List W32 := [s.1, s.2.1, s.2.2]

/-- 3way.cpp:75-76: the words of the key. -/
def key3 (key : List Byte) : St := ofList (words .big 4 key)

/-- 3way.cpp:78-85: the key for decryption. -/
def decKey (k : St) : St :=
  let k := mu (theta k)
  (byteReverse k.1, byteReverse k.2.1, byteReverse k.2.2)

/-- 3way.cpp:88-112 `Enc::ProcessAndXorBlock`; big-endian words. -/
def enc (k : St) (n : Nat) (b : List Byte) : List Byte := unwords .big 4 (toList (rounds k n 0x0b0b (ofList (words .big 4 b))))

/-- 3way.cpp:114-140 `Dec::ProcessAndXorBlock`; little-endian words. -/
def dec (k : St) (n : Nat) (b : List Byte) : List Byte := unwords .little 4 (toList (mu (rounds (decKey k) n 0xb1b1 (mu (ofList (words .little 4 b))))))

/-- 3way.cpp:69-86 `UncheckedSetKey` with cryptlib.cpp:58-62 `SetKey`; 3way.h:16 `VariableRounds<11>`. -/
def setKey (key : List Byte) (n : Int := 11) : Except Err Keyed := do
  if key.length ≠ 12 then throw .invalidArgument
  let n ← getRounds 1 n
  pure ⟨12, enc (key3 key) n, dec (key3 key) n⟩

end ThreeWay

/-! ## IDEA -/

namespace Idea

/-- The low 16 bits: idea.cpp:12 `low16`. -/
def low16 {w : Nat} (x : BitVec w) : BitVec w := x &&& BitVec.ofNat w 0xffff

/-- idea.cpp:18-29 `DirectMUL(a, b)`; `IDEA::Word` has `w` bits, `p` has 32; the product is
computed with at least 32. -/
def mul {w : Nat} (a b : BitVec w) : BitVec w :=
  let p : BitVec 32 := (low16 a).setWidth 32 * b.setWidth 32
  if p ≠ 0 then
    let p := low16 p - (p >>> 16)
    p.setWidth w - (p >>> 16).setWidth w
  else 1 - a - b

/-- idea.cpp:97-106 `EnKey(userKey)`: words from position `i` on. -/
def enKeyLoop {w : Nat} : Nat → List (BitVec w) → List (BitVec w)
  | 0, k => k
  | n + 1, k =>
    let i := k.length
    let j := i / 8 * 8 - 8
    enKeyLoop n (k ++ [low16 ((wd k (j + (i + 1) % 8) <<< 9) ||| (wd k (j + (i + 2) % 8) >>> 7))])

/-- idea.cpp:94-106 `EnKey(userKey)` -/
def enKey (w : Nat) (key : List Byte) : List (BitVec w) :=
  enKeyLoop 44 ((List.range 8).map fun i => ((key.getD (2 * i) 0).setWidth w <<< 8) ||| (key.getD (2 * i + 1) 0).setWidth w)

/-- idea.cpp:108-117 `MulInv(x)` -/
def mulInv {w : Nat} (x : BitVec w) : BitVec w :=
  low16 (Nat.repeat (fun y => mul (mul y (low16 y)) x) 15 x)

/-- idea.cpp:119-122 `AddInv(x)` -/
def addInv {w : Nat} (x : BitVec w) : BitVec w := low16 (0 - x)

/-- idea.cpp:124-145 `DeKey()` -/
def deKey {w : Nat} (k : List (BitVec w)) : List (BitVec w) :=
  ((List.range 8).flatMap fun i =>
    [mulInv (wd k ((8 - i) * 6)), addInv (wd k ((8 - i) * 6 + 1 + (if i > 0 then 1 else 0))), addInv (wd k ((8 - i) * 6 + 2 - (if i > 0 then 1 else 0))),
     mulInv (wd k ((8 - i) * 6 + 3)), wd k ((8 - 1 - i) * 6 + 4), wd k ((8 - 1 - i) * 6 + 5)]) ++
  [mulInv (wd k 0), addInv (wd k 1), addInv (wd k 2), mulInv (wd k 3)]

/-- Four variables. -/
abbrev St (w : Nat) := BitVec w × BitVec w × BitVec w × BitVec w

/-- idea.cpp:163-176: one round, with the six words of the key from `i * 6` on. -/
def round {w : Nat} (k : List (BitVec w)) (i : Nat) (s : St w) : St w :=
  let (x0, x1, x2, x3) := s
  let x0 := mul x0 (wd k (i * 6))
  let x1 := x1 + wd k (i * 6 + 1)
  let x2 := x2 + wd k (i * 6 + 2)
  let x3 := mul x3 (wd k (i * 6 + 3))
  let t0 := x0 ^^^ x2
  let t0 := mul t0 (wd k (i * 6 + 4))
  let t1 := t0 + (x1 ^^^ x3)
  let t1 := mul t1 (wd k (i * 6 + 5))
  let t0 := t0 + t1
  let x0 := x0 ^^^ t1
  let x3 := x3 ^^^ t0
  let t0 := t0 ^^^ x1
  (x0, x2 ^^^ t1, t0, x3)

/-- idea.cpp:152-186 `ProcessAndXorBlock`: words of 16 bits in and out; the variables have `w` bits. -/
def process {w : Nat} (k : List (BitVec w)) (l : List W16) : List W16 :=
  let s : St w := ((wd l 0).setWidth w, (wd l 1).setWidth w, (wd l 2).setWidth w, (wd l 3).setWidth w)
  let (x0, x1, x2, x3) := (List.range 8).foldl (fun s i => round k i s) s
  let x0 := mul x0 (wd k 48)
  let x2 := x2 + wd k 49
  let x1 := x1 + wd k 50
  let x3 := mul x3 (wd k 51)
  [x0.setWidth 16, x2.setWidth 16, x1.setWidth 16, x3.setWidth 16]

/-- idea.cpp:76-92 `UncheckedSetKey` with cryptlib.cpp:58-62 `SetKey`, without `IDEA_LARGECACHE`; `w` is 64, 32 or 16 bits, by the
platform (idea.h:27-31). -/
def setKey (w : Nat) (key : List Byte) : Except Err Keyed :=
  if key.length ≠ 16 then .error .invalidArgument
  else .ok (ofWords .big 2 4 (process (enKey w key)) (process (deKey (enKey w key))))

end Idea

end Verif.Cipher
