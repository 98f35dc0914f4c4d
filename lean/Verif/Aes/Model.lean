import Verif.Aes.Tables
import Verif.Cipher.Basic

/-!
# Rijndael: the portable C++ code

Modelled for both byte orders and both forms of the tables (with `CRYPTOPP_ALLOW_RIJNDAEL_UNALIGNED_DATA_ACCESS` and without).
The assembler and vector unit code is not modelled; so are the loops that read the tables to load them into the cache, whose
result `u` is 0.  `m_key` is a function from indices to words.
-/
namespace Verif.Aes
open Verif.Cipher (rotr xorOut)

abbrev W32 := BitVec 32

/-- How the library was built: `CRYPTOPP_BIG_ENDIAN`, and rijndael.cpp:103-105 `CRYPTOPP_ALLOW_RIJNDAEL_UNALIGNED_DATA_ACCESS`. -/
structure Cfg where
  big : Bool
  unaligned : Bool
deriving DecidableEq

/-- misc.h:1000 `GETBYTE`. -/
def getByte (x : W32) (y : Nat) : Byte := (x >>> (8 * y)).setWidth 8

/-- `Se[x]` -/
def se (x : Byte) : Byte := (seTab.getD (x.toNat / 16) []).getD (x.toNat % 16) 0
/-- `Sd[x]` -/
def sd (x : Byte) : Byte := (sdTab.getD (x.toNat / 16) []).getD (x.toNat % 16) 0

/-- rijndael.cpp:238-246 the macros `f2` to `fe`, in `int`. -/
def f2 (x : W32) : W32 := (x <<< 1) ^^^ (((x >>> 7) &&& 1) * 0x11b)
/-- rijndael.cpp:239 -/
def f4 (x : W32) : W32 := (x <<< 2) ^^^ (((x >>> 6) &&& 1) * 0x11b) ^^^ (((x >>> 6) &&& 2) * 0x11b)
/-- rijndael.cpp:240 -/
def f8 (x : W32) : W32 := (x <<< 3) ^^^ (((x >>> 5) &&& 1) * 0x11b) ^^^ (((x >>> 5) &&& 2) * 0x11b) ^^^ (((x >>> 5) &&& 4) * 0x11b)
/-- rijndael.cpp:242 -/
def f3 (x : W32) : W32 := f2 x ^^^ x
/-- rijndael.cpp:243 -/
def f9 (x : W32) : W32 := f8 x ^^^ x
/-- rijndael.cpp:244 -/
def fb (x : W32) : W32 := f8 x ^^^ f2 x ^^^ x
/-- rijndael.cpp:245 -/
def fd (x : W32) : W32 := f8 x ^^^ f4 x ^^^ x
/-- rijndael.cpp:246 -/
def fe (x : W32) : W32 := f8 x ^^^ f4 x ^^^ f2 x

/-- rijndael.cpp:271-292 `FillEncTable` without unaligned access: `Te[i+j*256]`. -/
def te32 (j : Nat) (i : Byte) : W32 :=
  let x := (se i).setWidth 32
  Nat.repeat (fun y => rotr y 8) j (f3 x ||| x <<< 8 ||| x <<< 16 ||| f2 x <<< 24)

/-- rijndael.cpp:271-278 `FillEncTable` with unaligned access: `Te[i]`. -/
def te64 (i : Byte) : BitVec 64 :=
  let x := (se i).setWidth 32
  let y := x <<< 8 ||| x <<< 16 ||| f2 x <<< 24
  (y ||| f3 x).setWidth 64 <<< 32 ||| y.setWidth 64

/-- rijndael.cpp:294-313 `FillDecTable` without unaligned access: `Td[i+j*256]`. -/
def td32 (j : Nat) (i : Byte) : W32 :=
  let x := (sd i).setWidth 32
  Nat.repeat (fun y => rotr y 8) j (fb x ||| fd x <<< 8 ||| f9 x <<< 16 ||| fe x <<< 24)

/-- rijndael.cpp:294-301 `FillDecTable` with unaligned access: `Td[i]`. -/
def td64 (i : Byte) : BitVec 64 :=
  let x := (sd i).setWidth 32
  let y := fd x <<< 8 ||| f9 x <<< 16 ||| fe x <<< 24
  (y ||| fb x).setWidth 64 <<< 32 ||| y.setWidth 64 ||| x.setWidth 64

/-- `*(word32 *)((byte *)&x + k)`, for `k ≤ 4`. -/
def read32 (big : Bool) (x : BitVec 64) (k : Nat) : W32 := (x >>> (8 * if big then 4 - k else k)).setWidth 32

/-- `((byte *)&x)[k]` for a word of `n` bytes. -/
def readByte {n : Nat} (big : Bool) (x : BitVec (8 * n)) (k : Nat) : Byte := (x >>> (8 * if big then n - 1 - k else k)).setWidth 8

/-- rijndael.cpp:220, 230 (unaligned), 223, 233: `TL_M(T, i, x)`. -/
def tlM (c : Cfg) (T32 : Nat → Byte → W32) (T64 : Byte → BitVec 64) (i : Nat) (x : Byte) : W32 :=
  if c.unaligned then read32 c.big (T64 x) (if c.big then (4 - i) % 4 else (i + 3) % 4 + 1) else T32 i x

/-- rijndael.cpp:219, 229 (unaligned), 222, 232: `TL_F(T, i, x)`. -/
def tlF (c : Cfg) (T32 : Nat → Byte → W32) (T64 : Byte → BitVec 64) (i : Nat) (x : Byte) : W32 :=
  if c.unaligned then read32 c.big (T64 x) (if c.big then (4 - i) % 4 else (6 - i) % 4 + 1)
  else rotr (T32 0 x) ((if c.big then i else 3 - i) * 8)

/-- Four words. -/
abbrev W4 := W32 × W32 × W32 × W32

/-- rijndael.cpp:186-190 `QUARTER_ROUND`; `L` is the look-up `L(T, i, x)`.  The last index is the whole of what is left of `t`, a byte. -/
def quarter (L : Nat → Byte → W32) (t a b c d : W32) : W4 :=
  (a ^^^ L 3 (getByte t 0), b ^^^ L 2 (getByte t 1), c ^^^ L 1 (getByte t 2), d ^^^ L 0 (getByte t 3))

/-- rijndael.cpp:216-217, 226-227 `QUARTER_ROUND_FE`, `QUARTER_ROUND_FD`: in little-endian builds the arguments are reversed. -/
def quarterF (big : Bool) (L : Nat → Byte → W32) (t a b c d : W32) : W4 :=
  if big then quarter L t a b c d else
    let (d, c, b, a) := quarter L t d c b a
    (a, b, c, d)

/-- rijndael.cpp:600-603, 611-614, 618-621: four quarter rounds of encryption; `q` is `QUARTER_ROUND_FE` or `QUARTER_ROUND_E`,
`s` the old state, `t` the round key the new state is made on. -/
def encRound (q : W32 → W32 → W32 → W32 → W32 → W4) (s t : W4) : W4 :=
  let (s0, s1, s2, s3) := s
  let (t0, t1, t2, t3) := t
  let (t0, t1, t2, t3) := q s3 t0 t1 t2 t3
  let (t3, t0, t1, t2) := q s2 t3 t0 t1 t2
  let (t2, t3, t0, t1) := q s1 t2 t3 t0 t1
  let (t1, t2, t3, t0) := q s0 t1 t2 t3 t0
  (t0, t1, t2, t3)

/-- rijndael.cpp:702-705, 713-716, 720-723: four quarter rounds of decryption. -/
def decRound (q : W32 → W32 → W32 → W32 → W32 → W4) (s t : W4) : W4 :=
  let (s0, s1, s2, s3) := s
  let (t0, t1, t2, t3) := t
  let (t2, t1, t0, t3) := q s3 t2 t1 t0 t3
  let (t1, t0, t3, t2) := q s2 t1 t0 t3 t2
  let (t0, t3, t2, t1) := q s1 t0 t3 t2 t1
  let (t3, t2, t1, t0) := q s0 t3 t2 t1 t0
  (t0, t1, t2, t3)

/-- Four words of the key from `rk + off`. -/
def four (rk : Nat → W32) (off : Nat) : W4 := (rk off, rk (off + 1), rk (off + 2), rk (off + 3))

/-- rijndael.cpp:605-624, 707-726: the loop `do { ... rk += 8; } while (--r)`, `r` times two rounds. -/
def mainLoop (round : W4 → W4 → W4) (rk : Nat → W32) : Nat → Nat → W4 → W4 × Nat
  | 0, off, t => (t, off)
  | r + 1, off, t =>
    let s := round t (four rk off)
    let t := round s (four rk (off + 4))
    mainLoop round rk r (off + 8) t

/-- `tempBlock[i] = v` -/
def upd (m : Nat → Byte) (i : Nat) (v : Byte) : Nat → Byte := fun k => if k = i then v else m k

/-- rijndael.cpp:192-196 `QUARTER_ROUND_LE`, 198-210 `QUARTER_ROUND_LD`; `L` is the look-up of a byte. -/
def quarterL (L : Byte → Byte) (t : W32) (a b c d : Nat) (m : Nat → Byte) : Nat → Byte :=
  upd (upd (upd (upd m a (L (getByte t 0))) b (L (getByte t 1))) c (L (getByte t 2))) d (L (getByte t 3))

/-- The look-up of `QUARTER_ROUND_LE`: `((byte *)(Te+x))[1]`. -/
def lookLE (c : Cfg) (x : Byte) : Byte := if c.unaligned then readByte (n := 8) c.big (te64 x) 1 else readByte (n := 4) c.big (te32 0 x) 1

/-- The look-up of `QUARTER_ROUND_LD`: `((byte *)(Td+x))[GetNativeByteOrder()*7]` or `Sd[x]`; misc.h:1473-1480 `GetNativeByteOrder` is
0 or 1. -/
def lookLD (c : Cfg) (x : Byte) : Byte := if c.unaligned then readByte (n := 8) c.big (td64 x) (c.big.toNat * 7) else sd x

/-- A word in memory in the native byte order, from its bytes. -/
def native (big : Bool) (b0 b1 b2 b3 : Byte) : W32 := if big then b0 ++ b1 ++ b2 ++ b3 else b3 ++ b2 ++ b1 ++ b0

/-- misc.h `BlockGetAndPut<word32, NativeByteOrder>::Get`. -/
def getBlock (big : Bool) (b : Nat → Byte) : W4 :=
  (native big (b 0) (b 1) (b 2) (b 3), native big (b 4) (b 5) (b 6) (b 7), native big (b 8) (b 9) (b 10) (b 11),
    native big (b 12) (b 13) (b 14) (b 15))

/-- misc.h `BlockGetAndPut<word32, NativeByteOrder>::Put`, without the mask. -/
def putBlock (big : Bool) (w : W4) : List Byte :=
  [w.1, w.2.1, w.2.2.1, w.2.2.2].flatMap fun x => (List.range 4).map (readByte (n := 4) big x)

/-- `s0 ^= rk[0]; ...` -/
def xor4 (s t : W4) : W4 := (s.1 ^^^ t.1, s.2.1 ^^^ t.2.1, s.2.2.1 ^^^ t.2.2.1, s.2.2.2 ^^^ t.2.2.2)

/-- rijndael.cpp:531-635 `Rijndael::Enc::ProcessAndXorBlock`, the portable part. -/
def enc (c : Cfg) (rounds : Nat) (rk : Nat → W32) (mask : Option (List Byte)) (inBlock : List Byte) : List Byte :=
  let s := xor4 (getBlock c.big fun i => inBlock.getD i 0) (four rk 0)
  let t := encRound (quarterF c.big (tlF c te32 te64)) s (four rk 4)
  let ((t0, t1, t2, t3), off) := mainLoop (encRound (quarter (tlM c te32 te64))) rk (rounds / 2 - 1) 8 t
  let m := quarterL (lookLE c) t2 15 2 5 8 fun _ => 0
  let m := quarterL (lookLE c) t1 11 14 1 4 m
  let m := quarterL (lookLE c) t0 7 10 13 0 m
  let m := quarterL (lookLE c) t3 3 6 9 12 m
  xorOut mask (putBlock c.big (xor4 (getBlock c.big m) (four rk off)))

/-- rijndael.cpp:637-748 `Rijndael::Dec::ProcessAndXorBlock`, the portable part. -/
def dec (c : Cfg) (rounds : Nat) (rk : Nat → W32) (mask : Option (List Byte)) (inBlock : List Byte) : List Byte :=
  let s := xor4 (getBlock c.big fun i => inBlock.getD i 0) (four rk 0)
  let t := decRound (quarterF c.big (tlF c td32 td64)) s (four rk 4)
  let ((t0, t1, t2, t3), off) := mainLoop (decRound (quarter (tlM c td32 td64))) rk (rounds / 2 - 1) 8 t
  let m := quarterL (lookLD c) t2 7 2 13 8 fun _ => 0
  let m := quarterL (lookLD c) t1 3 14 9 4 m
  let m := quarterL (lookLD c) t0 15 10 5 0 m
  let m := quarterL (lookLD c) t3 11 6 1 12 m
  xorOut mask (putBlock c.big (xor4 (getBlock c.big m) (four rk off)))

/-- rijndael.cpp:456-457 `x` in the key schedule: the bytes 2, 1, 0, 3 through the table. -/
def subRot (temp : W32) : W32 :=
  ((se (getByte temp 2)).setWidth 32 <<< 24) ^^^ ((se (getByte temp 1)).setWidth 32 <<< 16) ^^^
    ((se (getByte temp 0)).setWidth 32 <<< 8) ^^^ (se (getByte temp 3)).setWidth 32

/-- rijndael.cpp:474 the same without the rotation. -/
def subOnly (temp : W32) : W32 :=
  ((se (getByte temp 3)).setWidth 32 <<< 24) ^^^ ((se (getByte temp 2)).setWidth 32 <<< 16) ^^^
    ((se (getByte temp 1)).setWidth 32 <<< 8) ^^^ (se (getByte temp 0)).setWidth 32

/-- rijndael.cpp:453-480 the loop of the key schedule.  `l` are the words of `m_key` written so far, `rk` is the offset of the pointer,
`nk = keyLen/4`, `size` the size of `m_key`.  The loop ends with an access beyond `rcon` if it does not end before. -/
def schedule (nk size : Nat) : List W32 → Nat → List W32 → Except Err (List W32)
  | [], _, _ => .error .undefinedBehaviour
  | rc :: rcs, rk, l =>
    let l := l ++ [l.getD rk 0 ^^^ subRot (l.getD (rk + (nk - 1)) 0) ^^^ rc]
    let l := l ++ [l.getD (rk + 1) 0 ^^^ l.getD (rk + nk) 0]
    let l := l ++ [l.getD (rk + 2) 0 ^^^ l.getD (rk + (nk + 1)) 0]
    let l := l ++ [l.getD (rk + 3) 0 ^^^ l.getD (rk + (nk + 2)) 0]
    if rk + nk + 4 = size then .ok l else
    let l := if nk = 6 then
        let l := l ++ [l.getD (rk + 4) 0 ^^^ l.getD (rk + 9) 0]
        l ++ [l.getD (rk + 5) 0 ^^^ l.getD (rk + 10) 0]
      else if nk = 8 then
        let l := l ++ [l.getD (rk + 4) 0 ^^^ subOnly (l.getD (rk + 11) 0)]
        let l := l ++ [l.getD (rk + 5) 0 ^^^ l.getD (rk + 12) 0]
        let l := l ++ [l.getD (rk + 6) 0 ^^^ l.getD (rk + 13) 0]
        l ++ [l.getD (rk + 7) 0 ^^^ l.getD (rk + 14) 0]
      else l
    schedule nk size rcs (rk + nk) l

/-- misc.h `GetUserKey(BIG_ENDIAN_ORDER, rk, keyLen/4, userKey, keyLen)`. -/
def userKey (key : List Byte) : List W32 :=
  (List.range (key.length / 4)).map fun i => native true (key.getD (4 * i) 0) (key.getD (4 * i + 1) 0) (key.getD (4 * i + 2) 0) (key.getD (4 * i + 3) 0)

/-- misc.h `ConditionalByteReverse(BIG_ENDIAN_ORDER, x)`. -/
def condReverse (big : Bool) (x : W32) : W32 := if big then x else getByte x 0 ++ getByte x 1 ++ getByte x 2 ++ getByte x 3

/-- rijndael.cpp:497-499 `InverseMixColumn`. -/
def inverseMixColumn (c : Cfg) (x : W32) : W32 :=
  tlM c td32 td64 0 (se (getByte x 3)) ^^^ tlM c td32 td64 1 (se (getByte x 2)) ^^^
    tlM c td32 td64 2 (se (getByte x 1)) ^^^ tlM c td32 td64 3 (se (getByte x 0))

/-- `temp = f(rk[i]); rk[i] = f(rk[j]); rk[j] = temp;` -/
def swapWith (f : W32 → W32) (rk : Nat → W32) (i j : Nat) : Nat → W32 :=
  fun k => if k = j then f (rk i) else if k = i then f (rk j) else rk k

/-- The four lines of rijndael.cpp:504-507 (`o` is 0, 1, 2, 3). -/
def swapFour (f : W32 → W32) (rk : Nat → W32) (i j : Nat) : Nat → W32 :=
  swapWith f (swapWith f (swapWith f (swapWith f rk i j) (i + 1) (j + 1)) (i + 2) (j + 2)) (i + 3) (j + 3)

/-- rijndael.cpp:502-508 `for (i = 4, j = 4*m_rounds-4; i < j; i += 4, j -= 4)`; `fuel` bounds the number of turns.
Returns the key and `i`. -/
def revLoop (f : W32 → W32) : Nat → (Nat → W32) → Nat → Nat → (Nat → W32) × Nat
  | 0, rk, i, _ => (rk, i)
  | fuel + 1, rk, i, j => if i < j then revLoop f fuel (swapFour f rk i j) (i + 4) (j - 4) else (rk, i)

/-- rijndael.cpp:492-519: the key of the inverse cipher. -/
def revKey (c : Cfg) (rounds : Nat) (rk : Nat → W32) : Nat → W32 :=
  let (rk, i) := revLoop (inverseMixColumn c) rounds rk 4 (4 * rounds - 4)
  let rk := fun k => if i ≤ k ∧ k < i + 4 then inverseMixColumn c (rk k) else rk k
  swapFour (condReverse c.big) rk 0 (4 * rounds)

/-- rijndael.cpp:396-529 `Rijndael::Base::UncheckedSetKey`, the portable part: `m_rounds` and `m_key`. -/
def setKey (c : Cfg) (forward : Bool) (key : List Byte) : Except Err (Nat × (Nat → W32)) :=
  if key.length = 16 ∨ key.length = 24 ∨ key.length = 32 then do
    let rounds := key.length / 4 + 6
    let l ← schedule (key.length / 4) (4 * (rounds + 1)) rconTab 0 (userKey key)
    let rk := fun i => l.getD i 0
    if forward then
      .ok (rounds, fun i => if i < 4 ∨ rounds * 4 ≤ i then condReverse c.big (rk i) else rk i)
    else .ok (rounds, revKey c rounds rk)
  else .error .invalidArgument

end Verif.Aes
