import Verif.Cipher.Feistel
import Verif.Cipher.Arx
import Verif.Cipher.ModernTables

/-!
# SM4, SEED, Twofish, MARS, Camellia

The C++ code of `ProcessAndXorBlock` (not the AES-NI code of SM4); reads that only load tables into the cache are left out.
-/
namespace Verif.Cipher

/-- Four words. -/
abbrev Q32 := W32 × W32 × W32 × W32

/-- A word of a table. -/
def tab (t : List (List Nat)) (i : Nat) : W32 := BitVec.ofNat 32 (entry t i)

/-! ## SM4 -/

namespace Sm4

/-- sm4.cpp:57-60 `SM4_H` -/
def h (x : W32) : W32 := (tab sm4S (byteAt x 3) <<< 24) ||| (tab sm4S (byteAt x 2) <<< 16) ||| (tab sm4S (byteAt x 1) <<< 8) ||| tab sm4S (byteAt x 0)

/-- sm4.cpp:62-66 `SM4_G` -/
def g (x : W32) : W32 := let t := h x; t ^^^ rotl t 13 ^^^ rotl t 23

/-- sm4.cpp:68-72 `SM4_F` -/
def f (x : W32) : W32 := let t := h x; t ^^^ rotl t 2 ^^^ rotl t 10 ^^^ rotl t 18 ^^^ rotl t 24

/-- sm4.cpp:77-83 `SM4_Round<R, true>` -/
def roundF (k : List W32) (R : Nat) (s : Q32) : Q32 :=
  let (w0, w1, w2, w3) := s
  let w0 := w0 ^^^ f (w1 ^^^ w2 ^^^ w3 ^^^ nth k (R + 0))
  let w1 := w1 ^^^ f (w0 ^^^ w2 ^^^ w3 ^^^ nth k (R + 1))
  let w2 := w2 ^^^ f (w0 ^^^ w1 ^^^ w3 ^^^ nth k (R + 2))
  let w3 := w3 ^^^ f (w0 ^^^ w1 ^^^ w2 ^^^ nth k (R + 3))
  (w0, w1, w2, w3)

/-- sm4.cpp:84-90 `SM4_Round<R, false>` -/
def roundB (k : List W32) (R : Nat) (s : Q32) : Q32 :=
  let (w0, w1, w2, w3) := s
  let w0 := w0 ^^^ f (w1 ^^^ w2 ^^^ w3 ^^^ nth k (R - 0))
  let w1 := w1 ^^^ f (w0 ^^^ w2 ^^^ w3 ^^^ nth k (R - 1))
  let w2 := w2 ^^^ f (w0 ^^^ w1 ^^^ w3 ^^^ nth k (R - 2))
  let w3 := w3 ^^^ f (w0 ^^^ w1 ^^^ w2 ^^^ nth k (R - 3))
  (w0, w1, w2, w3)

/-- The order in which the words are put. -/
def rev (s : Q32) : Q32 := let (a, b, c, d) := s; (d, c, b, a)

/-- sm4.cpp:136-165 `Enc::ProcessAndXorBlock`, on words -/
def enc (k : List W32) (s : Q32) : Q32 := rev (upto 8 (fun i => roundF k (4 * i)) s)

/-- sm4.cpp:167-196 `Dec::ProcessAndXorBlock`, on words -/
def dec (k : List W32) (s : Q32) : Q32 := rev (upto 8 (fun i => roundB k (31 - 4 * i)) s)

/-- sm4.cpp:126-133: `n` times the body of the loop; the words of the keys in order. -/
def keys : Nat → Nat → Q32 → List W32
  | 0, _, _ => []
  | n + 1, i, (w0, w1, w2, w3) =>
    let w0 := w0 ^^^ g (w1 ^^^ w2 ^^^ w3 ^^^ tab sm4CK i)
    let w1 := w1 ^^^ g (w2 ^^^ w3 ^^^ w0 ^^^ tab sm4CK (i + 1))
    let w2 := w2 ^^^ g (w3 ^^^ w0 ^^^ w1 ^^^ tab sm4CK (i + 2))
    let w3 := w3 ^^^ g (w0 ^^^ w1 ^^^ w2 ^^^ tab sm4CK (i + 3))
    w0 :: w1 :: w2 :: w3 :: keys n (i + 4) (w0, w1, w2, w3)

/-- sm4.cpp:113-134 `UncheckedSetKey` -/
def schedule (key : List Byte) : List W32 :=
  let u := getUserKey .big 4 4 key
  keys 8 0 (wd u 0 ^^^ 0xa3b1bac6, wd u 1 ^^^ 0x56aa3350, wd u 2 ^^^ 0x677d9197, wd u 3 ^^^ 0xb27022dc)

/-- `SetKey` (cryptlib.cpp:58-62, sm4.h:31) and the two directions -/
def setKey (key : List Byte) : Except Err Keyed :=
  if key.length ≠ 16 then .error .invalidArgument else .ok (ofWords .big 4 4 (on4 (enc (schedule key))) (on4 (dec (schedule key))))

end Sm4

/-! ## SEED -/

namespace Seed

/-- seed.cpp:53-57 `SS0` .. `SS3`, `G` -/
def g (x : W32) : W32 :=
  ((tab seedS0 (byteAt x 0) * 0x01010101) &&& 0x3FCFF3FC) ^^^ ((tab seedS1 (byteAt x 1) * 0x01010101) &&& 0xFC3FCFF3) ^^^
    ((tab seedS0 (byteAt x 2) * 0x01010101) &&& 0xF3FC3FCF) ^^^ ((tab seedS1 (byteAt x 3) * 0x01010101) &&& 0xCFF3FC3F)

/-- seed.cpp:79-90: the pairs of words of the keys, from round `i`, `n` of them. -/
def keys : Nat → Nat → W64 → W64 → List (W32 × W32)
  | 0, _, _, _ => []
  | n + 1, i, key01, key23 =>
    let t0 := (key01 >>> 32).setWidth 32 + (key23 >>> 32).setWidth 32 - tab seedKC i
    let t1 := key01.setWidth 32 - key23.setWidth 32 + tab seedKC i
    (g t0, g t1) :: (if i % 2 = 1 then keys n (i + 1) key01 (rotl key23 8) else keys n (i + 1) (rotr key01 8) key23)

/-- seed.cpp:63-91 `UncheckedSetKey`; decryption writes the pairs from the end of `m_k` (71-75). -/
def schedule (forward : Bool) (key : List Byte) : List (W32 × W32) :=
  let u := words .big 8 key
  let k := keys 16 0 (wd u 0) (wd u 1)
  if forward then k else k.reverse

/-- seed.cpp:101-103: what is added to the other half. -/
def f (k : W32 × W32) (b0 b1 : W32) : W32 × W32 :=
  let t0 := b0 ^^^ k.1
  let t1 := b1 ^^^ k.2 ^^^ t0
  let t1 := g t1
  let t0 := t0 + t1
  let t0 := g t0
  let t1 := t1 + t0
  let t1 := g t1
  (t0 + t1, t1)

/-- seed.cpp:99-108: the body of the loop with `i` halved. -/
def body (k : List (W32 × W32)) (i : Nat) (s : Q32) : Q32 :=
  let (a0, a1, b0, b1) := s
  let t := f (k.getD (2 * i) (0, 0)) b0 b1
  let a0 := a0 ^^^ t.1
  let a1 := a1 ^^^ t.2
  let t := f (k.getD (2 * i + 1) (0, 0)) a0 a1
  let b0 := b0 ^^^ t.1
  let b1 := b1 ^^^ t.2
  (a0, a1, b0, b1)

/-- The order in which the words are put. -/
def swap (s : Q32) : Q32 := let (a0, a1, b0, b1) := s; (b0, b1, a0, a1)

/-- seed.cpp:93-111 `ProcessAndXorBlock`, on words -/
def process (k : List (W32 × W32)) (s : Q32) : Q32 := swap (upto 8 (body k) s)

/-- `SetKey` (cryptlib.cpp:58-62, seed.h:17) and the two directions -/
def setKey (key : List Byte) : Except Err Keyed :=
  if key.length ≠ 16 then .error .invalidArgument else .ok (ofWords .big 4 4 (on4 (process (schedule true key))) (on4 (process (schedule false key))))

end Seed

/-! ## Twofish -/

namespace Twofish

/-- twofish.cpp:13-19 `Mod` -/
def mod (c : W32) : W32 :=
  let c2 := (c <<< 1) ^^^ (if c &&& 0x80 ≠ 0 then 0x14d else 0)
  let c1 := c2 ^^^ (c >>> 1) ^^^ (if c &&& 1 ≠ 0 then 0x14d >>> 1 else 0)
  c ||| (c1 <<< 8) ||| (c2 <<< 16) ||| (c1 <<< 24)

/-- twofish.cpp:23-31 `ReedSolomon` -/
def reedSolomon (high low : W32) : W32 :=
  (upto 8 (fun _ (s : W32 × W32) => (mod (s.1 >>> 24) ^^^ (s.1 <<< 8) ^^^ (s.2 >>> 24), s.2 <<< 8)) (high, low)).1

/-- `q` (twofish.h:35) -/
def q (a : Nat) (i : Nat) : W32 := if a = 0 then tab twofishQ0 i else tab twofishQ1 i

/-- twofish.cpp:38 `Q` -/
def Q (a b c d : Nat) (t : W32) : W32 := q a (byteAt t 0) ^^^ (q b (byteAt t 1) <<< 8) ^^^ (q c (byteAt t 2) <<< 16) ^^^ (q d (byteAt t 3) <<< 24)

/-- twofish.cpp:33-47 `h0` with the pointer `key + o` -/
def h0 (x : W32) (key : List W32) (o len : Nat) : W32 :=
  let x := x ||| (x <<< 8) ||| (x <<< 16) ||| (x <<< 24)
  let x := if len = 4 then Q 1 0 0 1 x ^^^ nth key (o + 6) else x
  let x := if 3 ≤ len then Q 1 1 0 0 x ^^^ nth key (o + 4) else x
  let x := Q 0 1 0 1 x ^^^ nth key (o + 2)
  Q 0 0 1 1 x ^^^ nth key (o + 0)

/-- `mds` (twofish.h:36) -/
def mds (a i : Nat) : W32 := tab (match a with | 0 => twofishMds0 | 1 => twofishMds1 | 2 => twofishMds2 | _ => twofishMds3) i

/-- twofish.cpp:49-53 `h` -/
def h (x : W32) (key : List W32) (o len : Nat) : W32 :=
  let x := h0 x key o len
  mds 0 (byteAt x 0) ^^^ mds 1 (byteAt x 1) ^^^ mds 2 (byteAt x 2) ^^^ mds 3 (byteAt x 3)

/-- twofish.cpp:63-70: the words `m_k`. -/
def roundKeys (key : List W32) (len : Nat) : List W32 :=
  (List.range 20).flatMap fun i =>
    let a := h (BitVec.ofNat 32 (2 * i)) key 0 len
    let b := rotl (h (BitVec.ofNat 32 (2 * i + 1)) key 1 len) 8
    [a + b, rotl (a + 2 * b) 9]

/-- twofish.cpp:72-74: the words `svec`, whose odd ones are not set (and not read). -/
def svec (key : List W32) (len : Nat) : List W32 :=
  (List.range len).reverse.flatMap fun i => [reedSolomon (nth key (2 * i + 1)) (nth key (2 * i)), 0]

/-- twofish.cpp:75-82: `m_s[b*256 + i]`, computed when it is read instead of tabulated. -/
def ms (sv : List W32) (len b i : Nat) : W32 := mds b (byteAt (h0 (BitVec.ofNat 32 i) sv 0 len) b)

/-- twofish.cpp:85 `G1` for a table `S b i = m_s[b*256 + i]` -/
def g1 (S : Nat → Nat → W32) (x : W32) : W32 := S 0 (byteAt x 0) ^^^ S 1 (byteAt x 1) ^^^ S 2 (byteAt x 2) ^^^ S 3 (byteAt x 3)
/-- twofish.cpp:86 `G2` -/
def g2 (S : Nat → Nat → W32) (x : W32) : W32 := S 0 (byteAt x 3) ^^^ S 1 (byteAt x 0) ^^^ S 2 (byteAt x 1) ^^^ S 3 (byteAt x 2)

/-- twofish.cpp:88-93 `ENCROUND`; `k` points 8 words into `m_k`. -/
def encRound (S : Nat → Nat → W32) (k : List W32) (n : Nat) (s : Q32) : Q32 :=
  let (a, b, c, d) := s
  let x := g1 S a
  let y := g2 S b
  let x := x + y
  let y := y + (x + nth k (8 + (2 * n + 1)))
  let c := c ^^^ (x + nth k (8 + 2 * n))
  let c := rotr c 1
  let d := rotl d 1 ^^^ y
  (a, b, c, d)

/-- twofish.cpp:99-105 `DECROUND` -/
def decRound (S : Nat → Nat → W32) (k : List W32) (n : Nat) (s : Q32) : Q32 :=
  let (a, b, c, d) := s
  let x := g1 S a
  let y := g2 S b
  let x := x + y
  let y := y + x
  let d := d ^^^ (y + nth k (8 + (2 * n + 1)))
  let d := rotr d 1
  let c := rotl c 1
  let c := c ^^^ (x + nth k (8 + 2 * n))
  (a, b, c, d)

/-- The pairs of variables exchanged. -/
def swap (s : Q32) : Q32 := let (a, b, c, d) := s; (c, d, a, b)

/-- twofish.cpp:95-97 `ENCCYCLE` -/
def encCycle (S : Nat → Nat → W32) (k : List W32) (n : Nat) (s : Q32) : Q32 := swap (encRound S k (2 * n + 1) (swap (encRound S k (2 * n) s)))

/-- twofish.cpp:107-109 `DECCYCLE` -/
def decCycle (S : Nat → Nat → W32) (k : List W32) (n : Nat) (s : Q32) : Q32 := decRound S k (2 * n) (swap (decRound S k (2 * n + 1) (swap s)))

/-- twofish.cpp:113-140 `Enc::ProcessAndXorBlock`, on words -/
def enc (S : Nat → Nat → W32) (k : List W32) (s : Q32) : Q32 :=
  let (a, b, c, d) := s
  let (a, b, c, d) := upto 8 (encCycle S k) (a ^^^ nth k 0, b ^^^ nth k 1, c ^^^ nth k 2, d ^^^ nth k 3)
  (c ^^^ nth k 4, d ^^^ nth k 5, a ^^^ nth k 6, b ^^^ nth k 7)

/-- twofish.cpp:142-169 `Dec::ProcessAndXorBlock`, on words -/
def dec (S : Nat → Nat → W32) (k : List W32) (s : Q32) : Q32 :=
  let (c, d, a, b) := s
  let (a, b, c, d) := downto 8 (decCycle S k) (a ^^^ nth k 6, b ^^^ nth k 7, c ^^^ nth k 4, d ^^^ nth k 5)
  (a ^^^ nth k 0, b ^^^ nth k 1, c ^^^ nth k 2, d ^^^ nth k 3)

/-- `SetKey` (cryptlib.cpp:58-62, twofish.h:16, twofish.cpp:55-62) and the two directions -/
def setKey (key : List Byte) : Except Err Keyed :=
  if key.length ≠ 16 ∧ key.length ≠ 24 ∧ key.length ≠ 32 then .error .invalidArgument
  else
    let len := if key.length ≤ 16 then 2 else if key.length ≤ 24 then 3 else 4
    let u := getUserKey .little 4 (len * 2) key
    let k := roundKeys u len
    let sv := svec u len
    .ok (ofWords .little 4 4 (on4 (enc (ms sv len) k)) (on4 (dec (ms sv len) k)))

end Twofish

/-! ## MARS -/

namespace Mars

/-- mars.cpp:50 `S` -/
def sb (a : W32) : W32 := tab marsS (a.toNat % 512)
/-- mars.cpp:51 `S0`, of byte `i` -/
def s0 (a : W32) (i : Nat) : W32 := tab marsS (byteAt a i)
/-- mars.cpp:52 `S1`, of byte `i` -/
def s1 (a : W32) (i : Nat) : W32 := tab marsS (byteAt a i + 256)

/-- mars.cpp:23-25: the linear transformation. -/
def linear (j : Nat) (T : List W32) : List W32 :=
  upto 15 (fun i T => T.set i (nth T i ^^^ rotl (nth T ((i + 8) % 15) ^^^ nth T ((i + 13) % 15)) 3 ^^^ BitVec.ofNat 32 (4 * i + j))) T

/-- mars.cpp:27-30: four rounds of stirring. -/
def stir (T : List W32) : List W32 :=
  upto 4 (fun _ T => upto 15 (fun i T => T.set i (rotl (nth T i + sb (nth T ((i + 14) % 15))) 9)) T) T

/-- mars.cpp:20-35: ten words each time. -/
def keyWords : Nat → Nat → List W32 → List W32
  | 0, _, _ => []
  | n + 1, j, T =>
    let T := stir (linear j T)
    (List.range 10).map (fun i => nth T (4 * i % 15)) ++ keyWords n (j + 1) T

/-- mars.cpp:40-46 -/
def fixWord (ki kp : W32) : W32 :=
  let w := ki ||| 3
  let m := (~~~w ^^^ (w <<< 1)) &&& (~~~w ^^^ (w >>> 1)) &&& 0x7ffffffe
  let m := m &&& (m >>> 1)
  let m := m &&& (m >>> 2)
  let m := m &&& (m >>> 4)
  let m := m ||| (m <<< 1)
  let m := m ||| (m <<< 2)
  let m := m ||| (m <<< 4)
  let m := m &&& 0x7ffffffc
  w ^^^ (rotl (tab marsS (265 + (ki &&& 3).toNat)) kp.toNat &&& m)

/-- mars.cpp:11-48 `UncheckedSetKey` -/
def schedule (key : List Byte) : List W32 :=
  let T := (getUserKey .little 4 15 key).set (key.length / 4) (BitVec.ofNat 32 (key.length / 4))
  let k := keyWords 4 0 T
  upto 16 (fun n k => let i := 5 + 2 * n; k.set i (fixWord (nth k i) (nth k (i - 1)))) k

/-- mars.cpp:66-75: the body of the first loop, of both directions (115-124). -/
def fwd (i : Nat) (s : Q32) : Q32 :=
  let (a, b, c, d) := s
  let b := (b ^^^ s0 a 0) + s1 a 1
  let c := c + s0 a 2
  let a := rotr a 24
  let d := d ^^^ s1 a 0
  let a := a + (if i % 4 = 0 then d else 0)
  let a := a + (if i % 4 = 1 then b else 0)
  (b, c, d, a)

/-- mars.cpp:89-98: the body of the last loop, of both directions (138-147). -/
def bwd (i : Nat) (s : Q32) : Q32 :=
  let (a, b, c, d) := s
  let a := a - (if i % 4 = 2 then d else 0)
  let a := a - (if i % 4 = 3 then b else 0)
  let b := b ^^^ s1 a 0
  let c := c - s0 a 3
  let t := rotl a 24
  let d := (d - s1 a 2) ^^^ s0 t 0
  (b, c, d, t)

/-- mars.cpp:81-83 (130-132): `r`, and `l` of `m` and `r`. -/
def lOf (m r : W32) : W32 := rotl (sb m ^^^ rotr r 5 ^^^ r) r.toNat

/-- mars.cpp:77-87: the body of the second loop. -/
def coreE (k : List W32) (i : Nat) (s : Q32) : Q32 :=
  let (a, b, c, d) := s
  let t := rotl a 13
  let r := rotl (t * nth k (2 * i + 5)) 10
  let m := a + nth k (2 * i + 4)
  let l := lOf m r
  let c := c + rotl m (rotr r 5).toNat
  let (b, d) := if i < 8 then (b + l, d ^^^ r) else (b ^^^ r, d + l)
  (b, c, d, t)

/-- mars.cpp:126-136 -/
def coreD (k : List W32) (i : Nat) (s : Q32) : Q32 :=
  let (a, b, c, d) := s
  let t := rotr a 13
  let r := rotl (a * nth k (35 - 2 * i)) 10
  let m := t + nth k (34 - 2 * i)
  let l := lOf m r
  let c := c - rotl m (rotr r 5).toNat
  let (b, d) := if i < 8 then (b - l, d ^^^ r) else (b ^^^ r, d - l)
  (b, c, d, t)

/-- mars.cpp:64 -/
def add (k : List W32) (s : Q32) : Q32 := let (a, b, c, d) := s; (a + nth k 0, b + nth k 1, c + nth k 2, d + nth k 3)
/-- mars.cpp:100 -/
def sub (k : List W32) (s : Q32) : Q32 := let (a, b, c, d) := s; (a - nth k 36, b - nth k 37, c - nth k 38, d - nth k 39)
/-- mars.cpp:113, on the words as read: `(d)(c)(b)(a)`. -/
def addD (k : List W32) (s : Q32) : Q32 := let (d, c, b, a) := s; (a + nth k 39, b + nth k 38, c + nth k 37, d + nth k 36)
/-- mars.cpp:149-151, in the order of putting. -/
def subD (k : List W32) (s : Q32) : Q32 := let (a, b, c, d) := s; (d - nth k 0, c - nth k 1, b - nth k 2, a - nth k 3)

/-- mars.cpp:56-103 `Enc::ProcessAndXorBlock`, on words -/
def enc (k : List W32) (s : Q32) : Q32 := sub k (upto 8 bwd (upto 16 (coreE k) (upto 8 fwd (add k s))))

/-- mars.cpp:105-152 `Dec::ProcessAndXorBlock`, on words -/
def dec (k : List W32) (s : Q32) : Q32 := subD k (upto 8 bwd (upto 16 (coreD k) (upto 8 fwd (addD k s))))

/-- `SetKey` (cryptlib.cpp:58-62, mars.h:17) and the two directions -/
def setKey (key : List Byte) : Except Err Keyed :=
  if key.length < 16 ∨ 56 < key.length ∨ key.length % 8 ≠ 0 then .error .invalidArgument
  else .ok (ofWords .little 4 4 (on4 (enc (schedule key))) (on4 (dec (schedule key))))

end Mars

/-! ## Camellia -/

namespace Camellia

/-- An entry of `s1`. -/
def s (i : Nat) : BitVec 8 := BitVec.ofNat 8 (entry camelliaS1 i)
def w (x : BitVec 8) : W32 := x.setWidth 32

/-- camellia.cpp:30-44 `SLOW_ROUND`: what is added to `(rh, rl)`. -/
def slow (lh ll kh kl : W32) : W32 × W32 :=
  let zr := ll ^^^ kl
  let zl := lh ^^^ kh
  let zr := w (rotl (s (byteAt zr 3)) 1) ||| (w (rotr (s (byteAt zr 2)) 1) <<< 24) |||
    (w (s (rotl (BitVec.ofNat 8 (byteAt zr 1)) 1).toNat) <<< 16) ||| (w (s (byteAt zr 0)) <<< 8)
  let zl := (w (s (byteAt zl 3)) <<< 24) ||| (w (rotl (s (byteAt zl 2)) 1) <<< 16) |||
    (w (rotr (s (byteAt zl 1)) 1) <<< 8) ||| w (s (rotl (BitVec.ofNat 8 (byteAt zl 0)) 1).toNat)
  let zl := zl ^^^ zr
  let zr := zl ^^^ rotl zr 8
  let zl := zr ^^^ rotr zl 8
  (rotl zr 16 ^^^ zl, rotl zl 8)

/-- camellia.cpp:49-57 `ROUND`: what is added to `(rh, rl)`. -/
def fast (lh ll kh kl : W32) : W32 × W32 :=
  let th := lh ^^^ kh
  let tl := ll ^^^ kl
  let d := tab camelliaSP0 (byteAt tl 0) ^^^ tab camelliaSP1 (byteAt tl 3) ^^^ tab camelliaSP2 (byteAt tl 2) ^^^ tab camelliaSP3 (byteAt tl 1)
  let u := tab camelliaSP0 (byteAt th 3) ^^^ tab camelliaSP1 (byteAt th 2) ^^^ tab camelliaSP2 (byteAt th 1) ^^^ tab camelliaSP3 (byteAt th 0)
  let d := d ^^^ u
  (d, d ^^^ rotr u 8)

/-- A round with a function for what is added, `(lh, ll)` to `(rh, rl)`. -/
def right (F : W32 → W32 → W32 → W32 → W32 × W32) (kh kl : W32) (x : Q32) : Q32 :=
  let (lh, ll, rh, rl) := x
  let t := F lh ll kh kl
  (lh, ll, rh ^^^ t.1, rl ^^^ t.2)

/-- The same, `(rh, rl)` to `(lh, ll)`. -/
def left (F : W32 → W32 → W32 → W32 → W32 × W32) (kh kl : W32) (x : Q32) : Q32 :=
  let (lh, ll, rh, rl) := x
  let t := F rh rl kh kl
  (lh ^^^ t.1, ll ^^^ t.2, rh, rl)

/-- camellia.cpp:59-61 `DOUBLE_ROUND` -/
def double (k0 k1 k2 k3 : W32) (x : Q32) : Q32 := left fast k2 k3 (right fast k0 k1 x)

/-- camellia.cpp:84, on words of 64 bits from the beginning of `m_key`: `a` is 0 or the last index. -/
def addr (forward : Bool) (kslen i : Nat) : Nat := if forward then i else kslen - 1 - i

/-- One write of a word of 64 bits to index `i` of the schedule. -/
abbrev Store := Nat × W64

/-- camellia.cpp:90-97 `PREPARE_KS_ROUNDS`, `KS_ROUND_0(i)`; `EFI(j)` is `1 - j` (64: a little-endian machine). -/
def ksRound0 (k : Q32) (i : Nat) : List Store :=
  let (k0, k1, k2, k3) := k
  [(i + 1, k0 ++ k1), (i, k2 ++ k3)]

/-- camellia.cpp:98-102 `KS_ROUND(i, r, which)` -/
def ksRound (k : Q32) (i r which : Nat) : List Store :=
  let (k0, k1, k2, k3) := k
  let kwl : W64 := k0 ++ k1
  let kwr : W64 := k2 ++ k3
  let efi (c : Prop) [Decidable c] := if c then 0 else 1
  (if which &&& (1 <<< (if r < 64 then 1 else 0)) ≠ 0 then [(i + efi (r < 64), (kwr <<< (r % 64)) ||| (kwl >>> (64 - r % 64)))] else []) ++
  (if which &&& (1 <<< (if r > 64 then 1 else 0)) ≠ 0 then [(i + efi (r > 64), (kwl <<< (r % 64)) ||| (kwr >>> (64 - r % 64)))] else [])

def xor4 (x y : Q32) : Q32 := (x.1 ^^^ y.1, x.2.1 ^^^ y.2.1, x.2.2.1 ^^^ y.2.2.1, x.2.2.2 ^^^ y.2.2.2)

/-- camellia.cpp:137-139, 180-182: `KA` of what is encrypted first and of `KL`. -/
def ka (k kl : Q32) : Q32 :=
  double 0xC6EF372F 0xE94F82BE 0x54FF53A5 0xF1D36F1C (xor4 (double 0xA09E667F 0x3BCC908B 0xB67AE858 0x4CAA73B2 k) kl)

/-- camellia.cpp:124-197: the writes in order. -/
def stores (key : List Byte) : List Store :=
  let u := words .big 4 key
  let kl : Q32 := (wd u 0, wd u 1, wd u 2, wd u 3)
  if key.length = 16 then
    let a := ka kl kl
    ksRound0 kl 0 ++ ksRound kl 4 15 3 ++ ksRound kl 10 45 3 ++ ksRound kl 12 60 2 ++ ksRound kl 16 77 3 ++ ksRound kl 18 94 3 ++ ksRound kl 22 111 3 ++
    ksRound0 a 2 ++ ksRound a 6 15 3 ++ ksRound a 8 30 3 ++ ksRound a 12 45 1 ++ ksRound a 14 60 3 ++ ksRound a 20 94 3 ++ ksRound a 24 47 3
  else
    let kr : Q32 := (wd u 4, wd u 5, if key.length = 24 then ~~~(wd u 4) else wd u 6, if key.length = 24 then ~~~(wd u 5) else wd u 7)
    let a := ka (xor4 kr kl) kl
    let b := double 0x10E527FA 0xDE682D1D 0xB05688C2 0xB3E6C1FD (xor4 a kr)
    ksRound0 kl 0 ++ ksRound kl 12 45 3 ++ ksRound kl 16 60 3 ++ ksRound kl 22 77 3 ++ ksRound kl 30 111 3 ++
    ksRound kr 4 15 3 ++ ksRound kr 8 30 3 ++ ksRound kr 18 60 3 ++ ksRound kr 26 94 3 ++
    ksRound a 6 15 3 ++ ksRound a 14 45 3 ++ ksRound a 24 77 3 ++ ksRound a 28 94 3 ++
    ksRound0 b 2 ++ ksRound b 10 30 3 ++ ksRound b 20 60 3 ++ ksRound b 32 47 3

/-- `m_rounds` (camellia.cpp:71) -/
def rounds (key : List Byte) : Nat := if key.length ≥ 24 then 4 else 3

/-- camellia.cpp:69-198 `UncheckedSetKey`: `m_key` as words of 64 bits; what they are before the writes does not matter, see `stores_all`. -/
def schedule (forward : Bool) (key : List Byte) : List W64 :=
  let kslen := 8 * rounds key + 2
  (stores key).foldl (fun m st => m.set (addr forward kslen st.1) st.2) (List.replicate kslen 0)

/-- camellia.cpp:202 `KS(i, j)` with `ks` advanced by `16 * t` words of 32 bits -/
def ks (m : List W64) (t i j : Nat) : W32 :=
  let x := nth m (8 * t + i * 2 + (1 - j / 2))
  if j % 2 = 0 then (x >>> 32).setWidth 32 else x.setWidth 32

/-- camellia.cpp:204-208 `FL` -/
def fl (klh kll krh krl : W32) (x : Q32) : Q32 :=
  let (lh, ll, rh, rl) := x
  let ll := ll ^^^ rotl (lh &&& klh) 1
  let lh := lh ^^^ (ll ||| kll)
  let rh := rh ^^^ (rl ||| krl)
  let rl := rl ^^^ rotl (rh &&& krh) 1
  (lh, ll, rh, rl)

/-- `KS(i, 0) .. KS(i, 3)` added to the four words (camellia.cpp:214-217, 246-249). -/
def whiten (m : List W64) (t i : Nat) (x : Q32) : Q32 := xor4 x (ks m t i 0, ks m t i 1, ks m t i 2, ks m t i 3)

/-- `DOUBLE_ROUND(lh, ll, rh, rl, KS(i,0), KS(i,1), KS(i,2), KS(i,3))` -/
def doubleKs (m : List W64) (t i : Nat) (x : Q32) : Q32 := double (ks m t i 0) (ks m t i 1) (ks m t i 2) (ks m t i 3) x

/-- camellia.cpp:234-241: the body of the loop. -/
def body (m : List W64) (t : Nat) (x : Q32) : Q32 :=
  doubleKs m t 5 (fl (ks m t 4 0) (ks m t 4 1) (ks m t 4 2) (ks m t 4 3) (doubleKs m t 3 (doubleKs m t 2 x)))

/-- camellia.cpp:200-251 `ProcessAndXorBlock`, on words; `r` is `m_rounds - 1`. -/
def process (m : List W64) (r : Nat) (x : Q32) : Q32 :=
  let x := whiten m 0 0 x
  let x := left slow (ks m 0 1 2) (ks m 0 1 3) (right slow (ks m 0 1 0) (ks m 0 1 1) x)
  let x := upto r (body m) x
  let x := doubleKs m r 2 x
  let x := right fast (ks m r 3 0) (ks m r 3 1) x
  let x := left slow (ks m r 3 2) (ks m r 3 3) x
  let (lh, ll, rh, rl) := whiten m r 4 x
  (rh, rl, lh, ll)

/-- `SetKey` (cryptlib.cpp:58-62, camellia.h:16) and the two directions -/
def setKey (key : List Byte) : Except Err Keyed :=
  if key.length ≠ 16 ∧ key.length ≠ 24 ∧ key.length ≠ 32 then .error .invalidArgument
  else .ok (ofWords .big 4 4 (on4 (process (schedule true key) (rounds key - 1))) (on4 (process (schedule false key) (rounds key - 1))))

end Camellia

end Verif.Cipher
