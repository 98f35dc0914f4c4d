import Verif.Cipher.Tea
import Verif.Cipher.FeistelTables

/-!
# Ciphers that add a function of one word to another: DES, Blowfish, CAST, Skipjack

They are given as lists of steps `l[p] ^= F(l[q])`, where `F` belongs to the place in the list.
-/
namespace Verif.Cipher

abbrev W16 := BitVec (8 * 2)

/-- `l[p] ^= F(l[q])`, for a step `(p, q, s)` where `s` says which function. -/
def xorStep {w : Nat} {σ : Type} (F : σ → BitVec w → BitVec w) (l : List (BitVec w)) (s : Nat × Nat × σ) : List (BitVec w) :=
  l.set s.1 (wd l s.1 ^^^ F s.2.2 (wd l s.2.1))

/-- The steps in order. -/
def network {w : Nat} {σ : Type} (F : σ → BitVec w → BitVec w) (steps : List (Nat × Nat × σ)) (l : List (BitVec w)) : List (BitVec w) :=
  steps.foldl (xorStep F) l

/-- misc.h:1000 `GETBYTE(x, y)`. -/
def byteAt {w : Nat} (x : BitVec w) (i : Nat) : Nat := (x >>> (8 * i)).toNat % 256

/-- An entry of a table in rows of sixteen. -/
def entry (t : List (List Nat)) (i : Nat) : Nat := (t.getD (i / 16) []).getD (i % 16) 0

/-- `std::swap(a[i], a[j])` -/
def swapAt {α : Type} (i j : Nat) (l : List α) : List α :=
  match l[i]?, l[j]? with
  | some a, some b => (l.set i b).set j a
  | _, _ => l

/-! ## DES -/

namespace Des

/-- des.cpp:239-250 `pc1` -/
def pc1 : List Nat :=
  [57, 49, 41, 33, 25, 17, 9, 1, 58, 50, 42, 34, 26, 18, 10, 2, 59, 51, 43, 35, 27, 19, 11, 3, 60, 52, 44, 36,
   63, 55, 47, 39, 31, 23, 15, 7, 62, 54, 46, 38, 30, 22, 14, 6, 61, 53, 45, 37, 29, 21, 13, 5, 28, 20, 12, 4]

/-- des.cpp:254-258 `totrot` -/
def totrot : List Nat := [1, 2, 4, 6, 8, 10, 12, 14, 15, 17, 19, 21, 23, 25, 27, 28]

/-- des.cpp:261-272 `pc2` -/
def pc2 : List Nat :=
  [14, 17, 11, 24, 1, 5, 3, 28, 15, 6, 21, 10, 23, 19, 12, 4, 26, 8, 16, 7, 27, 20, 13, 2,
   41, 52, 31, 37, 47, 55, 30, 40, 51, 45, 33, 48, 44, 49, 39, 56, 34, 53, 46, 42, 50, 36, 29, 32]

/-- des.cpp:298-305: the bits of the key in the order of `pc1`; `bytebit[m]` is bit `7 - m`. -/
def pc1m (key : List Byte) : List Bool := pc1.map fun v => (key.getD ((v - 1) / 8) 0).getLsbD (7 - (v - 1) % 8)

/-- des.cpp:308-310: the halves rotated. -/
def pcr (m : List Bool) (i : Nat) : List Bool :=
  (List.range 56).map fun j =>
    let l := j + totrot.getD i 0
    m.getD (if l < (if j < 28 then 28 else 56) then l else l - 28) false

/-- des.cpp:307, 311-318: six bits to a byte; `bytebit[l] >> 2` is bit `5 - l`. -/
def ksBytes (r : List Bool) : List Nat :=
  (List.range 8).map fun c => (List.range 6).foldl (fun a l => if r.getD (pc2.getD (6 * c + l) 0 - 1) false then a ||| 2 ^ (5 - l) else a) 0

/-- des.cpp:319-327: the two words of a round. -/
def roundKeys (ks : List Nat) : List W32 :=
  let b (i : Nat) : W32 := BitVec.ofNat 32 (ks.getD i 0)
  [b 0 <<< 24 ||| b 2 <<< 16 ||| b 4 <<< 8 ||| b 6, b 1 <<< 24 ||| b 3 <<< 16 ||| b 5 <<< 8 ||| b 7]

/-- des.cpp:331-336: the order of the rounds reversed. -/
def revKeys {α : Type} (k : List α) : List α :=
  [0, 2, 4, 6, 8, 10, 12, 14].foldl (fun k i => swapAt (i + 1) (32 - 1 - i) (swapAt i (32 - 2 - i) k)) k

/-- des.cpp:282-337 `RawSetKey(dir, key)` -/
def rawSetKey (forward : Bool) (key : List Byte) : List W32 :=
  let k := (List.range 16).flatMap fun i => roundKeys (ksBytes (pcr (pc1m key) i))
  if forward then k else revKeys k

/-- An entry of `Spbox[b]`; the index is `(work >> s) & 0x3f`. -/
def sp (b : Nat) (work : W32) (s : Nat) : W32 := BitVec.ofNat 32 (entry (desSp.getD b []) ((work >>> s).toNat % 64))

/-- des.cpp:346-355: what is added to one half, in two assignments there. -/
def f (k : List W32) (i : Nat) (r : W32) : W32 :=
  let work := rotr r 4 ^^^ wd k (2 * i)
  let work' := r ^^^ wd k (2 * i + 1)
  (sp 6 work 0 ^^^ sp 4 work 8 ^^^ sp 2 work 16 ^^^ sp 0 work 24) ^^^ (sp 7 work' 0 ^^^ sp 5 work' 8 ^^^ sp 3 work' 16 ^^^ sp 1 work' 24)

/-- des.cpp:344-368: the halves are words 0 and 1; half round `i` has the keys `2 * i` and `2 * i + 1`. -/
def steps : List (Nat × Nat × Nat) := (List.range 8).flatMap fun i => [(0, 1, 2 * i), (1, 0, 2 * i + 1)]

/-- des.cpp:339-369 `RawProcessBlock(l, r)` on `[l, r]` -/
def rawProcess (k : List W32) (l : List W32) : List W32 := network (f k) steps l

/-- `work = (left ^ right) & mask; left ^= work; right ^= work` -/
def exchange (m : W32) (s : W32 × W32) : W32 × W32 :=
  let work := (s.1 ^^^ s.2) &&& m
  (s.1 ^^^ work, s.2 ^^^ work)

/-- des.cpp:76-96 `IPERM(left, right)` -/
def iperm (left right : W32) : W32 × W32 :=
  let right := rotl right 4
  let (left, right) := exchange 0xf0f0f0f0 (left, right)
  let right := rotr right 20
  let (left, right) := exchange 0xffff0000 (left, right)
  let right := rotr right 18
  let (left, right) := exchange 0x33333333 (left, right)
  let right := rotr right 6
  let (left, right) := exchange 0x00ff00ff (left, right)
  let right := rotl right 9
  let (left, right) := exchange 0xaaaaaaaa (left, right)
  (rotl left 1, right)

/-- des.cpp:98-118 `FPERM(left, right)` -/
def fperm (left right : W32) : W32 × W32 :=
  let right := rotr right 1
  let (left, right) := exchange 0xaaaaaaaa (left, right)
  let left := rotr left 9
  let (left, right) := exchange 0x00ff00ff (left, right)
  let left := rotl left 6
  let (left, right) := exchange 0x33333333 (left, right)
  let left := rotl left 18
  let (left, right) := exchange 0xffff0000 (left, right)
  let left := rotl left 20
  let (left, right) := exchange 0xf0f0f0f0 (left, right)
  (rotr left 4, right)

/-- `IPERM(l, r)` on `[l, r]` -/
def ip (l : List W32) : List W32 :=
  match l with
  | [a, b] => [(iperm a b).1, (iperm a b).2]
  | _ => l

/-- `FPERM(l, r)` and then `Put(r)(l)` -/
def fp (l : List W32) : List W32 :=
  match l with
  | [a, b] => [(fperm a b).2, (fperm a b).1]
  | _ => l

/-- des.cpp:433-442 `DES::Base::ProcessAndXorBlock`, for the words of a block. -/
def process (k : List W32) (l : List W32) : List W32 := fp (rawProcess k (ip l))

/-- des.cpp:120-125 `DES::Base::UncheckedSetKey` with cryptlib.cpp:58-62 `SetKey`. -/
def setKey (key : List Byte) : Except Err Keyed :=
  if key.length ≠ 8 then .error .invalidArgument
  else .ok (ofWords .big 4 2 (process (rawSetKey true key)) (process (rawSetKey false key)))

/-- des.cpp:379-389, 399-409 `ProcessAndXorBlock` of `DES_EDE2` and `DES_EDE3`: the second has its arguments exchanged. -/
def process3 (k1 k2 k3 : List W32) (l : List W32) : List W32 := fp (rawProcess k3 (rawProcess k2 (rawProcess k1 (ip l)).reverse).reverse)

/-- des.cpp:371-377 `DES_EDE2::Base::UncheckedSetKey` and `SetKey`. -/
def setKeyEde2 (key : List Byte) : Except Err Keyed :=
  if key.length ≠ 16 then .error .invalidArgument
  else
    let one (dir : Bool) : List W32 → List W32 :=
      process3 (rawSetKey dir (key.take 8)) (rawSetKey (!dir) (key.drop 8)) (rawSetKey dir (key.take 8))
    .ok (ofWords .big 4 2 (one true) (one false))

/-- des.cpp:391-397 `DES_EDE3::Base::UncheckedSetKey` and `SetKey`. -/
def setKeyEde3 (key : List Byte) : Except Err Keyed :=
  if key.length ≠ 24 then .error .invalidArgument
  else
    let part (i : Nat) : List Byte := (key.drop i).take 8
    let one (dir : Bool) : List W32 → List W32 :=
      process3 (rawSetKey dir (part (if dir then 0 else 16))) (rawSetKey (!dir) (part 8)) (rawSetKey dir (part (if dir then 16 else 0)))
    .ok (ofWords .big 4 2 (one true) (one false))

/-- des.cpp:457-462 `DES_XEX3::Base::ProcessAndXorBlock` without a mask. -/
def processXex (x1 x3 : List Byte) (k : List W32) (b : List Byte) : List Byte :=
  xorBytes (unwords .big 4 (process k (words .big 4 (xorBytes b x1)))) x3

/-- des.cpp:444-455 `DES_XEX3::Base::UncheckedSetKey` and `SetKey`. -/
def setKeyXex3 (key : List Byte) : Except Err Keyed :=
  if key.length ≠ 24 then .error .invalidArgument
  else
    let part (i : Nat) : List Byte := (key.drop i).take 8
    let one (dir : Bool) : List Byte → List Byte :=
      processXex (part (if dir then 0 else 16)) (part (if dir then 16 else 0)) (rawSetKey dir (part 8))
    .ok ⟨8, one true, one false⟩

/-- des.cpp:413-417 `CheckParity(b)` -/
def checkParity (b : Byte) : Bool :=
  let a : BitVec 32 := (b.setWidth 32) ^^^ ((b.setWidth 32) >>> 4)
  ((a ^^^ (a >>> 1) ^^^ (a >>> 2) ^^^ (a >>> 3)) &&& 1) = 1

/-- des.cpp:419-425 `CheckKeyParityBits(key)` -/
def checkKey (key : List Byte) : Bool := key.all checkParity

/-- des.cpp:427-432 `CorrectKeyParityBits(key)` -/
def correctKey (key : List Byte) : List Byte := key.map fun b => if checkParity b then b else b ^^^ 1

end Des

/-! ## Blowfish -/

namespace Blowfish

/-- blowfish.cpp:56-58: what is added to a half but for the key word. -/
def f (s : List W32) (x : W32) : W32 :=
  ((wd s (byteAt x 3) + wd s (256 + byteAt x 2)) ^^^ wd s (2 * 256 + byteAt x 1)) + wd s (3 * 256 + byteAt x 0)

/-- The step with key word `i`; the first and the last only add that word. -/
def round (p s : List W32) (i : Nat) (x : W32) : W32 := if i = 0 ∨ i = 17 then wd p i else f s x ^^^ wd p i

/-- blowfish.cpp:51-66 (and 81-96): the halves are words 0 and 1. -/
def steps : List (Nat × Nat × Nat) := [(0, 1, 0)] ++ ((List.range 8).flatMap fun i => [(1, 0, 2 * i + 1), (0, 1, 2 * i + 2)]) ++ [(1, 0, 17)]

/-- blowfish.cpp:43-70 `crypt_block(in, out)`, and 72-99 `ProcessAndXorBlock` between getting and putting the words. -/
def cryptBlock (p s : List W32) (l : List W32) : List W32 := (network (round p s) steps l).reverse

/-- blowfish.cpp:20-26: the key added to the table, over and over. -/
def addKey (key : List Byte) : List W32 :=
  (List.range 18).map fun i =>
    BitVec.ofNat 32 (blowfishP.getD i 0) ^^^
      (List.range 4).foldl (fun (data : W32) k => (data <<< 8) ||| (key.getD ((4 * i + k) % key.length) 0).setWidth 32) 0

/-- Two words of an array. -/
def put2 (l : List W32) (i : Nat) (v : List W32) : List W32 := (l.set i (wd v 0)).set (i + 1) (wd v 1)

/-- blowfish.cpp:28-31: `pbox` is replaced, two words at a time; then the two words of the last call. -/
def makeP (s : List W32) (p : List W32) : List W32 :=
  (List.range 8).foldl (fun p n => put2 p (2 * n + 2) (cryptBlock p s [wd p (2 * n), wd p (2 * n + 1)])) (put2 p 0 (cryptBlock p s [0, 0]))

/-- blowfish.cpp:33-36: and `sbox`. -/
def makeS (p : List W32) (s : List W32) : List W32 :=
  (List.range 511).foldl (fun s n => put2 s (2 * n + 2) (cryptBlock p s [wd s (2 * n), wd s (2 * n + 1)])) (put2 s 0 (cryptBlock p s [wd p 16, wd p 17]))

/-- blowfish.cpp:38-40: the order reversed. -/
def revKeys {α : Type} (p : List α) : List α := (List.range 9).foldl (fun p i => swapAt i (17 - i) p) p

/-- blowfish.cpp:9-41 `UncheckedSetKey` with cryptlib.cpp:58-62 `SetKey`. -/
def setKey (key : List Byte) : Except Err Keyed :=
  if key.length < 4 ∨ 56 < key.length then .error .invalidArgument
  else
    let s := blowfishS.map (BitVec.ofNat 32)
    let p := makeP s (addKey key)
    let s := makeS p s
    .ok (ofWords .big 4 2 (cryptBlock p s) (cryptBlock (revKeys p) s))

end Blowfish

/-! ## CAST-128 and CAST-256 -/

namespace Cast

/-- An entry of `S`. -/
def s (b i : Nat) : W32 := BitVec.ofNat 32 (entry (castS.getD b []) i)

/-- cast.cpp:17-29 `f1`, `f2`, `f3`: what is added to `l`. -/
def f (kind : Nat) (km : W32) (kr : Nat) (r : W32) : W32 :=
  if kind = 1 then
    let t := rotl (km + r) kr
    ((s 0 (byteAt t 3) ^^^ s 1 (byteAt t 2)) - s 2 (byteAt t 1)) + s 3 (byteAt t 0)
  else if kind = 2 then
    let t := rotl (km ^^^ r) kr
    ((s 0 (byteAt t 3) - s 1 (byteAt t 2)) + s 2 (byteAt t 1)) ^^^ s 3 (byteAt t 0)
  else
    let t := rotl (km - r) kr
    ((s 0 (byteAt t 3) + s 1 (byteAt t 2)) ^^^ s 2 (byteAt t 1)) - s 3 (byteAt t 0)

/-- cast.cpp:31-33 `F1`, `F2`, `F3` with the words of the key: kind, `i`, `i + j`. -/
def fk (k : List W32) (a : Nat × Nat × Nat) (r : W32) : W32 := f a.1 (wd k a.2.1) (wd k a.2.2).toNat r

/-- cast.cpp:44-55; words 0 and 1 are `l` and `r`. -/
def enc12 : List (Nat × Nat × Nat × Nat × Nat) :=
  [(0, 1, 1, 0, 16), (1, 0, 2, 1, 17), (0, 1, 3, 2, 18), (1, 0, 1, 3, 19), (0, 1, 2, 4, 20), (1, 0, 3, 5, 21),
   (0, 1, 1, 6, 22), (1, 0, 2, 7, 23), (0, 1, 3, 8, 24), (1, 0, 1, 9, 25), (0, 1, 2, 10, 26), (1, 0, 3, 11, 27)]

/-- cast.cpp:58-61 -/
def enc4 : List (Nat × Nat × Nat × Nat × Nat) := [(0, 1, 1, 12, 28), (1, 0, 2, 13, 29), (0, 1, 3, 14, 30), (1, 0, 1, 15, 31)]

/-- cast.cpp:75-78 -/
def dec4 : List (Nat × Nat × Nat × Nat × Nat) := [(1, 0, 1, 15, 31), (0, 1, 3, 14, 30), (1, 0, 2, 13, 29), (0, 1, 1, 12, 28)]

/-- cast.cpp:80-91 -/
def dec12 : List (Nat × Nat × Nat × Nat × Nat) :=
  [(1, 0, 3, 11, 27), (0, 1, 2, 10, 26), (1, 0, 1, 9, 25), (0, 1, 3, 8, 24), (1, 0, 2, 7, 23), (0, 1, 1, 6, 22),
   (1, 0, 3, 5, 21), (0, 1, 2, 4, 20), (1, 0, 1, 3, 19), (0, 1, 3, 2, 18), (1, 0, 2, 1, 17), (0, 1, 1, 0, 16)]

/-- cast.cpp:37-65 `CAST128::Enc::ProcessAndXorBlock` on the words `(l)(r)`; put `(r)(l)`. -/
def enc128 (k : List W32) (reduced : Bool) (l : List W32) : List W32 :=
  let l := network (fk k) enc12 l
  (if reduced then l else network (fk k) enc4 l).reverse

/-- cast.cpp:67-94 `CAST128::Dec::ProcessAndXorBlock`: get `(r)(l)`, put `(l)(r)`. -/
def dec128 (k : List W32) (reduced : Bool) (l : List W32) : List W32 :=
  let l := l.reverse
  network (fk k) dec12 (if reduced then l else network (fk k) dec4 l)

/-- cast.cpp:111-143: one turn of the loop, from the words of `X`, giving sixteen words of the key and the new `X`. -/
def half (x0 x1 x2 x3 : W32) : List W32 × W32 × W32 × W32 × W32 :=
  let z0 := x0 ^^^ s 4 (byteAt x3 2) ^^^ s 5 (byteAt x3 0) ^^^ s 6 (byteAt x3 3) ^^^ s 7 (byteAt x3 1) ^^^ s 6 (byteAt x2 3)
  let z1 := x2 ^^^ s 4 (byteAt z0 3) ^^^ s 5 (byteAt z0 1) ^^^ s 6 (byteAt z0 2) ^^^ s 7 (byteAt z0 0) ^^^ s 7 (byteAt x2 1)
  let z2 := x3 ^^^ s 4 (byteAt z1 0) ^^^ s 5 (byteAt z1 1) ^^^ s 6 (byteAt z1 2) ^^^ s 7 (byteAt z1 3) ^^^ s 4 (byteAt x2 2)
  let z3 := x1 ^^^ s 4 (byteAt z2 1) ^^^ s 5 (byteAt z2 2) ^^^ s 6 (byteAt z2 0) ^^^ s 7 (byteAt z2 3) ^^^ s 5 (byteAt x2 0)
  let k0 := s 4 (byteAt z2 3) ^^^ s 5 (byteAt z2 2) ^^^ s 6 (byteAt z1 0) ^^^ s 7 (byteAt z1 1) ^^^ s 4 (byteAt z0 1)
  let k1 := s 4 (byteAt z2 1) ^^^ s 5 (byteAt z2 0) ^^^ s 6 (byteAt z1 2) ^^^ s 7 (byteAt z1 3) ^^^ s 5 (byteAt z1 1)
  let k2 := s 4 (byteAt z3 3) ^^^ s 5 (byteAt z3 2) ^^^ s 6 (byteAt z0 0) ^^^ s 7 (byteAt z0 1) ^^^ s 6 (byteAt z2 2)
  let k3 := s 4 (byteAt z3 1) ^^^ s 5 (byteAt z3 0) ^^^ s 6 (byteAt z0 2) ^^^ s 7 (byteAt z0 3) ^^^ s 7 (byteAt z3 3)
  let x0 := z2 ^^^ s 4 (byteAt z1 2) ^^^ s 5 (byteAt z1 0) ^^^ s 6 (byteAt z1 3) ^^^ s 7 (byteAt z1 1) ^^^ s 6 (byteAt z0 3)
  let x1 := z0 ^^^ s 4 (byteAt x0 3) ^^^ s 5 (byteAt x0 1) ^^^ s 6 (byteAt x0 2) ^^^ s 7 (byteAt x0 0) ^^^ s 7 (byteAt z0 1)
  let x2 := z1 ^^^ s 4 (byteAt x1 0) ^^^ s 5 (byteAt x1 1) ^^^ s 6 (byteAt x1 2) ^^^ s 7 (byteAt x1 3) ^^^ s 4 (byteAt z0 2)
  let x3 := z3 ^^^ s 4 (byteAt x2 1) ^^^ s 5 (byteAt x2 2) ^^^ s 6 (byteAt x2 0) ^^^ s 7 (byteAt x2 3) ^^^ s 5 (byteAt z0 0)
  let k4 := s 4 (byteAt x0 0) ^^^ s 5 (byteAt x0 1) ^^^ s 6 (byteAt x3 3) ^^^ s 7 (byteAt x3 2) ^^^ s 4 (byteAt x2 3)
  let k5 := s 4 (byteAt x0 2) ^^^ s 5 (byteAt x0 3) ^^^ s 6 (byteAt x3 1) ^^^ s 7 (byteAt x3 0) ^^^ s 5 (byteAt x3 2)
  let k6 := s 4 (byteAt x1 0) ^^^ s 5 (byteAt x1 1) ^^^ s 6 (byteAt x2 3) ^^^ s 7 (byteAt x2 2) ^^^ s 6 (byteAt x0 0)
  let k7 := s 4 (byteAt x1 2) ^^^ s 5 (byteAt x1 3) ^^^ s 6 (byteAt x2 1) ^^^ s 7 (byteAt x2 0) ^^^ s 7 (byteAt x1 0)
  let z0 := x0 ^^^ s 4 (byteAt x3 2) ^^^ s 5 (byteAt x3 0) ^^^ s 6 (byteAt x3 3) ^^^ s 7 (byteAt x3 1) ^^^ s 6 (byteAt x2 3)
  let z1 := x2 ^^^ s 4 (byteAt z0 3) ^^^ s 5 (byteAt z0 1) ^^^ s 6 (byteAt z0 2) ^^^ s 7 (byteAt z0 0) ^^^ s 7 (byteAt x2 1)
  let z2 := x3 ^^^ s 4 (byteAt z1 0) ^^^ s 5 (byteAt z1 1) ^^^ s 6 (byteAt z1 2) ^^^ s 7 (byteAt z1 3) ^^^ s 4 (byteAt x2 2)
  let z3 := x1 ^^^ s 4 (byteAt z2 1) ^^^ s 5 (byteAt z2 2) ^^^ s 6 (byteAt z2 0) ^^^ s 7 (byteAt z2 3) ^^^ s 5 (byteAt x2 0)
  let k8 := s 4 (byteAt z0 0) ^^^ s 5 (byteAt z0 1) ^^^ s 6 (byteAt z3 3) ^^^ s 7 (byteAt z3 2) ^^^ s 4 (byteAt z2 2)
  let k9 := s 4 (byteAt z0 2) ^^^ s 5 (byteAt z0 3) ^^^ s 6 (byteAt z3 1) ^^^ s 7 (byteAt z3 0) ^^^ s 5 (byteAt z3 3)
  let k10 := s 4 (byteAt z1 0) ^^^ s 5 (byteAt z1 1) ^^^ s 6 (byteAt z2 3) ^^^ s 7 (byteAt z2 2) ^^^ s 6 (byteAt z0 1)
  let k11 := s 4 (byteAt z1 2) ^^^ s 5 (byteAt z1 3) ^^^ s 6 (byteAt z2 1) ^^^ s 7 (byteAt z2 0) ^^^ s 7 (byteAt z1 1)
  let x0 := z2 ^^^ s 4 (byteAt z1 2) ^^^ s 5 (byteAt z1 0) ^^^ s 6 (byteAt z1 3) ^^^ s 7 (byteAt z1 1) ^^^ s 6 (byteAt z0 3)
  let x1 := z0 ^^^ s 4 (byteAt x0 3) ^^^ s 5 (byteAt x0 1) ^^^ s 6 (byteAt x0 2) ^^^ s 7 (byteAt x0 0) ^^^ s 7 (byteAt z0 1)
  let x2 := z1 ^^^ s 4 (byteAt x1 0) ^^^ s 5 (byteAt x1 1) ^^^ s 6 (byteAt x1 2) ^^^ s 7 (byteAt x1 3) ^^^ s 4 (byteAt z0 2)
  let x3 := z3 ^^^ s 4 (byteAt x2 1) ^^^ s 5 (byteAt x2 2) ^^^ s 6 (byteAt x2 0) ^^^ s 7 (byteAt x2 3) ^^^ s 5 (byteAt z0 0)
  let k12 := s 4 (byteAt x2 3) ^^^ s 5 (byteAt x2 2) ^^^ s 6 (byteAt x1 0) ^^^ s 7 (byteAt x1 1) ^^^ s 4 (byteAt x0 0)
  let k13 := s 4 (byteAt x2 1) ^^^ s 5 (byteAt x2 0) ^^^ s 6 (byteAt x1 2) ^^^ s 7 (byteAt x1 3) ^^^ s 5 (byteAt x1 0)
  let k14 := s 4 (byteAt x3 3) ^^^ s 5 (byteAt x3 2) ^^^ s 6 (byteAt x0 0) ^^^ s 7 (byteAt x0 1) ^^^ s 6 (byteAt x2 3)
  let k15 := s 4 (byteAt x3 1) ^^^ s 5 (byteAt x3 0) ^^^ s 6 (byteAt x0 2) ^^^ s 7 (byteAt x0 3) ^^^ s 7 (byteAt x3 2)
  ([k0, k1, k2, k3, k4, k5, k6, k7, k8, k9, k10, k11, k12, k13, k14, k15], x0, x1, x2, x3)

/-- cast.cpp:96-148 `CAST128::Base::UncheckedSetKey` -/
def key128 (key : List Byte) : List W32 :=
  let x := getUserKey .big 4 4 key
  let (a, x0, x1, x2, x3) := half (wd x 0) (wd x 1) (wd x 2) (wd x 3)
  let (b, _) := half x0 x1 x2 x3
  a ++ b.map (· &&& 0x1f)

/-- CAST-128 with cryptlib.cpp:58-62 `SetKey`. -/
def setKey128 (key : List Byte) : Except Err Keyed :=
  if key.length < 5 ∨ 16 < key.length then .error .invalidArgument
  else .ok (ofWords .big 4 2 (enc128 (key128 key) (key.length ≤ 10)) (dec128 (key128 key) (key.length ≤ 10)))

/-- cast.cpp:197-201 `Q(i)`; `F1(l, r, i, -4)`. -/
def quad (i : Nat) : List (Nat × Nat × Nat × Nat × Nat) :=
  [(2, 3, 1, 8 * i + 4, 8 * i), (1, 2, 2, 8 * i + 5, 8 * i + 1), (0, 1, 3, 8 * i + 6, 8 * i + 2), (3, 0, 1, 8 * i + 7, 8 * i + 3)]

/-- cast.cpp:203-207 `QBar(i)` -/
def quadBar (i : Nat) : List (Nat × Nat × Nat × Nat × Nat) :=
  [(3, 0, 1, 8 * i + 7, 8 * i + 3), (0, 1, 3, 8 * i + 6, 8 * i + 2), (1, 2, 2, 8 * i + 5, 8 * i + 1), (2, 3, 1, 8 * i + 4, 8 * i)]

/-- cast.cpp:219-232 -/
def steps256 : List (Nat × Nat × Nat × Nat × Nat) := [0, 1, 2, 3, 4, 5].flatMap quad ++ [6, 7, 8, 9, 10, 11].flatMap quadBar

/-- cast.cpp:212-235 `CAST256::Base::ProcessAndXorBlock` -/
def process256 (k : List W32) (l : List W32) : List W32 := network (fk k) steps256 l

/-- cast.cpp:239-251 `Omega(i, kappa)` -/
def omega (i : Nat) (kappa : List W32) : List W32 :=
  [(6, 7, 1, 0), (5, 6, 2, 1), (4, 5, 3, 2), (3, 4, 1, 3), (2, 3, 2, 4), (1, 2, 3, 5), (0, 1, 1, 6), (7, 0, 2, 7)].foldl
    (xorStep fun (a : Nat × Nat) r => f a.1 (BitVec.ofNat 32 ((cast256M.getD a.2 []).getD i 0)) ((cast256R.getD a.2 []).getD i 0) r) kappa

/-- cast.cpp:259-272 -/
def schedule256 : Nat → Nat → List W32 → List W32
  | 0, _, _ => []
  | n + 1, i, kappa =>
    let kappa := omega (2 * i + 1) (omega (2 * i) kappa)
    [wd kappa 0 &&& 31, wd kappa 2 &&& 31, wd kappa 4 &&& 31, wd kappa 6 &&& 31, wd kappa 7, wd kappa 5, wd kappa 3, wd kappa 1] ++ schedule256 n (i + 1) kappa

/-- cast.cpp:274-289: the order reversed. -/
def rev256 {α : Type} (k : List α) : List α :=
  (List.range 6).foldl (fun k j => (List.range 4).foldl (fun k i =>
    swapAt (8 * j + i + 4) (8 * (11 - j) + i + 4) (swapAt (8 * j + i) (8 * (11 - j) + i) k)) k) k

/-- cast.cpp:253-290 `CAST256::Base::UncheckedSetKey` with `SetKey`: 16, 20, 24, 28 or 32 bytes. -/
def setKey256 (key : List Byte) : Except Err Keyed :=
  if key.length < 16 ∨ 32 < key.length ∨ key.length % 4 ≠ 0 then .error .invalidArgument
  else
    let k := schedule256 12 0 (getUserKey .big 4 8 key)
    .ok (ofWords .big 4 4 (process256 k) (process256 (rev256 k)))

end Cast

end Verif.Cipher
