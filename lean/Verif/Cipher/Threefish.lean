import Verif.Cipher.Arx

/-!
# threefish.cpp and gost.cpp
-/
namespace Verif.Cipher

/-! ## Threefish -/
namespace Threefish

/-- threefish.cpp:21-28, 81-93, 153-181: the statements `Ga += Gb; Gb = rotlConstant<C>(Gb) ^ Ga`. -/
def mix (m : Nat × Nat × Nat) (g : List W64) : List W64 :=
  let (c, a, b) := m
  let g := g.set a (nth g a + nth g b)
  g.set b (rotl (nth g b) c ^^^ nth g a)

/-- threefish.cpp:30-37, 95-106, 198-224: the statements `Gb = rotrConstant<C>(Gb ^ Ga); Ga -= Gb`. -/
def unmix (m : Nat × Nat × Nat) (g : List W64) : List W64 :=
  let (c, a, b) := m
  let g := g.set b (rotr (nth g b ^^^ nth g a) c)
  g.set a (nth g a - nth g b)

/-- threefish.cpp:39-49, 108-126, 237-273: the words that `KS(r)` adds and `IKS(r)` subtracts, `r1` being `r+1`; there are `n` words. -/
def subkey (n : Nat) (rkey tweak : List W64) (r1 : Nat) : List W64 :=
  (List.range n).map fun j => nth rkey ((r1 + j) % (n + 1)) +
    (if j = n - 3 then nth tweak (r1 % 3) else if j = n - 2 then nth tweak ((r1 + 1) % 3) else if j = n - 1 then BitVec.ofNat _ r1 else 0)

/-- The data of one of the three ciphers: the rows of `GNx8` and of `IGNx8` (statements in the order of the code, before and after the first
key addition), the number of `x8` blocks, and what `Dec::ProcessAndXorBlock` subtracts first. -/
structure Data where
  n : Nat
  rowsA : List (List (Nat × Nat × Nat))
  rowsB : List (List (Nat × Nat × Nat))
  unA : List (List (Nat × Nat × Nat))
  unB : List (List (Nat × Nat × Nat))
  blocks : Nat
  lastKey : List Nat
  lastTweak : Nat × Nat
  lastRound : Nat

def mixRows (rows : List (List (Nat × Nat × Nat))) (g : List W64) : List W64 := rows.foldl (fun g r => r.foldl (fun g m => mix m g) g) g
def unmixRows (rows : List (List (Nat × Nat × Nat))) (g : List W64) : List W64 := rows.foldl (fun g r => r.foldl (fun g m => unmix m g) g) g

def add (k g : List W64) : List W64 := List.zipWith (· + ·) g k
def sub (k g : List W64) : List W64 := List.zipWith (· - ·) g k

/-- The words added or subtracted for the tweak (and round number) at the start. -/
def tail (n : Nat) (t0 t1 r : W64) : List W64 := (List.range n).map fun j => if j = n - 3 then t0 else if j = n - 2 then t1 else if j = n - 1 then r else 0

variable (d : Data) (rkey tweak : List W64)

/-- threefish.cpp:51-61, 140-150, 275-293: `x8(2b)`. -/
def x8 (b : Nat) (g : List W64) : List W64 :=
  let g := mixRows d.rowsA g
  let g := add (subkey d.n rkey tweak (2 * b + 1)) g
  let g := mixRows d.rowsB g
  add (subkey d.n rkey tweak (2 * b + 1 + 1)) g

/-- threefish.cpp:63-73, 128-138, 295-313: `Ix8(2b)`; `IKS(r-1)` subtracts with `r-1+1`. -/
def ix8 (b : Nat) (g : List W64) : List W64 :=
  let g := unmixRows d.unB g
  let g := sub (subkey d.n rkey tweak (2 * b + 1)) g
  let g := unmixRows d.unA g
  sub (subkey d.n rkey tweak (2 * b)) g

/-- threefish.cpp:336-340, 391-397, 457-465 `Enc::ProcessAndXorBlock`. -/
def enc (g : List W64) : List W64 :=
  upto d.blocks (x8 d rkey tweak) (add (tail d.n (nth tweak 0) (nth tweak 1) 0) (add (rkey.take d.n) g))

/-- threefish.cpp:356-361, 413-419, 487-496 `Dec::ProcessAndXorBlock`. -/
def dec (g : List W64) : List W64 :=
  downto d.blocks (ix8 d rkey tweak)
    (sub (tail d.n (nth tweak d.lastTweak.1) (nth tweak d.lastTweak.2) (BitVec.ofNat _ d.lastRound)) (sub (d.lastKey.map (nth rkey)) g))

/-- threefish.cpp:51-73, 356-357. -/
def d256 : Data where
  n := 4
  rowsA := [
  [(14, 0, 1), (16, 2, 3)],
  [(52, 0, 3), (57, 2, 1)],
  [(23, 0, 1), (40, 2, 3)],
  [(5, 0, 3), (37, 2, 1)]]
  rowsB := [
  [(25, 0, 1), (33, 2, 3)],
  [(46, 0, 3), (12, 2, 1)],
  [(58, 0, 1), (22, 2, 3)],
  [(32, 0, 3), (32, 2, 1)]]
  unB := [
  [(32, 2, 1), (32, 0, 3)],
  [(22, 2, 3), (58, 0, 1)],
  [(12, 2, 1), (46, 0, 3)],
  [(33, 2, 3), (25, 0, 1)]]
  unA := [
  [(37, 2, 1), (5, 0, 3)],
  [(40, 2, 3), (23, 0, 1)],
  [(57, 2, 1), (52, 0, 3)],
  [(16, 2, 3), (14, 0, 1)]]
  blocks := 9
  lastKey := [3, 4, 0, 1]
  lastTweak := (0, 1)
  lastRound := 18

/-- threefish.cpp:128-150, 413-415. -/
def d512 : Data where
  n := 8
  rowsA := [
  [(46, 0, 1), (36, 2, 3), (19, 4, 5), (37, 6, 7)],
  [(33, 2, 1), (27, 4, 7), (14, 6, 5), (42, 0, 3)],
  [(17, 4, 1), (49, 6, 3), (36, 0, 5), (39, 2, 7)],
  [(44, 6, 1), (9, 0, 7), (54, 2, 5), (56, 4, 3)]]
  rowsB := [
  [(39, 0, 1), (30, 2, 3), (34, 4, 5), (24, 6, 7)],
  [(13, 2, 1), (50, 4, 7), (10, 6, 5), (17, 0, 3)],
  [(25, 4, 1), (29, 6, 3), (39, 0, 5), (43, 2, 7)],
  [(8, 6, 1), (35, 0, 7), (56, 2, 5), (22, 4, 3)]]
  unB := [
  [(22, 4, 3), (56, 2, 5), (35, 0, 7), (8, 6, 1)],
  [(43, 2, 7), (39, 0, 5), (29, 6, 3), (25, 4, 1)],
  [(17, 0, 3), (10, 6, 5), (50, 4, 7), (13, 2, 1)],
  [(24, 6, 7), (34, 4, 5), (30, 2, 3), (39, 0, 1)]]
  unA := [
  [(56, 4, 3), (54, 2, 5), (9, 0, 7), (44, 6, 1)],
  [(39, 2, 7), (36, 0, 5), (49, 6, 3), (17, 4, 1)],
  [(42, 0, 3), (14, 6, 5), (27, 4, 7), (33, 2, 1)],
  [(37, 6, 7), (19, 4, 5), (36, 2, 3), (46, 0, 1)]]
  blocks := 9
  lastKey := [0, 1, 2, 3, 4, 5, 6, 7]
  lastTweak := (0, 1)
  lastRound := 18

/-- threefish.cpp:275-313, 487-491. -/
def d1024 : Data where
  n := 16
  rowsA := [
  [(24, 0, 1), (13, 2, 3), (8, 4, 5), (47, 6, 7), (8, 8, 9), (17, 10, 11), (22, 12, 13), (37, 14, 15)],
  [(38, 0, 9), (19, 2, 13), (10, 6, 11), (55, 4, 15), (49, 10, 7), (18, 12, 3), (23, 14, 5), (52, 8, 1)],
  [(33, 0, 7), (4, 2, 5), (51, 4, 3), (13, 6, 1), (34, 12, 15), (41, 14, 13), (59, 8, 11), (17, 10, 9)],
  [(5, 0, 15), (20, 2, 11), (48, 6, 13), (41, 4, 9), (47, 14, 1), (28, 8, 5), (16, 10, 3), (25, 12, 7)]]
  rowsB := [
  [(41, 0, 1), (9, 2, 3), (37, 4, 5), (31, 6, 7), (12, 8, 9), (47, 10, 11), (44, 12, 13), (30, 14, 15)],
  [(16, 0, 9), (34, 2, 13), (56, 6, 11), (51, 4, 15), (4, 10, 7), (53, 12, 3), (42, 14, 5), (41, 8, 1)],
  [(31, 0, 7), (44, 2, 5), (47, 4, 3), (46, 6, 1), (19, 12, 15), (42, 14, 13), (44, 8, 11), (25, 10, 9)],
  [(9, 0, 15), (48, 2, 11), (35, 6, 13), (52, 4, 9), (23, 14, 1), (31, 8, 5), (37, 10, 3), (20, 12, 7)]]
  unB := [
  [(52, 4, 9), (35, 6, 13), (48, 2, 11), (9, 0, 15), (20, 12, 7), (37, 10, 3), (31, 8, 5), (23, 14, 1)],
  [(46, 6, 1), (47, 4, 3), (44, 2, 5), (31, 0, 7), (25, 10, 9), (44, 8, 11), (42, 14, 13), (19, 12, 15)],
  [(51, 4, 15), (56, 6, 11), (34, 2, 13), (16, 0, 9), (41, 8, 1), (42, 14, 5), (53, 12, 3), (4, 10, 7)],
  [(31, 6, 7), (37, 4, 5), (9, 2, 3), (41, 0, 1), (30, 14, 15), (44, 12, 13), (47, 10, 11), (12, 8, 9)]]
  unA := [
  [(41, 4, 9), (48, 6, 13), (20, 2, 11), (5, 0, 15), (25, 12, 7), (16, 10, 3), (28, 8, 5), (47, 14, 1)],
  [(13, 6, 1), (51, 4, 3), (4, 2, 5), (33, 0, 7), (17, 10, 9), (59, 8, 11), (41, 14, 13), (34, 12, 15)],
  [(55, 4, 15), (10, 6, 11), (19, 2, 13), (38, 0, 9), (52, 8, 1), (23, 14, 5), (18, 12, 3), (49, 10, 7)],
  [(47, 6, 7), (8, 4, 5), (13, 2, 3), (24, 0, 1), (37, 14, 15), (22, 12, 13), (17, 10, 11), (8, 8, 9)]]
  blocks := 10
  lastKey := [3, 4, 5, 6, 7, 8, 9, 10, 11, 12, 13, 14, 15, 16, 0, 1]
  lastTweak := (2, 0)
  lastRound := 20

/-- threefish.cpp:320-333, 372-387, 438-454 and threefish.h:42-58 `SetTweak`.  A tweak parameter shorter than sixteen bytes is read out of
bounds (its length is only asserted); of a longer one the first sixteen bytes are used. -/
def setKey (key : List Byte) (tw : Option (List Byte) := none) : Except Err Keyed :=
  if key.length ≠ 8 * d.n then throw .invalidArgument
  else
    let k := words .little 8 key
    let rkey := k ++ [k.foldl (· ^^^ ·) 0x1BD11BDAA9FC1A22]
    let go (tweak : List W64) : Keyed := ofWords .little 8 d.n (enc d rkey tweak) (dec d rkey tweak)
    match tw with
    | none => pure (go [0, 0, 0])
    | some t =>
      if t.length < 16 then throw .undefinedBehaviour
      else
        let t := words .little 8 (t.take 16)
        pure (go (t ++ [nth t 0 ^^^ nth t 1]))

end Threefish

/-! ## GOST 28147-89 -/
namespace Gost

/-- gost.cpp:8-16 `sBox`. -/
def sBox : List (List Nat) := [
  [4, 10, 9, 2, 13, 8, 0, 14, 6, 11, 1, 12, 7, 15, 5, 3],
  [14, 11, 4, 12, 6, 13, 15, 10, 2, 3, 8, 1, 0, 7, 5, 9],
  [5, 8, 1, 13, 10, 3, 4, 2, 14, 15, 12, 7, 6, 0, 9, 11],
  [7, 13, 10, 1, 0, 8, 9, 15, 14, 4, 6, 12, 11, 2, 5, 3],
  [6, 12, 7, 1, 5, 15, 13, 8, 4, 10, 9, 14, 0, 3, 11, 2],
  [4, 11, 10, 0, 7, 2, 1, 13, 3, 6, 8, 5, 9, 12, 15, 14],
  [13, 11, 4, 1, 3, 15, 5, 9, 0, 10, 14, 7, 6, 8, 2, 12],
  [1, 15, 13, 0, 5, 7, 10, 4, 9, 2, 3, 14, 6, 11, 8, 12]]

/-- gost.cpp:42-56 `PrecalculateSTable`: entry `j` of table `i`. -/
def sTable (i j : Nat) : W32 :=
  rotl (BitVec.ofNat _ ((sBox.getD (2 * i) []).getD (j % 16) 0 ||| (sBox.getD (2 * i + 1) []).getD (j / 16) 0 <<< 4)) (11 + 8 * i)

/-- misc.h `GETBYTE`. -/
def byteOf (t : W32) (i : Nat) : Nat := t.toNat / 256 ^ i % 256

/-- gost.cpp:58-60 `f`. -/
def f (t : W32) : W32 := sTable 3 (byteOf t 3) ^^^ sTable 2 (byteOf t 2) ^^^ sTable 1 (byteOf t 1) ^^^ sTable 0 (byteOf t 0)

/-- Two statements `n2 ^= f(n1+m_key[a]); n1 ^= f(n2+m_key[b])`. -/
def two (k : List W32) (ab : Nat × Nat) : W32 × W32 → W32 × W32 := fun (n1, n2) =>
  let n2 := n2 ^^^ f (n1 + nth k ab.1)
  let n1 := n1 ^^^ f (n2 + nth k ab.2)
  (n1, n2)

def up : List (Nat × Nat) := [(0, 1), (2, 3), (4, 5), (6, 7)]
def down : List (Nat × Nat) := [(7, 6), (5, 4), (3, 2), (1, 0)]

/-- gost.cpp:64-92 `Enc::ProcessAndXorBlock`: `Put(n2)(n1)`. -/
def enc (k : List W32) (x : W32 × W32) : W32 × W32 :=
  let (n1, n2) := (up ++ up ++ up ++ down).foldl (fun x ab => two k ab x) x
  (n2, n1)

/-- gost.cpp:94-122 `Dec::ProcessAndXorBlock`. -/
def dec (k : List W32) (x : W32 × W32) : W32 × W32 :=
  let (n1, n2) := (up ++ down ++ down ++ down).foldl (fun x ab => two k ab x) x
  (n2, n1)

/-- gost.cpp:33-40; gost.h:16 fixed key length 32. -/
def setKey (key : List Byte) : Except Err Keyed :=
  if key.length ≠ 32 then throw .invalidArgument
  else
    let k := words .little 4 key
    pure (ofWords .little 4 2 (on2 (enc k)) (on2 (dec k)))

end Gost
end Verif.Cipher
