import Verif.Words

/-!
# BLAKE2 as in RFC 7693, with the salt, the personalization and the last-node flag of the BLAKE2 paper (section 2.5, 2.8 and 2.10)
-/
namespace Verif.Blake2.Spec

/-- RFC 7693 2.1: word size in bits, number of rounds, rotation distances, initialization vector. -/
structure Variant where
  w : Nat
  rounds : Nat
  R1 : Nat
  R2 : Nat
  R3 : Nat
  R4 : Nat
  IV : List (BitVec w)

/-- 2.1, 2.6: BLAKE2b -/
def b : Variant := ⟨64, 12, 32, 24, 16, 63,
  [0x6a09e667f3bcc908, 0xbb67ae8584caa73b, 0x3c6ef372fe94f82b, 0xa54ff53a5f1d36f1, 0x510e527fade682d1, 0x9b05688c2b3e6c1f, 0x1f83d9abfb41bd6b, 0x5be0cd19137e2179]⟩

/-- 2.1, 2.6: BLAKE2s -/
def s : Variant := ⟨32, 10, 16, 12, 8, 7,
  [0x6a09e667, 0xbb67ae85, 0x3c6ef372, 0xa54ff53a, 0x510e527f, 0x9b05688c, 0x1f83d9ab, 0x5be0cd19]⟩

/-- Bytes of a block: sixteen words. -/
def Variant.bb (V : Variant) : Nat := V.w * 2

/-- 2.7: the message schedule. -/
def SIGMA : List (List Nat) := [
  [0, 1, 2, 3, 4, 5, 6, 7, 8, 9, 10, 11, 12, 13, 14, 15],
  [14, 10, 4, 8, 9, 15, 13, 6, 1, 12, 0, 2, 11, 7, 5, 3],
  [11, 8, 12, 0, 5, 2, 15, 13, 10, 14, 3, 6, 7, 1, 9, 4],
  [7, 9, 3, 1, 13, 12, 11, 14, 2, 6, 5, 10, 4, 0, 15, 8],
  [9, 0, 5, 7, 2, 4, 10, 15, 14, 1, 11, 12, 6, 8, 3, 13],
  [2, 12, 6, 10, 0, 11, 8, 3, 4, 13, 7, 5, 15, 14, 1, 9],
  [12, 5, 1, 15, 14, 13, 4, 10, 0, 7, 6, 3, 9, 2, 8, 11],
  [13, 11, 7, 14, 12, 1, 3, 9, 5, 0, 15, 4, 8, 6, 2, 10],
  [6, 15, 14, 9, 11, 3, 0, 8, 12, 2, 13, 7, 1, 4, 10, 5],
  [10, 2, 8, 4, 7, 6, 1, 5, 15, 11, 9, 14, 3, 12, 13, 0]]

variable (V : Variant)

/-- 3.1: mix two words `x` and `y` into the entries `a`, `b`, `c`, `d` of the vector. -/
def G (v : List (BitVec V.w)) (a b c d : Nat) (x y : BitVec V.w) : List (BitVec V.w) :=
  let v := v.set a (v.getD a 0 + v.getD b 0 + x)
  let v := v.set d ((v.getD d 0 ^^^ v.getD a 0).rotateRight V.R1)
  let v := v.set c (v.getD c 0 + v.getD d 0)
  let v := v.set b ((v.getD b 0 ^^^ v.getD c 0).rotateRight V.R2)
  let v := v.set a (v.getD a 0 + v.getD b 0 + y)
  let v := v.set d ((v.getD d 0 ^^^ v.getD a 0).rotateRight V.R3)
  let v := v.set c (v.getD c 0 + v.getD d 0)
  v.set b ((v.getD b 0 ^^^ v.getD c 0).rotateRight V.R4)

/-- 3.2: the eight mixings of a round, as positions in the vector. -/
def positions : List (Nat × Nat × Nat × Nat) :=
  [(0, 4, 8, 12), (1, 5, 9, 13), (2, 6, 10, 14), (3, 7, 11, 15), (0, 5, 10, 15), (1, 6, 11, 12), (2, 7, 8, 13), (3, 4, 9, 14)]

/-- 3.2: round `i` of the compression function. -/
def round (m v : List (BitVec V.w)) (i : Nat) : List (BitVec V.w) :=
  let s := SIGMA.getD (i % 10) []
  positions.zipIdx.foldl (fun v (p, n) => G V v p.1 p.2.1 p.2.2.1 p.2.2.2 (m.getD (s.getD (2 * n) 0) 0) (m.getD (s.getD (2 * n + 1) 0) 0)) v

/-- All ones when a flag is set. -/
def flag (f : Bool) : BitVec V.w := if f then BitVec.allOnes V.w else 0

/-- The sixteen words of a block, least significant byte first. -/
def words (x : List Byte) : List (BitVec V.w) := (chunks (V.w / 8) x).map fun c => BitVec.ofNat V.w (leVal c)

/-- 3.2: the compression function `F(h, m, t, f)`; `last` and `node` are the flags for the last block and (from the paper) the last node. -/
def F (h : List (BitVec V.w)) (block : List Byte) (t : Nat) (last node : Bool) : List (BitVec V.w) :=
  let IV (i : Nat) := V.IV.getD i 0
  let v := h ++ [IV 0, IV 1, IV 2, IV 3, IV 4 ^^^ BitVec.ofNat V.w t, IV 5 ^^^ BitVec.ofNat V.w (t >>> V.w), IV 6 ^^^ flag V last, IV 7 ^^^ flag V node]
  let v := (List.range V.rounds).foldl (round V (words V block)) v
  (List.range 8).map fun i => h.getD i 0 ^^^ v.getD i 0 ^^^ v.getD (i + 8) 0

/-- Fill up with zero bytes. -/
def pad (n : Nat) (x : List Byte) : List Byte := x ++ List.replicate (n - x.length) 0

/-- 2.5 and the paper's table of the parameter block for sequential hashing: digest length, key length, fanout 1, depth 1, zeros, then salt and personalization
in the last two quarters. -/
def parameters (nn kk : Nat) (salt pers : List Byte) : List Byte :=
  pad (V.w / 2) ([BitVec.ofNat 8 nn, BitVec.ofNat 8 kk, 1, 1]) ++ pad (V.w / 4) salt ++ pad (V.w / 4) pers

/-- 3.3: all blocks but the last one, then the last one; `t` counts the bytes before `d`, `ll` is their total number. -/
def process (node : Bool) (ll : Nat) : List (BitVec V.w) → Nat → List (List Byte) → List (BitVec V.w)
  | h, _, [] => F V h (pad V.bb []) ll true node
  | h, _, [d] => F V h (pad V.bb d) ll true node
  | h, t, d :: ds => process node ll (F V h d (t + V.bb) false false) (t + V.bb) ds

/-- 3.3: a key is padded to a block, which goes before the message. -/
def input (key msg : List Byte) : List Byte := (if key = [] then [] else pad V.bb key) ++ msg

/-- 3.3: `BLAKE2(d, ll, kk, nn)`, the digest of `nn` bytes. -/
def hash (nn : Nat) (key salt pers : List Byte) (node : Bool) (msg : List Byte) : List Byte :=
  let p := words V (parameters V nn key.length salt pers)
  let h := (List.range 8).map fun i => V.IV.getD i 0 ^^^ p.getD i 0
  let d := input V key msg
  ((process V node d.length h 0 (chunks V.bb d)).flatMap fun x => leBytes (V.w / 8) x.toNat).take nn

end Verif.Blake2.Spec
