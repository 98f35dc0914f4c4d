import Verif.Cipher.Rounds

/-!
# speck.cpp, simon.cpp, simeck.cpp, cham.cpp, hight.cpp

The portable code; the vector units of the library are not modelled.
-/
namespace Verif.Cipher

abbrev W64 := BitVec (8 * 8)

/-- seckey.h:203-208 `StaticGetValidKeyLength` of `VariableKeyLength<D, N, M, Q>`. -/
def getValidKeyLength (N M Q len : Nat) : Nat :=
  if len ≤ N then N else if len ≥ M then M else (len + Q - 1) - (len + Q - 1) % Q

/-- cryptlib.h:677-678 `IsValidKeyLength`. -/
def isValidKeyLength (N M Q len : Nat) : Bool := len == getValidKeyLength N M Q len

/-! ## SPECK -/
namespace Speck

variable {w : Nat}

/-- speck.cpp:31-37 `TF83`. -/
def TF83 (k : BitVec w) : BitVec w × BitVec w → BitVec w × BitVec w := fun (x, y) =>
  let x := rotr x 8
  let x := (x + y) ^^^ k
  let y := rotl y 3
  (x, y ^^^ x)

/-- speck.cpp:47-53 `TR83`. -/
def TR83 (k : BitVec w) : BitVec w × BitVec w → BitVec w × BitVec w := fun (x, y) =>
  let y := rotr (y ^^^ x) 3
  let x := (x ^^^ k) - y
  (rotl x 8, y)

/-- speck.cpp:62-69 `SPECK_Encrypt`. -/
def encrypt (R : Nat) (k : List (BitVec w)) : BitVec w × BitVec w → BitVec w × BitVec w := upto R fun i => TF83 (nth k i)

/-- speck.cpp:78-85 `SPECK_Decrypt`. -/
def decrypt (R : Nat) (k : List (BitVec w)) : BitVec w × BitVec w → BitVec w × BitVec w := downto R fun i => TR83 (nth k i)

/-- One step of the loops below: `key[i]=A; TF83(X, A, i)`, giving the key word, `X` and `A`. -/
def step (i : Nat) (X A : BitVec w) : BitVec w × BitVec w × BitVec w := (A, TF83 (BitVec.ofNat w i) (X, A))

/-- speck.cpp:94-105 `SPECK_ExpandKey_2W`: `n` iterations left, then the last word. -/
def expand2 : Nat → Nat → BitVec w → BitVec w → List (BitVec w)
  | 0, _, _, A => [A]
  | n + 1, i, B, A =>
    let (k, B, A) := step i B A
    k :: expand2 n (i + 1) B A

/-- speck.cpp:114-132 `SPECK_ExpandKey_3W`: `n` blocks left. -/
def expand3 (odd : Bool) : Nat → Nat → BitVec w → BitVec w → BitVec w → List (BitVec w)
  | 0, _, _, _, A => if odd then [A] else []
  | n + 1, i, C, B, A =>
    let (k0, B, A) := step (i + 0) B A
    let (k1, C, A) := step (i + 1) C A
    k0 :: k1 :: expand3 odd n (i + 2) C B A

/-- speck.cpp:141-165 `SPECK_ExpandKey_4W`: `n` blocks left; `rest` is `R%3`. -/
def expand4 (R : Nat) : Nat → Nat → BitVec w → BitVec w → BitVec w → BitVec w → List (BitVec w)
  | 0, _, _, _, B, A =>
    if R % 3 = 1 then [A]
    else if R % 3 = 2 then
      let (k, _, A) := step (R - 2) B A
      [k, A]
    else []
  | n + 1, i, D, C, B, A =>
    let (k0, B, A) := step (i + 0) B A
    let (k1, C, A) := step (i + 1) C A
    let (k2, D, A) := step (i + 2) D A
    k0 :: k1 :: k2 :: expand4 R n (i + 3) D C B A

/-- speck.cpp:246-290, 391-441 `ProcessAndXorBlock`: the second word of a block comes first in the arrays. -/
def process (f : BitVec w × BitVec w → BitVec w × BitVec w) : BitVec w × BitVec w → BitVec w × BitVec w := fun (p1, p0) =>
  let (c0, c1) := f (p0, p1)
  (c1, c0)

def cipher (k R : Nat) (rk : List (BitVec (8 * k))) : Keyed := ofWords .little k 2 (on2 (process (encrypt R rk))) (on2 (process (decrypt R rk)))

/-- speck.cpp:215-244 with cryptlib.cpp:58-62 `SetKey`; speck.h:43, 83 `VariableKeyLength<12, 12, 16>`. -/
def setKey64 (key : List Byte) : Except Err Keyed :=
  if ¬ isValidKeyLength 12 16 1 key.length then throw .invalidArgument
  else match key.length / 4, words .little 4 key with
    | 3, A :: B :: C :: _ => pure (cipher 4 26 (expand3 false 13 0 C B A))
    | 4, A :: B :: C :: D :: _ => pure (cipher 4 27 (expand4 27 9 0 D C B A))
    | _, _ => throw .undefinedBehaviour

/-- speck.cpp:332-389. -/
def setKey128 (key : List Byte) : Except Err Keyed :=
  if ¬ isValidKeyLength 16 32 1 key.length then throw .invalidArgument
  else match key.length / 8, words .little 8 key with
    | 2, A :: B :: _ => pure (cipher 8 32 (expand2 31 0 B A))
    | 3, A :: B :: C :: _ => pure (cipher 8 33 (expand3 true 16 0 C B A))
    | 4, A :: B :: C :: D :: _ => pure (cipher 8 34 (expand4 34 11 0 D C B A))
    | _, _ => throw .undefinedBehaviour

end Speck

/-! ## SIMON -/
namespace Simon

variable {w : Nat}

/-- simon.cpp:27-30 `f`. -/
def f (v : BitVec w) : BitVec w := (rotl v 1 &&& rotl v 8) ^^^ rotl v 2

/-- simon.cpp:39-43 `R2`. -/
def R2 (k l : BitVec w) : BitVec w × BitVec w → BitVec w × BitVec w := fun (x, y) =>
  let y := (y ^^^ f x) ^^^ k
  let x := (x ^^^ f y) ^^^ l
  (x, y)

/-- simon.cpp:52-64 `SIMON_Encrypt`: `R/2` iterations, whether or not `R` is odd. -/
def encrypt (R : Nat) (k : List (BitVec w)) (c : BitVec w × BitVec w) : BitVec w × BitVec w :=
  let (c0, c1) := upto (R / 2) (fun j => R2 (nth k (2 * j)) (nth k (2 * j + 1))) c
  if R % 2 = 1 then ((c1 ^^^ f c0) ^^^ nth k (R - 1), c0) else (c0, c1)

/-- simon.cpp:83-84: `R2(p[1], p[0], k[i + 1], k[i])`. -/
def undo (k : List (BitVec w)) (j : Nat) : BitVec w × BitVec w → BitVec w × BitVec w := fun (p0, p1) =>
  let (p1, p0) := R2 (nth k (2 * j + 1)) (nth k (2 * j)) (p1, p0)
  (p0, p1)

/-- simon.cpp:73-87 `SIMON_Decrypt`. -/
def decrypt (R : Nat) (k : List (BitVec w)) : BitVec w × BitVec w → BitVec w × BitVec w := fun (p0, p1) =>
  let p := if R % 2 = 1 then (p1, (p0 ^^^ nth k (R - 1)) ^^^ f p1) else (p0, p1)
  downto (R / 2) (undo k) p

/-- One word more, simon.cpp:100-105 and 138-142 (three terms) or 120-125 and 180-184 (five terms); `z` is the bit of the constant. -/
def next (five : Bool) (m : Nat) (key : List (BitVec w)) (z : Bool) : List (BitVec w) :=
  let i := key.length
  let c : BitVec w := BitVec.ofNat w (2 ^ w - 4)
  let x := c ^^^ BitVec.ofNat w z.toNat ^^^ nth key (i - m) ^^^ rotr (nth key (i - 1)) 3 ^^^ rotr (nth key (i - 1)) 4
  key ++ [if five then x ^^^ nth key (i - 3) ^^^ rotr (nth key (i - 3)) 1 else x]

/-- The low bits of a constant, `z >>= 1` each time. -/
def bits (z n : Nat) : List Bool := (List.range n).map z.testBit

/-- simon.cpp:94-106. -/
def expand64_3 (k : List (BitVec w)) : List (BitVec w) := (bits 0x7369f885192c0ef5 39).foldl (next false 3) k

/-- simon.cpp:113-126. -/
def expand64_4 (k : List (BitVec w)) : List (BitVec w) := (bits 0xfc2ce51207a635db 40).foldl (next true 4) k

/-- simon.cpp:133-147. -/
def expand128_2 (k : List (BitVec w)) : List (BitVec w) := (bits 0x7369f885192c0ef5 64 ++ [true, false]).foldl (next false 2) k

/-- simon.cpp:154-168. -/
def expand128_3 (k : List (BitVec w)) : List (BitVec w) := (bits 0xfc2ce51207a635db 64 ++ [false, true]).foldl (next false 3) k

/-- simon.cpp:175-191. -/
def expand128_4 (k : List (BitVec w)) : List (BitVec w) := (bits 0xfdc94c3a046d678b 64 ++ [false, true, false, false]).foldl (next true 4) k

def cipher (k R : Nat) (rk : List (BitVec (8 * k))) : Keyed := ofWords .little k 2 (on2 (Speck.process (encrypt R rk))) (on2 (Speck.process (decrypt R rk)))

/-- simon.cpp:233-262. -/
def setKey64 (key : List Byte) : Except Err Keyed :=
  if ¬ isValidKeyLength 12 16 1 key.length then throw .invalidArgument
  else match key.length / 4 with
    | 3 => pure (cipher 4 42 (expand64_3 ((words .little 4 key).take 3)))
    | 4 => pure (cipher 4 44 (expand64_4 ((words .little 4 key).take 4)))
    | _ => throw .undefinedBehaviour

/-- simon.cpp:350-407. -/
def setKey128 (key : List Byte) : Except Err Keyed :=
  if ¬ isValidKeyLength 16 32 1 key.length then throw .invalidArgument
  else match key.length / 8 with
    | 2 => pure (cipher 8 68 (expand128_2 ((words .little 8 key).take 2)))
    | 3 => pure (cipher 8 69 (expand128_3 ((words .little 8 key).take 3)))
    | 4 => pure (cipher 8 72 (expand128_4 ((words .little 8 key).take 4)))
    | _ => throw .undefinedBehaviour

end Simon

/-! ## SIMECK -/
namespace Simeck

variable {w : Nat}

/-- simeck.cpp:25-30 `SIMECK_Encryption`. -/
def round (key : BitVec w) : BitVec w × BitVec w → BitVec w × BitVec w := fun (left, right) =>
  ((left &&& rotl left 5) ^^^ rotl left 1 ^^^ right ^^^ key, left)

/-- simeck.cpp:47-66, 106-125: `n` iterations left; the constants are given by `mask` (`0xFFFC` or `0xFFFFFFFC`) and the bits of the
sequence. -/
def expand (seq : Nat) : Nat → Nat → BitVec w → BitVec w → BitVec w → BitVec w → List (BitVec w)
  | 0, _, _, _, _, _ => []
  | n + 1, i, t0, t1, t2, t3 =>
    let constant : BitVec w := BitVec.ofNat w (2 ^ w - 4 + (seq.testBit i).toNat)
    let (t1', t0') := round constant (t1, t0)
    t0 :: expand seq n (i + 1) t0' t2 t3 t1'

/-- simeck.cpp:69-80, 128-139 `Enc::ProcessAndXorBlock`: the block is `m_t[1]`, `m_t[0]`. -/
def enc (R : Nat) (rk : List (BitVec w)) : BitVec w × BitVec w → BitVec w × BitVec w := upto R fun i => round (nth rk i)

/-- simeck.cpp:82-93, 141-152 `Dec::ProcessAndXorBlock`: the block is `m_t[0]`, `m_t[1]`. -/
def dec (R : Nat) (rk : List (BitVec w)) : BitVec w × BitVec w → BitVec w × BitVec w := fun (t0, t1) =>
  let (t1, t0) := downto R (fun i => round (nth rk i)) (t1, t0)
  (t0, t1)

def cipher (k R : Nat) (rk : List (BitVec (8 * k))) : Keyed := ofWords .big k 2 (on2 (enc R rk)) (on2 (dec R rk))

/-- simeck.cpp:41-67. -/
def setKey32 (key : List Byte) : Except Err Keyed :=
  if key.length ≠ 8 then throw .invalidArgument
  else match words .big 2 key with
    | [t3, t2, t1, t0] => pure (cipher 2 32 (expand 0x9A42BB1F 32 0 t0 t1 t2 t3))
    | _ => throw .undefinedBehaviour

/-- simeck.cpp:100-126. -/
def setKey64 (key : List Byte) : Except Err Keyed :=
  if key.length ≠ 16 then throw .invalidArgument
  else match words .big 4 key with
    | [t3, t2, t1, t0] => pure (cipher 4 44 (expand 0x938BCA3083F 44 0 t0 t1 t2 t3))
    | _ => throw .undefinedBehaviour

end Simeck

/-! ## CHAM -/
namespace Cham

variable {w : Nat}

/-- cham.cpp:46-59 `CHAM_EncRound<RR, KW>`. -/
def encRound (RR KW : Nat) (k : List (BitVec w)) (i : Nat) (x : List (BitVec w)) : List (BitVec w) :=
  let R1 := if RR % 2 = 0 then 1 else 8
  let R2 := if RR % 2 = 0 then 8 else 1
  let kk := nth k (i % KW)
  let aa := nth x ((RR + 0) % 4) ^^^ BitVec.ofNat w i
  let bb := rotl (nth x ((RR + 1) % 4)) R1 ^^^ kk
  x.set ((RR + 3 + 1) % 4) (rotl (aa + bb) R2)

/-- cham.cpp:80-93 `CHAM_DecRound<RR, KW>`. -/
def decRound (RR KW : Nat) (k : List (BitVec w)) (i : Nat) (x : List (BitVec w)) : List (BitVec w) :=
  let R1 := if RR % 2 = 0 then 8 else 1
  let R2 := if RR % 2 = 0 then 1 else 8
  let kk := nth k (i % KW)
  let aa := rotr (nth x ((RR + 3 + 1) % 4)) R1
  let bb := rotl (nth x ((RR + 1) % 4)) R2 ^^^ kk
  x.set ((RR + 0) % 4) ((aa - bb) ^^^ BitVec.ofNat w i)

/-- cham.cpp:138-167, 225-279 `Enc::ProcessAndXorBlock`: `blocks` iterations of `KW` unrolled rounds. -/
def enc (blocks KW : Nat) (k : List (BitVec w)) : List (BitVec w) → List (BitVec w) :=
  upto blocks fun b => upto KW fun rr => encRound rr KW k (KW * b + rr)

/-- cham.cpp:169-198, 281-335 `Dec::ProcessAndXorBlock`: in the other order. -/
def dec (blocks KW : Nat) (k : List (BitVec w)) : List (BitVec w) → List (BitVec w) :=
  downto blocks fun b => downto KW fun rr => decRound rr KW k (KW * b + rr)

/-- cham.cpp:115-136, 209-223 `UncheckedSetKey`: `m_rk[i] = ...; m_rk[(i + m_kw) ^ 1] = ...`. -/
def expand (kw : Nat) (key : List (BitVec w)) : List (BitVec w) :=
  upto kw (fun i rk =>
    let x := nth key i
    let rk := rk.set i (x ^^^ rotl x 1 ^^^ rotl x 8)
    rk.set ((i + kw) ^^^ 1) (x ^^^ rotl x 1 ^^^ rotl x 11)) (List.replicate (2 * kw) 0)

/-- cham.cpp:115-198; cham.h:51 fixed key length 16. -/
def setKey64 (key : List Byte) : Except Err Keyed :=
  if key.length ≠ 16 then throw .invalidArgument
  else
    let rk := expand 8 (words .big 2 key)
    pure (ofWords .big 2 4 (enc 5 16 rk) (dec 5 16 rk))

/-- cham.cpp:209-335; cham.h:119 key lengths 16 and 32. -/
def setKey128 (key : List Byte) : Except Err Keyed :=
  let rk := expand (key.length / 4) (words .big 4 key)
  if key.length = 16 then pure (ofWords .big 4 4 (enc 10 8 rk) (dec 10 8 rk))
  else if key.length = 32 then pure (ofWords .big 4 4 (enc 6 16 rk) (dec 6 16 rk))
  else throw .invalidArgument

end Cham

/-! ## HIGHT -/
namespace Hight

abbrev B8 := BitVec (8 * 1)

/-- hight.cpp:22-39 `DELTA`. -/
def DELTA : List B8 := [
  0x5A, 0x6D, 0x36, 0x1B, 0x0D, 0x06, 0x03, 0x41, 0x60, 0x30, 0x18, 0x4C, 0x66, 0x33, 0x59, 0x2C,
  0x56, 0x2B, 0x15, 0x4A, 0x65, 0x72, 0x39, 0x1C, 0x4E, 0x67, 0x73, 0x79, 0x3C, 0x5E, 0x6F, 0x37,
  0x5B, 0x2D, 0x16, 0x0B, 0x05, 0x42, 0x21, 0x50, 0x28, 0x54, 0x2A, 0x55, 0x6A, 0x75, 0x7A, 0x7D,
  0x3E, 0x5F, 0x2F, 0x17, 0x4B, 0x25, 0x52, 0x29, 0x14, 0x0A, 0x45, 0x62, 0x31, 0x58, 0x6C, 0x76,
  0x3B, 0x1D, 0x0E, 0x47, 0x63, 0x71, 0x78, 0x7C, 0x7E, 0x7F, 0x3F, 0x1F, 0x0F, 0x07, 0x43, 0x61,
  0x70, 0x38, 0x5C, 0x6E, 0x77, 0x7B, 0x3D, 0x1E, 0x4F, 0x27, 0x53, 0x69, 0x34, 0x1A, 0x4D, 0x26,
  0x13, 0x49, 0x24, 0x12, 0x09, 0x04, 0x02, 0x01, 0x40, 0x20, 0x10, 0x08, 0x44, 0x22, 0x11, 0x48,
  0x64, 0x32, 0x19, 0x0C, 0x46, 0x23, 0x51, 0x68, 0x74, 0x3A, 0x5D, 0x2E, 0x57, 0x6B, 0x35, 0x5A]

/-- hight.cpp:41-74 `HIGHT_F0`. -/
def F0 : List B8 := [
  0x00, 0x86, 0x0D, 0x8B, 0x1A, 0x9C, 0x17, 0x91, 0x34, 0xB2, 0x39, 0xBF, 0x2E, 0xA8, 0x23, 0xA5,
  0x68, 0xEE, 0x65, 0xE3, 0x72, 0xF4, 0x7F, 0xF9, 0x5C, 0xDA, 0x51, 0xD7, 0x46, 0xC0, 0x4B, 0xCD,
  0xD0, 0x56, 0xDD, 0x5B, 0xCA, 0x4C, 0xC7, 0x41, 0xE4, 0x62, 0xE9, 0x6F, 0xFE, 0x78, 0xF3, 0x75,
  0xB8, 0x3E, 0xB5, 0x33, 0xA2, 0x24, 0xAF, 0x29, 0x8C, 0x0A, 0x81, 0x07, 0x96, 0x10, 0x9B, 0x1D,
  0xA1, 0x27, 0xAC, 0x2A, 0xBB, 0x3D, 0xB6, 0x30, 0x95, 0x13, 0x98, 0x1E, 0x8F, 0x09, 0x82, 0x04,
  0xC9, 0x4F, 0xC4, 0x42, 0xD3, 0x55, 0xDE, 0x58, 0xFD, 0x7B, 0xF0, 0x76, 0xE7, 0x61, 0xEA, 0x6C,
  0x71, 0xF7, 0x7C, 0xFA, 0x6B, 0xED, 0x66, 0xE0, 0x45, 0xC3, 0x48, 0xCE, 0x5F, 0xD9, 0x52, 0xD4,
  0x19, 0x9F, 0x14, 0x92, 0x03, 0x85, 0x0E, 0x88, 0x2D, 0xAB, 0x20, 0xA6, 0x37, 0xB1, 0x3A, 0xBC,
  0x43, 0xC5, 0x4E, 0xC8, 0x59, 0xDF, 0x54, 0xD2, 0x77, 0xF1, 0x7A, 0xFC, 0x6D, 0xEB, 0x60, 0xE6,
  0x2B, 0xAD, 0x26, 0xA0, 0x31, 0xB7, 0x3C, 0xBA, 0x1F, 0x99, 0x12, 0x94, 0x05, 0x83, 0x08, 0x8E,
  0x93, 0x15, 0x9E, 0x18, 0x89, 0x0F, 0x84, 0x02, 0xA7, 0x21, 0xAA, 0x2C, 0xBD, 0x3B, 0xB0, 0x36,
  0xFB, 0x7D, 0xF6, 0x70, 0xE1, 0x67, 0xEC, 0x6A, 0xCF, 0x49, 0xC2, 0x44, 0xD5, 0x53, 0xD8, 0x5E,
  0xE2, 0x64, 0xEF, 0x69, 0xF8, 0x7E, 0xF5, 0x73, 0xD6, 0x50, 0xDB, 0x5D, 0xCC, 0x4A, 0xC1, 0x47,
  0x8A, 0x0C, 0x87, 0x01, 0x90, 0x16, 0x9D, 0x1B, 0xBE, 0x38, 0xB3, 0x35, 0xA4, 0x22, 0xA9, 0x2F,
  0x32, 0xB4, 0x3F, 0xB9, 0x28, 0xAE, 0x25, 0xA3, 0x06, 0x80, 0x0B, 0x8D, 0x1C, 0x9A, 0x11, 0x97,
  0x5A, 0xDC, 0x57, 0xD1, 0x40, 0xC6, 0x4D, 0xCB, 0x6E, 0xE8, 0x63, 0xE5, 0x74, 0xF2, 0x79, 0xFF]

/-- hight.cpp:76-109 `HIGHT_F1`. -/
def F1 : List B8 := [
  0x00, 0x58, 0xB0, 0xE8, 0x61, 0x39, 0xD1, 0x89, 0xC2, 0x9A, 0x72, 0x2A, 0xA3, 0xFB, 0x13, 0x4B,
  0x85, 0xDD, 0x35, 0x6D, 0xE4, 0xBC, 0x54, 0x0C, 0x47, 0x1F, 0xF7, 0xAF, 0x26, 0x7E, 0x96, 0xCE,
  0x0B, 0x53, 0xBB, 0xE3, 0x6A, 0x32, 0xDA, 0x82, 0xC9, 0x91, 0x79, 0x21, 0xA8, 0xF0, 0x18, 0x40,
  0x8E, 0xD6, 0x3E, 0x66, 0xEF, 0xB7, 0x5F, 0x07, 0x4C, 0x14, 0xFC, 0xA4, 0x2D, 0x75, 0x9D, 0xC5,
  0x16, 0x4E, 0xA6, 0xFE, 0x77, 0x2F, 0xC7, 0x9F, 0xD4, 0x8C, 0x64, 0x3C, 0xB5, 0xED, 0x05, 0x5D,
  0x93, 0xCB, 0x23, 0x7B, 0xF2, 0xAA, 0x42, 0x1A, 0x51, 0x09, 0xE1, 0xB9, 0x30, 0x68, 0x80, 0xD8,
  0x1D, 0x45, 0xAD, 0xF5, 0x7C, 0x24, 0xCC, 0x94, 0xDF, 0x87, 0x6F, 0x37, 0xBE, 0xE6, 0x0E, 0x56,
  0x98, 0xC0, 0x28, 0x70, 0xF9, 0xA1, 0x49, 0x11, 0x5A, 0x02, 0xEA, 0xB2, 0x3B, 0x63, 0x8B, 0xD3,
  0x2C, 0x74, 0x9C, 0xC4, 0x4D, 0x15, 0xFD, 0xA5, 0xEE, 0xB6, 0x5E, 0x06, 0x8F, 0xD7, 0x3F, 0x67,
  0xA9, 0xF1, 0x19, 0x41, 0xC8, 0x90, 0x78, 0x20, 0x6B, 0x33, 0xDB, 0x83, 0x0A, 0x52, 0xBA, 0xE2,
  0x27, 0x7F, 0x97, 0xCF, 0x46, 0x1E, 0xF6, 0xAE, 0xE5, 0xBD, 0x55, 0x0D, 0x84, 0xDC, 0x34, 0x6C,
  0xA2, 0xFA, 0x12, 0x4A, 0xC3, 0x9B, 0x73, 0x2B, 0x60, 0x38, 0xD0, 0x88, 0x01, 0x59, 0xB1, 0xE9,
  0x3A, 0x62, 0x8A, 0xD2, 0x5B, 0x03, 0xEB, 0xB3, 0xF8, 0xA0, 0x48, 0x10, 0x99, 0xC1, 0x29, 0x71,
  0xBF, 0xE7, 0x0F, 0x57, 0xDE, 0x86, 0x6E, 0x36, 0x7D, 0x25, 0xCD, 0x95, 0x1C, 0x44, 0xAC, 0xF4,
  0x31, 0x69, 0x81, 0xD9, 0x50, 0x08, 0xE0, 0xB8, 0xF3, 0xAB, 0x43, 0x1B, 0x92, 0xCA, 0x22, 0x7A,
  0xB4, 0xEC, 0x04, 0x5C, 0xD5, 0x8D, 0x65, 0x3D, 0x76, 0x2E, 0xC6, 0x9E, 0x17, 0x4F, 0xA7, 0xFF]

/-- hight.cpp:157-188: the uses of `HIGHT_ENC`. -/
def encRows : List (Nat × List Nat) := [
  (2, [7, 6, 5, 4, 3, 2, 1, 0]), (3, [6, 5, 4, 3, 2, 1, 0, 7]), (4, [5, 4, 3, 2, 1, 0, 7, 6]), (5, [4, 3, 2, 1, 0, 7, 6, 5]),
  (6, [3, 2, 1, 0, 7, 6, 5, 4]), (7, [2, 1, 0, 7, 6, 5, 4, 3]), (8, [1, 0, 7, 6, 5, 4, 3, 2]), (9, [0, 7, 6, 5, 4, 3, 2, 1]),
  (10, [7, 6, 5, 4, 3, 2, 1, 0]), (11, [6, 5, 4, 3, 2, 1, 0, 7]), (12, [5, 4, 3, 2, 1, 0, 7, 6]), (13, [4, 3, 2, 1, 0, 7, 6, 5]),
  (14, [3, 2, 1, 0, 7, 6, 5, 4]), (15, [2, 1, 0, 7, 6, 5, 4, 3]), (16, [1, 0, 7, 6, 5, 4, 3, 2]), (17, [0, 7, 6, 5, 4, 3, 2, 1]),
  (18, [7, 6, 5, 4, 3, 2, 1, 0]), (19, [6, 5, 4, 3, 2, 1, 0, 7]), (20, [5, 4, 3, 2, 1, 0, 7, 6]), (21, [4, 3, 2, 1, 0, 7, 6, 5]),
  (22, [3, 2, 1, 0, 7, 6, 5, 4]), (23, [2, 1, 0, 7, 6, 5, 4, 3]), (24, [1, 0, 7, 6, 5, 4, 3, 2]), (25, [0, 7, 6, 5, 4, 3, 2, 1]),
  (26, [7, 6, 5, 4, 3, 2, 1, 0]), (27, [6, 5, 4, 3, 2, 1, 0, 7]), (28, [5, 4, 3, 2, 1, 0, 7, 6]), (29, [4, 3, 2, 1, 0, 7, 6, 5]),
  (30, [3, 2, 1, 0, 7, 6, 5, 4]), (31, [2, 1, 0, 7, 6, 5, 4, 3]), (32, [1, 0, 7, 6, 5, 4, 3, 2]), (33, [0, 7, 6, 5, 4, 3, 2, 1])]

/-- hight.cpp:237-268: the uses of `HIGHT_DEC`. -/
def decRows : List (Nat × List Nat) := [
  (33, [7, 6, 5, 4, 3, 2, 1, 0]), (32, [0, 7, 6, 5, 4, 3, 2, 1]), (31, [1, 0, 7, 6, 5, 4, 3, 2]), (30, [2, 1, 0, 7, 6, 5, 4, 3]),
  (29, [3, 2, 1, 0, 7, 6, 5, 4]), (28, [4, 3, 2, 1, 0, 7, 6, 5]), (27, [5, 4, 3, 2, 1, 0, 7, 6]), (26, [6, 5, 4, 3, 2, 1, 0, 7]),
  (25, [7, 6, 5, 4, 3, 2, 1, 0]), (24, [0, 7, 6, 5, 4, 3, 2, 1]), (23, [1, 0, 7, 6, 5, 4, 3, 2]), (22, [2, 1, 0, 7, 6, 5, 4, 3]),
  (21, [3, 2, 1, 0, 7, 6, 5, 4]), (20, [4, 3, 2, 1, 0, 7, 6, 5]), (19, [5, 4, 3, 2, 1, 0, 7, 6]), (18, [6, 5, 4, 3, 2, 1, 0, 7]),
  (17, [7, 6, 5, 4, 3, 2, 1, 0]), (16, [0, 7, 6, 5, 4, 3, 2, 1]), (15, [1, 0, 7, 6, 5, 4, 3, 2]), (14, [2, 1, 0, 7, 6, 5, 4, 3]),
  (13, [3, 2, 1, 0, 7, 6, 5, 4]), (12, [4, 3, 2, 1, 0, 7, 6, 5]), (11, [5, 4, 3, 2, 1, 0, 7, 6]), (10, [6, 5, 4, 3, 2, 1, 0, 7]),
  (9, [7, 6, 5, 4, 3, 2, 1, 0]), (8, [0, 7, 6, 5, 4, 3, 2, 1]), (7, [1, 0, 7, 6, 5, 4, 3, 2]), (6, [2, 1, 0, 7, 6, 5, 4, 3]),
  (5, [3, 2, 1, 0, 7, 6, 5, 4]), (4, [4, 3, 2, 1, 0, 7, 6, 5]), (3, [5, 4, 3, 2, 1, 0, 7, 6]), (2, [6, 5, 4, 3, 2, 1, 0, 7])]

/-- hight.cpp:115-134 `UncheckedSetKey`: the first eight round key bytes, then sixteen at a time. -/
def expand (key : List B8) : List B8 :=
  (List.range 4).map (fun i => nth key (i + 12)) ++ (List.range 4).map (fun i => nth key i) ++
    (List.range 8).flatMap fun i =>
      (List.range 8).map (fun j => nth key ((j + 8 - i) % 8) + nth DELTA (16 * i + j)) ++
      (List.range 8).map (fun j => nth key ((j + 8 - i) % 8 + 8) + nth DELTA (16 * i + j + 8))

/-- hight.cpp:150-155 `HIGHT_ENC(k, i0, ..., i7)`; the words of `m_xx` are below 256, so this is arithmetic on bytes. -/
def encRow (rkey : List B8) (k : Nat) (i : List Nat) (x : List B8) : List B8 :=
  let ix n := i.getD n 0
  let x := x.set (ix 0) (nth x (ix 0) ^^^ (nth F0 (nth x (ix 1)).toNat + nth rkey (4 * k + 3)))
  let x := x.set (ix 2) (nth x (ix 2) + (nth F1 (nth x (ix 3)).toNat ^^^ nth rkey (4 * k + 2)))
  let x := x.set (ix 4) (nth x (ix 4) ^^^ (nth F0 (nth x (ix 5)).toNat + nth rkey (4 * k + 1)))
  x.set (ix 6) (nth x (ix 6) + (nth F1 (nth x (ix 7)).toNat ^^^ nth rkey (4 * k + 0)))

/-- hight.cpp:230-235 `HIGHT_DEC(k, i0, ..., i7)`. -/
def decRow (rkey : List B8) (k : Nat) (i : List Nat) (x : List B8) : List B8 :=
  let ix n := i.getD n 0
  let x := x.set (ix 1) (nth x (ix 1) - (nth F1 (nth x (ix 2)).toNat ^^^ nth rkey (4 * k + 2)))
  let x := x.set (ix 3) (nth x (ix 3) ^^^ (nth F0 (nth x (ix 4)).toNat + nth rkey (4 * k + 1)))
  let x := x.set (ix 5) (nth x (ix 5) - (nth F1 (nth x (ix 6)).toNat ^^^ nth rkey (4 * k + 0)))
  x.set (ix 7) (nth x (ix 7) ^^^ (nth F0 (nth x (ix 0)).toNat + nth rkey (4 * k + 3)))

/-- hight.cpp:139-147: the first round of encryption. -/
def encFirst (rkey : List B8) (b : List B8) : List B8 :=
  [nth b 0 + nth rkey 0, nth b 1, nth b 2 ^^^ nth rkey 1, nth b 3, nth b 4 + nth rkey 2, nth b 5, nth b 6 ^^^ nth rkey 3, nth b 7]

/-- hight.cpp:190-215: the final round of encryption (the mask is added by `xorOut`). -/
def encLast (rkey : List B8) (x : List B8) : List B8 :=
  [nth x 1 + nth rkey 4, nth x 2, nth x 3 ^^^ nth rkey 5, nth x 4, nth x 5 + nth rkey 6, nth x 6, nth x 7 ^^^ nth rkey 7, nth x 0]

/-- hight.cpp:220-228. -/
def decFirst (rkey : List B8) (b : List B8) : List B8 :=
  [nth b 7, nth b 0 - nth rkey 4, nth b 1, nth b 2 ^^^ nth rkey 5, nth b 3, nth b 4 - nth rkey 6, nth b 5, nth b 6 ^^^ nth rkey 7]

/-- hight.cpp:270-296. -/
def decLast (rkey : List B8) (x : List B8) : List B8 :=
  [nth x 0 - nth rkey 0, nth x 1, nth x 2 ^^^ nth rkey 1, nth x 3, nth x 4 - nth rkey 2, nth x 5, nth x 6 ^^^ nth rkey 3, nth x 7]

/-- hight.cpp:136-216. -/
def enc (rkey : List B8) (b : List B8) : List B8 :=
  encLast rkey (encRows.foldl (fun x r => encRow rkey r.1 r.2 x) (encFirst rkey b))

/-- hight.cpp:218-297. -/
def dec (rkey : List B8) (b : List B8) : List B8 :=
  decLast rkey (decRows.foldl (fun x r => decRow rkey r.1 r.2 x) (decFirst rkey b))

/-- hight.cpp:115-297; hight.h:22 fixed key length 16. -/
def setKey (key : List Byte) : Except Err Keyed :=
  if key.length ≠ 16 then throw .invalidArgument
  else
    let rkey := expand (words .big 1 key)
    pure (ofWords .big 1 8 (enc rkey) (dec rkey))

end Hight
end Verif.Cipher
