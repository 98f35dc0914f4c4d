import Verif.Words

/-!
# Serpent as its authors define it

R. Anderson, E. Biham, L. Knudsen, "Serpent: A Proposal for the Advanced Encryption Standard", in the bitslice description.
-/
namespace Verif.Serpent.Spec

abbrev W := BitVec 32

/-- Four words: bit `i` of each makes the nibble of S-box `i`, with bit `i` of the first word as the lowest. -/
structure Four where
  x0 : W
  x1 : W
  x2 : W
  x3 : W
deriving DecidableEq

/-- The S-boxes. -/
def box : Nat → List Nat
  | 0 => [3, 8, 15, 1, 10, 6, 5, 11, 14, 13, 4, 2, 7, 0, 9, 12]
  | 1 => [15, 12, 2, 7, 9, 0, 5, 10, 1, 11, 14, 8, 6, 13, 3, 4]
  | 2 => [8, 6, 7, 9, 3, 12, 10, 15, 13, 1, 14, 4, 0, 11, 5, 2]
  | 3 => [0, 15, 11, 8, 12, 9, 6, 3, 13, 1, 2, 4, 10, 7, 5, 14]
  | 4 => [1, 15, 8, 3, 12, 0, 11, 6, 2, 5, 4, 10, 9, 14, 7, 13]
  | 5 => [15, 5, 2, 11, 4, 10, 9, 12, 0, 3, 14, 8, 13, 6, 7, 1]
  | 6 => [7, 2, 12, 5, 8, 4, 6, 11, 14, 9, 1, 15, 13, 3, 10, 0]
  | _ => [1, 13, 15, 0, 14, 8, 2, 11, 7, 4, 12, 10, 9, 3, 5, 6]

/-- The nibble at bit `i`. -/
def nibble (x : Four) (i : Nat) : Nat := (x.x0.getLsbD i).toNat + 2 * (x.x1.getLsbD i).toNat + 4 * (x.x2.getLsbD i).toNat + 8 * (x.x3.getLsbD i).toNat

/-- The word of `n` bits with these bits. -/
def ofBits (f : Nat → Bool) : (n : Nat) → BitVec n
  | 0 => 0#0
  | n + 1 => (ofBits f n).cons (f n)

/-- S-box `j` applied to all nibbles. -/
def sub (j : Nat) (x : Four) : Four :=
  let out (t : Nat) : W := ofBits (fun i => ((box j).getD (nibble x i) 0).testBit t) 32
  ⟨out 0, out 1, out 2, out 3⟩

def xor (x y : Four) : Four := ⟨x.x0 ^^^ y.x0, x.x1 ^^^ y.x1, x.x2 ^^^ y.x2, x.x3 ^^^ y.x3⟩

/-- The linear transformation. -/
def linear (x : Four) : Four :=
  let x0 := x.x0.rotateLeft 13
  let x2 := x.x2.rotateLeft 3
  let x1 := x.x1 ^^^ x0 ^^^ x2
  let x3 := x.x3 ^^^ x2 ^^^ (x0 <<< 3)
  let x1 := x1.rotateLeft 1
  let x3 := x3.rotateLeft 7
  let x0 := x0 ^^^ x1 ^^^ x3
  let x2 := x2 ^^^ x3 ^^^ (x1 <<< 7)
  ⟨x0.rotateLeft 5, x1, x2.rotateLeft 22, x3⟩

/-- A short key is followed by a bit 1 and zeros, to 256 bits. -/
def pad (key : List Byte) : List Byte := if key.length < 32 then key ++ [1] ++ List.replicate (31 - key.length) 0 else key

/-- Word `i` of little-endian bytes. -/
def wordAt (b : List Byte) (i : Nat) : W := BitVec.ofNat 32 (leVal ((b.drop (4 * i)).take 4))

/-- The prekeys: the list of `w₋₈ .. w₋₁` continued by `n` words, `w_i = (w_{i-8} ⊕ w_{i-5} ⊕ w_{i-3} ⊕ w_{i-1} ⊕ φ ⊕ i) <<< 11`. -/
def prekeys (key : List Byte) : Nat → List W
  | 0 => (List.range 8).map (wordAt (pad key))
  | n + 1 =>
    let w := prekeys key n
    w ++ [(w.getD n 0 ^^^ w.getD (n + 3) 0 ^^^ w.getD (n + 5) 0 ^^^ w.getD (n + 7) 0 ^^^ 0x9e3779b9 ^^^ BitVec.ofNat 32 n).rotateLeft 11]

/-- The prekey `w_i` for `i ≥ 0`. -/
def prekey (key : List Byte) (i : Nat) : W := (prekeys key 132).getD (i + 8) 0

/-- The round keys `K_0 .. K_32`: S-box `3 - r` modulo 8 of four prekeys. -/
def roundKey (key : List Byte) (r : Nat) : Four :=
  sub ((35 - r) % 8) ⟨prekey key (4 * r), prekey key (4 * r + 1), prekey key (4 * r + 2), prekey key (4 * r + 3)⟩

/-- Rounds 0 to `n - 1`. -/
def rounds (K : Nat → Four) (x : Four) : Nat → Four
  | 0 => x
  | r + 1 => linear (sub (r % 8) (xor (rounds K x r) (K r)))

/-- The cipher with 32 rounds; the last has another key instead of the linear transformation. -/
def encryptWords (K : Nat → Four) (x : Four) : Four := xor (sub 7 (xor (rounds K x 31) (K 31))) (K 32)

/-- A block of 16 bytes: four little-endian words. -/
def encrypt (key b : List Byte) : List Byte :=
  let y := encryptWords (roundKey key) ⟨wordAt b 0, wordAt b 1, wordAt b 2, wordAt b 3⟩
  leBytes 4 y.x0.toNat ++ leBytes 4 y.x1.toNat ++ leBytes 4 y.x2.toNat ++ leBytes 4 y.x3.toNat

end Verif.Serpent.Spec
