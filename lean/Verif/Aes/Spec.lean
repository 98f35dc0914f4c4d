import Verif.Common

/-!
# FIPS 197, the Advanced Encryption Standard

Written from the standard, in its terms: a state is a matrix of four rows and four columns of bytes.
-/
namespace Verif.Aes.Spec

/-- FIPS 197, 4.2.1: multiplication by `x` in GF(2^8) modulo x^8 + x^4 + x^3 + x + 1. -/
def xtime (b : Byte) : Byte := (b <<< 1) ^^^ (if b.msb then 0x1b else 0)

/-- FIPS 197, 4.2: multiplication in GF(2^8): the sum of `b * x^i` over the bits `i` of `a`. -/
def mul (a b : Byte) : Byte :=
  (List.range 8).foldl (fun s i => if a.getLsbD i then s ^^^ Nat.repeat xtime i b else s) 0

/-- `b^254`, which is the multiplicative inverse, or 0 for 0 (see `inv_mul`). -/
def inv (b : Byte) : Byte :=
  let b2 := mul b b; let b4 := mul b2 b2; let b8 := mul b4 b4; let b16 := mul b8 b8; let b32 := mul b16 b16
  let b64 := mul b32 b32; let b128 := mul b64 b64
  mul b128 (mul b64 (mul b32 (mul b16 (mul b8 (mul b4 b2)))))

/-- FIPS 197, 5.1.1 (5.1): the affine transformation. -/
def affine (b : Byte) : Byte :=
  b ^^^ b.rotateLeft 1 ^^^ b.rotateLeft 2 ^^^ b.rotateLeft 3 ^^^ b.rotateLeft 4 ^^^ 0x63

/-- FIPS 197, 5.1.1: the S-box. -/
def sbox (b : Byte) : Byte := affine (inv b)

/-- FIPS 197, 3.4: the state, four rows and four columns of bytes; kept column by column, `s[r, c]` at `r + 4c`. -/
abbrev State := List Byte

/-- `s[r, c]` -/
def State.at (s : State) (r c : Nat) : Byte := s.getD (r + 4 * c) 0

/-- The state with given `s[r, c]`. -/
def State.of (f : Nat → Nat → Byte) : State := (List.range 16).map fun i => f (i % 4) (i / 4)

/-- FIPS 197, 3.5: words have four bytes. -/
abbrev Word := List Byte

/-- The byte with number `r` of a word. -/
def Word.at (w : Word) (r : Nat) : Byte := w.getD r 0

/-- The word with given bytes. -/
def Word.of (f : Nat → Byte) : Word := (List.range 4).map f

/-- FIPS 197, 5.1.1. -/
def subBytes (s : State) : State := .of fun r c => sbox (s.at r c)

/-- FIPS 197, 5.1.2: row `r` is rotated by `r` places. -/
def shiftRows (s : State) : State := .of fun r c => s.at r ((c + r) % 4)

/-- FIPS 197, 5.1.3. -/
def mixColumns (s : State) : State := .of fun r c =>
  mul 2 (s.at r c) ^^^ mul 3 (s.at ((r + 1) % 4) c) ^^^ s.at ((r + 2) % 4) c ^^^ s.at ((r + 3) % 4) c

/-- FIPS 197, 5.1.4: the words `w 0` to `w 3` are added to the columns. -/
def addRoundKey (s : State) (w : Nat → Word) : State := .of fun r c => s.at r c ^^^ (w c).at r

/-- FIPS 197, 5.2. -/
def subWord (w : Word) : Word := .of fun r => sbox (w.at r)

/-- FIPS 197, 5.2. -/
def rotWord (w : Word) : Word := .of fun r => w.at ((r + 1) % 4)

/-- FIPS 197, 5.2: `[x^(i-1), 0, 0, 0]`. -/
def rcon (i : Nat) : Word := [Nat.repeat xtime (i - 1) 1, 0, 0, 0]

/-- The sum of two words. -/
def Word.xor (v w : Word) : Word := .of fun r => v.at r ^^^ w.at r

/-- FIPS 197, 5.2, figure 11: the word with number `i`, from those before it; `nk` is the number of words of the key. -/
def nextWord (nk : Nat) (w : List Word) (i : Nat) : Word :=
  let temp := w.getD (i - 1) []
  let temp :=
    if i % nk = 0 then Word.xor (subWord (rotWord temp)) (rcon (i / nk))
    else if nk > 6 ∧ i % nk = 4 then subWord temp
    else temp
  Word.xor (w.getD (i - nk) []) temp

/-- FIPS 197, 5.2: the first `n` words of the key schedule. -/
def keyWords (key : List Byte) : Nat → List Word
  | 0 => []
  | n + 1 =>
    let nk := key.length / 4
    let w := keyWords key n
    w ++ [if n < nk then .of fun r => key.getD (4 * n + r) 0 else nextWord nk w n]

/-- FIPS 197, figure 4: the number of rounds. -/
def rounds (key : List Byte) : Nat := key.length / 4 + 6

/-- The round key with number `i`. -/
def roundKey (key : List Byte) (i : Nat) : Nat → Word := fun c => (keyWords key (4 * (rounds key + 1))).getD (4 * i + c) []

/-- FIPS 197, 5.1: the first `n` rounds of the cipher, all of the ordinary kind. -/
def cipherRounds (key : List Byte) (s : State) : Nat → State
  | 0 => addRoundKey s (roundKey key 0)
  | n + 1 => addRoundKey (mixColumns (shiftRows (subBytes (cipherRounds key s n)))) (roundKey key (n + 1))

/-- FIPS 197, 5.1, figure 5: `Cipher`; `s[r, c] = in[r + 4c]`. -/
def cipher (key : List Byte) (block : List Byte) : List Byte :=
  let nr := rounds key
  addRoundKey (shiftRows (subBytes (cipherRounds key block (nr - 1)))) (roundKey key nr)

/-- FIPS 197, 5.3.1. -/
def invShiftRows (s : State) : State := .of fun r c => s.at r ((c + 4 - r) % 4)

/-- FIPS 197, 5.3.2: the inverse of the S-box: the inverse of the affine transformation, then the multiplicative inverse. -/
def invSbox (b : Byte) : Byte := inv (b.rotateLeft 1 ^^^ b.rotateLeft 3 ^^^ b.rotateLeft 6 ^^^ 0x05)

/-- FIPS 197, 5.3.2. -/
def invSubBytes (s : State) : State := .of fun r c => invSbox (s.at r c)

/-- FIPS 197, 5.3.3. -/
def invMixColumns (s : State) : State := .of fun r c =>
  mul 0x0e (s.at r c) ^^^ mul 0x0b (s.at ((r + 1) % 4) c) ^^^ mul 0x0d (s.at ((r + 2) % 4) c) ^^^ mul 0x09 (s.at ((r + 3) % 4) c)

/-- FIPS 197, 5.3: the first `n` rounds of the inverse cipher. -/
def invRounds (key : List Byte) (s : State) : Nat → State
  | 0 => addRoundKey s (roundKey key (rounds key))
  | n + 1 => invMixColumns (addRoundKey (invSubBytes (invShiftRows (invRounds key s n))) (roundKey key (rounds key - (n + 1))))

/-- FIPS 197, 5.3, figure 12: `InvCipher`. -/
def invCipher (key : List Byte) (block : List Byte) : List Byte :=
  let nr := rounds key
  addRoundKey (invSubBytes (invShiftRows (invRounds key block (nr - 1)))) (roundKey key 0)

end Verif.Aes.Spec
