import Verif.Common

/-! # Binary fields: GF(2^8) and GF(2^32) -/
namespace Verif.Gf

/-! ## GF(2^8) -/

/-- One round of the loop (gf256.cpp:12-21). `word` is any machine word, here of `w` bits. -/
def round256 {w : Nat} (modulus a : BitVec w) (st : BitVec w × BitVec w) : BitVec w × BitVec w :=
  let result := st.1 <<< 1
  let result := if result &&& 0x100#w ≠ 0 then result ^^^ modulus else result
  let t := st.2 <<< 1
  let result := if t &&& 0x100#w ≠ 0 then result ^^^ a else result
  (result, t)

/-- gf256.cpp:12 `for (i=0; i<8; i++)`. -/
def rounds256 {w : Nat} (modulus a : BitVec w) : Nat → BitVec w × BitVec w → BitVec w × BitVec w
  | 0, st => st
  | n + 1, st => rounds256 modulus a n (round256 modulus a st)

/-- `GF256::Multiply` (gf256.cpp:8-24): `result = 0`, `t = b`, eight rounds, truncation to a byte. `m_modulus` is a `word` initialised
from a byte (gf256.h:22, 74). -/
def mul256 (w : Nat) (modulus a b : Byte) : Byte :=
  (rounds256 (w := w) (modulus.setWidth w) (a.setWidth w) 8 (0, b.setWidth w)).1.setWidth 8

/-- `GF256::Square` (gf256.h:61-62). -/
def square256 (w : Nat) (modulus a : Byte) : Byte := mul256 w modulus a a

/-- gf256.cpp:29-30 `for (i=1; i<7; i++) result = Multiply(Square(result), a)`, `n` rounds to go. -/
def invLoop256 (w : Nat) (modulus a : Byte) : Nat → Byte → Byte
  | 0, r => r
  | n + 1, r => invLoop256 w modulus a n (mul256 w modulus (square256 w modulus r) a)

/-- `GF256::MultiplicativeInverse` (gf256.cpp:26-32). -/
def inv256 (w : Nat) (modulus a : Byte) : Byte := square256 w modulus (invLoop256 w modulus a 6 a)

/-- `GF256::Add`, `Subtract`, `Accumulate`, `Reduce` (gf256.h:34-50). -/
def add256 (a b : Byte) : Byte := a ^^^ b

/-- `GF256::Divide` (gf256.h:69-70). -/
def div256 (w : Nat) (modulus a b : Byte) : Byte := mul256 w modulus a (inv256 w modulus b)

/-! ## GF(2^32) -/

abbrev W32 := BitVec 32

/-- The four-entry table (gf2_32.cpp:11-23). -/
def table32 (modulus a : W32) : W32 × W32 × W32 × W32 :=
  if a &&& 0x80000000#32 ≠ 0 then (0, modulus, modulus ^^^ (a <<< 1), a <<< 1)
  else (0, modulus, a <<< 1, modulus ^^^ (a <<< 1))

/-- `table[i]`. An index above 3 would be out of bounds; the model then gives 0, and the proofs show it does not happen. -/
def tabAt (t : W32 × W32 × W32 × W32) (i : W32) : W32 :=
  if i = 0#32 then t.1 else if i = 1#32 then t.2.1 else if i = 2#32 then t.2.2.1 else if i = 3#32 then t.2.2.2 else 0

/-- The loop of the branch without fast rotations (gf2_32.cpp:39-40), `n` rounds to go: `i` is `n - 1`. -/
def mulLoop (t : W32 × W32 × W32 × W32) (b : W32) : Nat → W32 → W32
  | 0, result => result
  | i + 1, result => mulLoop t b i ((result <<< 1) ^^^ tabAt t (((b >>> i) &&& 2#32) + (result >>> 31)))

/-- The loop of the branch with fast rotations (gf2_32.cpp:29-33). -/
def mulLoopRot (t : W32 × W32 × W32 × W32) : Nat → W32 → W32 → W32 × W32
  | 0, b, result => (b, result)
  | i + 1, b, result =>
    let b := b.rotateLeft 1
    mulLoopRot t i b ((result <<< 1) ^^^ tabAt t ((b &&& 2#32) + (result >>> 31)))

/-- `GF2_32::Multiply` (gf2_32.cpp:9-44); `fastRotate` is `CRYPTOPP_FAST_ROTATE(32)`. -/
def mul32 (fastRotate : Bool) (modulus a b : W32) : W32 :=
  let t := table32 modulus a
  if fastRotate then
    let b := b.rotateRight 30
    let br := mulLoopRot t 30 b (tabAt t (b &&& 2#32))
    if br.1 &&& 1#32 ≠ 0 then br.2 ^^^ a else br.2
  else
    let result := mulLoop t b 30 (tabAt t ((b >>> 30) &&& 2#32))
    if b &&& 1#32 ≠ 0 then result ^^^ a else result

/-- gf2_32.cpp:57-61 `while (!(g2 & 0x80000000))`. A loop that has not ended after `fuel` rounds is reported as `diverges`. -/
def alignTop : Nat → W32 → W32 → Except Err (W32 × W32)
  | 0, _, _ => .error .diverges
  | f + 1, g2, v2 => if g2 &&& 0x80000000#32 = 0 then alignTop f (g2 <<< 1) (v2 <<< 1) else .ok (g2, v2)

/-- gf2_32.cpp:84-89 `while ((g0^g2) >= g2)`. -/
def alignTo (g0 : W32) : Nat → W32 → W32 → Except Err (W32 × W32)
  | 0, _, _ => .error .diverges
  | f + 1, g2, v2 => if g2 ≤ g0 ^^^ g2 then alignTo g0 f (g2 <<< 1) (v2 <<< 1) else .ok (g2, v2)

/-- The variables of the Euclidean loop. -/
structure Eu where
  g0 : W32
  g1 : W32
  v0 : W32
  v1 : W32
deriving DecidableEq

/-- The body of the main loop (gf2_32.cpp:71-93). -/
def euStep (fuel : Nat) (s : Eu) : Except Err Eu :=
  let s := if s.g1 < s.g0 ∨ (s.g0 ^^^ s.g1 < s.g0 ∧ s.g0 ^^^ s.g1 < s.g1) then s else ⟨s.g1, s.g0, s.v1, s.v0⟩
  match alignTo s.g0 fuel s.g1 s.v1 with
  | .error e => .error e
  | .ok (g2, v2) => .ok { s with g0 := s.g0 ^^^ g2, v0 := s.v0 ^^^ v2 }

/-- The main loop (gf2_32.cpp:69-94). -/
def euLoop (fuel : Nat) : Nat → Eu → Except Err W32
  | 0, _ => .error .diverges
  | f + 1, s => if s.g0 = 1#32 then .ok s.v0 else
    match euStep fuel s with
    | .error e => .error e
    | .ok s => euLoop fuel f s

/-- `GF2_32::MultiplicativeInverse` (gf2_32.cpp:46-97). Every loop is given `fuel` rounds. -/
def inv32 (fuel : Nat) (modulus a : W32) : Except Err W32 :=
  if a ≤ 1#32 then .ok a else
  match alignTop fuel a 1#32 with
  | .error e => .error e
  | .ok (g2, v2) => euLoop fuel fuel ⟨modulus ^^^ (g2 <<< 1), a, 0#32 ^^^ (v2 <<< 1), 1#32⟩

/-- `GF2_32::Add`, `Subtract`, `Accumulate`, `Reduce` (gf2_32.h:35-51). -/
def add32 (a b : W32) : W32 := a ^^^ b

/-- `GF2_32::Divide` (gf2_32.h:70-71). -/
def div32 (fastRotate : Bool) (fuel : Nat) (modulus a b : W32) : Except Err W32 :=
  match inv32 fuel modulus b with
  | .error e => .error e
  | .ok r => .ok (mul32 fastRotate modulus a r)

end Verif.Gf
