import Verif.Ecp.Model
import Verif.Nbt.Model

/-! # Encoding points and the group parameters of a curve (ecp.cpp, eccrypto.cpp) -/
namespace Verif.Ecp
open Verif.Dl (encodeInt decodeInt byteCount bitCount Params)
open Verif.Algebra

/-- modarith.h:248-249 `MaxElementByteLength`. -/
def elemLen (C : Ec) : Nat := byteCount (C.F.modulus - 1)

/-- ecp.h:90-91 `EncodedPointSize`. -/
def pointSize (C : Ec) (compressed : Bool) : Nat := 1 + (if compressed then 1 else 2) * elemLen C

/-- ecp.cpp:155-171 `EncodePoint`. `NullStore` gives zeros. -/
def encodePoint (C : Ec) (P : Pt) (compressed : Bool) : List Byte :=
  if P.identity then List.replicate (pointSize C compressed) 0
  else if compressed then BitVec.ofNat 8 (2 + P.y.natAbs % 2) :: encodeInt P.x (elemLen C)
  else 4 :: (encodeInt P.x (elemLen C) ++ encodeInt P.y (elemLen C))

/-- `Integer::Decode(bt, len)` (integer.cpp:3380-3410), unsigned: the number and what is left. -/
def readInt (bt : List Byte) (len : Nat) : Except Err (Int × List Byte) :=
  if bt.length < len then .error .invalidArgument else .ok (decodeInt (bt.take len), bt.drop len)

/-- ecp.cpp:99-153 `DecodePoint`; `bt` is what the source holds, `len` the length announced, nothing stands for `false`.  For the point at infinity the code
leaves the coordinates as they are; nothing reads them, and the model has zeros. `fuel` bounds the loops of `IsPrime`, `Jacobi` and `ModularSquareRoot`. -/
def decodePoint (fuel : Nat) (C : Ec) (bt : List Byte) (len : Nat) : Except Err (Option Pt) :=
  if len < 1 then .ok none else
  match bt with
  | [] => .ok none
  | type :: bt =>
    if type = 0 then .ok (some .zero)
    else if type = 2 ∨ type = 3 then
      if len ≠ pointSize C true then .ok none else
      let p := C.F.modulus
      match Nbt.isPrime fuel p with
      | .error e => .error e
      | .ok false => .ok none
      | .ok true =>
        match readInt bt (elemLen C) with
        | .error e => .error e
        | .ok (x, _) =>
          let y := ((x * x + C.a) * x + C.b) % p
          match Nbt.jacobi fuel y p with
          | .error e => .error e
          | .ok j =>
            if j ≠ 1 then .ok none else
            match Nbt.modularSquareRoot fuel y p with
            | .error e => .error e
            | .ok y => .ok (some ⟨false, x, if type.toNat % 2 ≠ y.natAbs % 2 then p - y else y⟩)
    else if type = 4 then
      if len ≠ pointSize C false then .ok none else
      match readInt bt (elemLen C) with
      | .error e => .error e
      | .ok (x, bt) =>
        match readInt bt (elemLen C) with
        | .error e => .error e
        | .ok (y, _) => .ok (some ⟨false, x, y⟩)
    else .ok none

/-! ## Group parameters -/

/-- A point at infinity with its unused coordinates set to zero. -/
def norm (P : Pt) : Pt := if P.identity then .zero else P

/-- The point a computation returns. -/
def run (m : M Unit Pt) : Pt :=
  match m () with
  | .ok (P, _) => norm P
  | .error _ => .zero

/-- What describes a `DL_GroupParameters_EC<ECP>` object (eccrypto.h:40-200), and the machine it runs on: `R`, `wb` and the heap functions are those of Verif.Ecp.Model. -/
structure Group where
  R : Int
  C : Ec
  wb : Nat
  heap0 : List (Pt × Nat) → List (Pt × Nat)
  heap : List (Pt × Nat) → List (Pt × Nat)
  G : Pt
  n : Int
  k : Int
  compress : Bool
  maxExpBits : Nat
  storage : Nat
  fuel : Nat

/-- eccrypto.cpp:638-662 `ValidateElement(level, g, NULL)` for levels 1 and 2. -/
def validElement (A : Group) (level : Nat) (a : Pt) : Bool :=
  !a.identity && verifyPoint A.C a &&
    (decide (level < 2) || (run (do let rs ← simPlain A.R A.C A.wb A.heap0 A.heap 1 a [A.n.toNat]; one' rs)).identity)

/-- `DL_GroupParameters_EC<ECP>` (eccrypto.h:100-143, eccrypto.cpp:595-683).  `ExponentiateBase` is the fixed-base precomputation, `ExponentiateElement`
`SimultaneousMultiply` of one exponent — undefined for the exponent 0 (`simultaneous_multiply_zero_undefined`), where the model has the point at infinity —
and `CascadeExponentiate`, for MQV, `CascadeScalarMultiply`; with `tables` it is that of the two precomputations, which signature verification uses
(pubkey.h:1110-1118).  The square root in `GetCofactor` is `Nbt.squareRoot`'s. -/
def group (A : Group) (tables : Bool) : Params Pt where
  g := A.G
  order := A.n
  cofactor := if A.k = 0 then (A.C.F.modulus + 2 * Nat.sqrt A.C.F.modulus.toNat + 1) / A.n else A.k
  expBase e := run (fixedBase A.R A.C A.wb A.heap0 A.heap 2 A.G A.maxExpBits A.storage e.toNat)
  exp a e := if e.toNat = 0 then .zero else run (do let rs ← simPlain A.R A.C A.wb A.heap0 A.heap 1 a [e.toNat]; one' rs)
  mul a b := norm (add A.C a b)
  cascade a m b n :=
    if tables then run (fixedBaseCascade A.R A.C A.wb A.heap0 A.heap 2 a b A.maxExpBits A.maxExpBits A.storage A.storage m.toNat n.toNat)
    else run ((plainMuls A.R A.C A.wb A.heap0 A.heap 1).casc a m.toNat b n.toNat)
  isIdentity a := a.identity
  toInt a := a.x
  encSize reversible := if reversible then pointSize A.C A.compress else elemLen A.C
  encode reversible a := if reversible then encodePoint A.C a A.compress else encodeInt a.x (elemLen A.C)
  decode b check :=
    match decodePoint A.fuel A.C (b.take (pointSize A.C A.compress)) (pointSize A.C A.compress) with
    | .ok (some P) => if check && !validElement A 1 P then none else some P
    | _ => none
  fastCheck := false
  validate2 a := validElement A 2 a

end Verif.Ecp
