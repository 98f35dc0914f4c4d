import Verif.Cipher.Basic
import Verif.Hash.Obj

/-!
# SipHash (siphash.h)

The template with its parameters `C`, `D` and `T_128bit`. Bytes of `m_acc` after `m_idx` are not represented: nothing reads them before they are written. `GetWord` and
`ConditionalByteReverse` with `LITTLE_ENDIAN_ORDER` read and write words least significant byte first on every machine.
-/
namespace Verif.SipHash
open Verif.Cipher (rotl)

abbrev W64 := BitVec 64

/-- `m_v` -/
structure V where
  v0 : W64
  v1 : W64
  v2 : W64
  v3 : W64
deriving DecidableEq

/-- siphash.h:94-110 `SIPROUND` -/
def sipround (v : V) : V :=
  let v := { v with v0 := v.v0 + v.v1 }
  let v := { v with v1 := rotl v.v1 13 }
  let v := { v with v1 := v.v1 ^^^ v.v0 }
  let v := { v with v0 := rotl v.v0 32 }
  let v := { v with v2 := v.v2 + v.v3 }
  let v := { v with v3 := rotl v.v3 16 }
  let v := { v with v3 := v.v3 ^^^ v.v2 }
  let v := { v with v0 := v.v0 + v.v3 }
  let v := { v with v3 := rotl v.v3 21 }
  let v := { v with v3 := v.v3 ^^^ v.v0 }
  let v := { v with v2 := v.v2 + v.v1 }
  let v := { v with v1 := rotl v.v1 17 }
  let v := { v with v1 := v.v1 ^^^ v.v2 }
  { v with v2 := rotl v.v2 32 }

/-- `for (i = 0; i < n; ++i) SIPROUND();` -/
def siprounds : Nat → V → V
  | 0, v => v
  | n + 1, v => siprounds n (sipround v)

/-- The members: `m_v`, `m_k[0]`, `m_k[1]`, `m_b[0]`, and the first `m_idx` bytes of `m_acc`. -/
structure State where
  v : V
  k0 : W64
  k1 : W64
  b : W64
  acc : List Byte
deriving DecidableEq

/-- A word of eight bytes is put in (siphash.h:180-187, 195-201). -/
def word (C : Nat) (s : State) (x : List Byte) : State :=
  let m : W64 := BitVec.ofNat 64 (leVal x)
  let v := siprounds C { s.v with v3 := s.v.v3 ^^^ m }
  { s with v := { v with v0 := v.v0 ^^^ m }, b := s.b + 8 }

/-- siphash.h:193-205: the loop; the bytes left are returned. The first argument bounds the number of rounds. -/
def loop (C : Nat) : Nat → State → List Byte → State × List Byte
  | 0, s, x => (s, x)
  | n + 1, s, x => if x.length ≥ 8 then loop C n (word C s (x.take 8)) (x.drop 8) else (s, x)

/-- siphash.h:166-214 `Update` -/
def update (C : Nat) (s : State) (x : List Byte) : State :=
  if x.length = 0 then s
  else
    let (s, x) :=
      if s.acc.length ≠ 0 then
        let head := min (8 - s.acc.length) x.length
        let s := { s with acc := s.acc ++ x.take head }
        let s := if s.acc.length = 8 then { word C s s.acc with acc := [] } else s
        (s, x.drop head)
      else (s, x)
    let (s, x) := loop C x.length s x
    if x.length % 8 ≠ 0 then { s with acc := s.acc ++ x.take (x.length % 8) } else s

/-- siphash.h:308-328 `Restart` -/
def restart (wide : Bool) (k0 k1 : W64) : State :=
  let v : V := ⟨0x736f6d6570736575 ^^^ k0, 0x646f72616e646f6d ^^^ k1, 0x6c7967656e657261 ^^^ k0, 0x7465646279746573 ^^^ k1⟩
  { v := if wide then { v with v1 := v.v1 ^^^ 0xee } else v, k0 := k0, k1 := k1, b := 0, acc := [] }

/-- siphash.h:225-249: the `switch`, entered at `case n`. -/
def ladder (acc : List Byte) : Nat → W64 → W64
  | 0, b => b
  | n + 1, b => ladder acc n (b ||| (BitVec.ofNat 64 (acc.getD n 0).toNat) <<< (8 * n))

/-- `DIGESTSIZE` (siphash.h:44) -/
def digestSize (wide : Bool) : Nat := if wide then 16 else 8

def xor4 (v : V) : W64 := v.v0 ^^^ v.v1 ^^^ v.v2 ^^^ v.v3

/-- siphash.h:216-285 `TruncatedFinal` -/
def final (C D : Nat) (wide : Bool) (s : State) (size : Nat) : Except Err (State × List Byte) :=
  if digestSize wide < size then .error .invalidArgument
  else
    let b := ladder s.acc s.acc.length ((s.b + BitVec.ofNat 64 s.acc.length) <<< 56)
    let v := { s.v with v3 := s.v.v3 ^^^ b }
    let v := siprounds C v
    let v := { v with v0 := v.v0 ^^^ b }
    let v := { v with v2 := v.v2 ^^^ (if wide then 0xee else 0xff) }
    let v := siprounds D v
    let b0 := xor4 v
    let out :=
      if wide then
        let v := siprounds D { v with v1 := v.v1 ^^^ 0xdd }
        leBytes 8 b0.toNat ++ leBytes 8 (xor4 v).toNat
      else leBytes 8 b0.toNat
    .ok (restart wide s.k0 s.k1, out.take (min size (digestSize wide)))

/-- `SetKey` (cryptlib.cpp:58-62) and the constructor with a key (siphash.h:160-162), with `UncheckedSetKey` (siphash.h:287-306). -/
def setKey (wide : Bool) (key : List Byte) : Except Err State :=
  if key.length ≠ 16 then .error .invalidArgument
  else .ok (restart wide (BitVec.ofNat 64 (leVal (key.take 8))) (BitVec.ofNat 64 (leVal ((key.drop 8).take 8))))

/-- The object as the rest of the library sees it. -/
def obj (C D : Nat) (wide : Bool) : Hash.Obj State where
  digestSize := digestSize wide
  blockSize := 0
  update s x := .ok (update C s x)
  restart s := restart wide s.k0 s.k1
  final := final C D wide

end Verif.SipHash
