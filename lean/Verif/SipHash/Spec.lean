import Verif.Words

/-! # SipHash-c-d as in the paper of Aumasson and Bernstein (section 2), and its variant with 128 bits of output -/
namespace Verif.SipHash.Spec

abbrev Word := BitVec 64

/-- 2.4, Figure 2.1: the two halves of SipRound on `(v0, v1, v2, v3)`. -/
def sipRound : Word × Word × Word × Word → Word × Word × Word × Word := fun (v0, v1, v2, v3) =>
  let (v0, v2) := (v0 + v1, v2 + v3)
  let (v1, v3) := (v1.rotateLeft 13, v3.rotateLeft 16)
  let (v1, v3) := (v1 ^^^ v0, v3 ^^^ v2)
  let v0 := v0.rotateLeft 32
  let (v2, v0) := (v2 + v1, v0 + v3)
  let (v1, v3) := (v1.rotateLeft 17, v3.rotateLeft 21)
  let (v1, v3) := (v1 ^^^ v2, v3 ^^^ v0)
  let v2 := v2.rotateLeft 32
  (v0, v1, v2, v3)

def rounds (n : Nat) (v : Word × Word × Word × Word) : Word × Word × Word × Word := (List.range n).foldl (fun v _ => sipRound v) v

/-- 2.1: initialization with the two halves of the key. -/
def init (wide : Bool) (k0 k1 : Word) : Word × Word × Word × Word :=
  (k0 ^^^ 0x736f6d6570736575, k1 ^^^ 0x646f72616e646f6d ^^^ (if wide then 0xee else 0), k0 ^^^ 0x6c7967656e657261, k1 ^^^ 0x7465646279746573)

/-- 2.2: one word of the message. -/
def compress (c : Nat) (v : Word × Word × Word × Word) (m : Word) : Word × Word × Word × Word :=
  let (v0, v1, v2, v3) := rounds c (v.1, v.2.1, v.2.2.1, v.2.2.2 ^^^ m)
  (v0 ^^^ m, v1, v2, v3)

/-- 2.2: the message, null bytes and a byte that is its length modulo 256, up to a multiple of eight bytes. -/
def padded (msg : List Byte) : List Byte := msg ++ List.replicate (7 - msg.length % 8) 0 ++ [BitVec.ofNat 8 msg.length]

/-- The words of the message, least significant byte first. -/
def words (msg : List Byte) : List Word := (chunks 8 (padded msg)).map fun x => BitVec.ofNat 64 (leVal x)

def sum (v : Word × Word × Word × Word) : Word := v.1 ^^^ v.2.1 ^^^ v.2.2.1 ^^^ v.2.2.2

/-- 2.3: finalization; the second word of the wide variant comes from `d` more rounds. -/
def finish (d : Nat) (wide : Bool) (v : Word × Word × Word × Word) : List Word :=
  if wide then
    let v := rounds d (v.1, v.2.1, v.2.2.1 ^^^ 0xee, v.2.2.2)
    [sum v, sum (rounds d (v.1, v.2.1 ^^^ 0xdd, v.2.2.1, v.2.2.2))]
  else [sum (rounds d (v.1, v.2.1, v.2.2.1 ^^^ 0xff, v.2.2.2))]

/-- SipHash-c-d of a message under a key of 16 bytes. -/
def sipHash (c d : Nat) (wide : Bool) (key msg : List Byte) : List Byte :=
  let v := init wide (BitVec.ofNat 64 (leVal (key.take 8))) (BitVec.ofNat 64 (leVal (key.drop 8)))
  (finish d wide ((words msg).foldl (compress c) v)).flatMap fun x => leBytes 8 x.toNat

end Verif.SipHash.Spec
