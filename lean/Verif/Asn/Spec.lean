import Verif.Words
import Verif.Misc.Precision

/-!
# Specification of BER/DER (X.690), independent of the model
-/
namespace Verif.Asn

/-- X.690 8.1.3: `p` is a definite-length length field that says `n`: one octet below 128, or an octet `128 + k`, `k ≥ 1`,
followed by `k` octets holding `n` big-endian (leading zeros allowed). -/
def IsLength (p : List Byte) (n : Nat) : Prop :=
  (∃ b, p = [b] ∧ b.toNat < 128 ∧ n = b.toNat) ∨
  (∃ b ds, p = b :: ds ∧ 128 < b.toNat ∧ ds.length = b.toNat - 128 ∧ n = beVal ds)

/-- X.690 8.1: `p` is a tag, a definite length, and that many content octets. -/
def IsTLV (tag : Byte) (p content : List Byte) : Prop :=
  ∃ l, IsLength l content.length ∧ p = tag :: (l ++ content)

/-- X.690 8.19.2: `p` is a base-128 arc: `p` has continuation bits on all but its last octet and its 7-bit groups spell `v`. -/
def base128 : List Byte → Nat → Nat
  | [], acc => acc
  | b :: bs, acc => base128 bs (acc * 128 + b.toNat % 128)

def IsArc (p : List Byte) (v : Nat) : Prop :=
  (∃ init last, p = init ++ [last] ∧ (∀ b ∈ init, 128 ≤ b.toNat) ∧ last.toNat < 128) ∧ v = base128 p 0

/-- A BER value as DERReencode sees it: definite length with given content octets, or indefinite length with parts inside. -/
inductive Ber where
  | definite (tag : Byte) (lengthField content : List Byte)
  | indefinite (tag : Byte) (parts : List Ber)

mutual
/-- X.690 8.1: the octets of a BER value. -/
def Ber.octets : Ber → List Byte
  | .definite tag l c => tag :: (l ++ c)
  | .indefinite tag ps => tag :: 0x80 :: (octetsList ps ++ [0, 0])
def octetsList : List Ber → List Byte
  | [] => []
  | p :: ps => p.octets ++ octetsList ps
end

/-- X.690 10.1: the length field with the minimum number of octets. -/
def minLength (n : Nat) : List Byte :=
  if n < 128 then [BitVec.ofNat 8 n] else BitVec.ofNat 8 (128 + Misc.byteLen n) :: beBytes (Misc.byteLen n) n

mutual
/-- The same value with every indefinite length replaced by the minimal definite one. -/
def Ber.der : Ber → List Byte
  | .definite tag _ c => tag :: (minLength c.length ++ c)
  | .indefinite tag ps => tag :: (minLength (derList ps).length ++ derList ps)
def derList : List Ber → List Byte
  | [] => []
  | p :: ps => p.der ++ derList ps
end

mutual
/-- Well-formed: the length field says the content length (an `lword`); indefinite length only with the constructed bit; nothing
inside an indefinite-length value looks like end-of-contents. -/
def Ber.WF : Ber → Prop
  | .definite tag l c => IsLength l c.length ∧ c.length < 2 ^ 64 ∧ ¬ (tag = 0 ∧ l = [0])
  | .indefinite tag ps => tag.toNat / 32 % 2 = 1 ∧ (derList ps).length < 2 ^ 64 ∧ WFList ps
def WFList : List Ber → Prop
  | [] => True
  | p :: ps => p.WF ∧ WFList ps
end

/-- X.690 8.19: the octets `p` are a sequence of arcs spelling `vs`. -/
inductive IsArcs : List Byte → List Nat → Prop
  | nil : IsArcs [] []
  | cons {p q : List Byte} {v : Nat} {vs : List Nat} : IsArc p v → IsArcs q vs → IsArcs (p ++ q) (v :: vs)

end Verif.Asn
