import Verif.Cmac.Spec

/-! # CCM (RFC 3610; NIST SP 800-38C), for nonces of 7 to 13 bytes -/
namespace Verif.Ccm.Spec

/-- The size `L` of the length field. -/
def L (nonce : List Byte) : Nat := 15 - nonce.length

/-- The encoding of the length of the additional data (RFC 3610 2.2). -/
def aadLength (l : Nat) : List Byte :=
  if l = 0 then [] else if l < 2 ^ 16 - 2 ^ 8 then beBytes 2 l else if l < 2 ^ 32 then 0xff :: 0xfe :: beBytes 4 l else 0xff :: 0xff :: beBytes 8 l

/-- Zeros up to a whole block. -/
def padded (x : List Byte) : List Byte := x ++ List.replicate ((16 - x.length % 16) % 16) 0

/-- The first block (RFC 3610 2.2): `Flags = 64 * Adata + 8 * M' + L'`, `M' = (M - 2) / 2`, `L' = L - 1`. -/
def B0 (M : Nat) (nonce : List Byte) (aadLen textLen : Nat) : List Byte :=
  BitVec.ofNat 8 ((if aadLen > 0 then 64 else 0) + 8 * ((M - 2) / 2) + (L nonce - 1)) :: (nonce ++ beBytes (L nonce) textLen)

/-- `T`: the CBC-MAC of the first block, the additional data with its length, and the text. -/
def T (E : List Byte → List Byte) (M : Nat) (nonce aad text : List Byte) : List Byte :=
  Cmac.Spec.chain E (List.replicate 16 0) (chunks 16 (B0 M nonce aad.length text.length ++ padded (aadLength aad.length ++ aad) ++ padded text))

/-- The key stream blocks `S_i = E(A_i)` (RFC 3610 2.3). -/
def S (E : List Byte → List Byte) (nonce : List Byte) (i : Nat) : List Byte := E (BitVec.ofNat 8 (L nonce - 1) :: (nonce ++ beBytes (L nonce) i))

/-- The text is combined with `S_1, S_2, ...` -/
def crypt (E : List Byte → List Byte) (nonce text : List Byte) : List Byte := xorBytes text (load (fun q => (S E nonce (1 + q / 16)).getD (q % 16) 0) 0 text.length)

/-- `U = T ⊕ S_0`, its first `n` bytes. -/
def tag (E : List Byte → List Byte) (M : Nat) (nonce aad text : List Byte) (n : Nat) : List Byte := (xorBytes (T E M nonce aad text) (S E nonce 0)).take n

end Verif.Ccm.Spec
