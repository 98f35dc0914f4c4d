import Verif.Cmac.Spec

/-! # EAX (Bellare, Rogaway, Wagner, "The EAX Mode of Operation", figure 3), for blocks of `b` bytes -/
namespace Verif.Eax.Spec

/-- `OMAC^t(M) = OMAC([t]_n || M)`, where OMAC is CMAC. -/
def omac (E : List Byte → List Byte) (b t : Nat) (M : List Byte) : List Byte := Cmac.Spec.cmac E b (beBytes b t ++ M)

/-- `CTR^N(M)`: byte `q` is combined with byte `q mod b` of the encryption of the number `N + q / b`. -/
def ctr (E : List Byte → List Byte) (b : Nat) (N M : List Byte) : List Byte :=
  xorBytes M (load (fun q => (E (beBytes b (beVal N + q / b))).getD (q % b) 0) 0 M.length)

/-- The first `n` bytes of `N ⊕ H ⊕ C`, of the nonce, the header and the ciphertext. -/
def tag (E : List Byte → List Byte) (b : Nat) (nonce header ciphertext : List Byte) (n : Nat) : List Byte :=
  (xorBytes (xorBytes (omac E b 0 nonce) (omac E b 1 header)) (omac E b 2 ciphertext)).take n

/-- Ciphertext and tag. -/
def encrypt (E : List Byte → List Byte) (b : Nat) (nonce header message : List Byte) (n : Nat) : List Byte × List Byte :=
  let c := ctr E b (omac E b 0 nonce) message
  (c, tag E b nonce header c n)

/-- What the ciphertext decrypts to, and whether it is authentic. -/
def decrypt (E : List Byte → List Byte) (b : Nat) (nonce header ciphertext mac : List Byte) : List Byte × Bool :=
  (ctr E b (omac E b 0 nonce) ciphertext, tag E b nonce header ciphertext mac.length == mac)

end Verif.Eax.Spec
