import Verif.Mem
import Verif.Poly1305.Spec

/-!
# ChaCha of D. J. Bernstein, ChaCha20 and its authenticated encryption of RFC 8439, XChaCha20 of draft-irtf-cfrg-xchacha-03
-/
namespace Verif.Chacha.Spec

abbrev W := BitVec 32

/-- The quarter round (RFC 8439 2.1). -/
def quarterRound (a b c d : W) : W × W × W × W :=
  let a := a + b
  let d := (d ^^^ a).rotateLeft 16
  let c := c + d
  let b := (b ^^^ c).rotateLeft 12
  let a := a + b
  let d := (d ^^^ a).rotateLeft 8
  let c := c + d
  let b := (b ^^^ c).rotateLeft 7
  (a, b, c, d)

/-- `QUARTERROUND(x, y, z, w)` on the state (RFC 8439 2.2). -/
def quarterAt (x y z w : Nat) (s : List W) : List W :=
  let r := quarterRound (s.getD x 0) (s.getD y 0) (s.getD z 0) (s.getD w 0)
  (((s.set x r.1).set y r.2.1).set z r.2.2.1).set w r.2.2.2

/-- `inner_block` (RFC 8439 2.3.1): a column round and a diagonal round. -/
def innerBlock (s : List W) : List W :=
  quarterAt 3 4 9 14 (quarterAt 2 7 8 13 (quarterAt 1 6 11 12 (quarterAt 0 5 10 15
    (quarterAt 3 7 11 15 (quarterAt 2 6 10 14 (quarterAt 1 5 9 13 (quarterAt 0 4 8 12 s)))))))

/-- An even number of rounds. -/
def rounds (n : Nat) (s : List W) : List W := Nat.repeat innerBlock (n / 2) s

/-- Words of bytes, the least significant first, and back. -/
def words (bytes : List Byte) : List W := (chunks 4 bytes).map fun b => BitVec.ofNat 32 (leVal b)
def serialize (ws : List W) : List Byte := ws.flatMap fun w => leBytes 4 w.toNat

/-- The block function on a state (RFC 8439 2.3.1). -/
def core (n : Nat) (s : List W) : List Byte := serialize (List.zipWith (· + ·) (rounds n s) s)

def ascii (s : String) : List Byte := s.toList.map fun c => BitVec.ofNat 8 c.toNat

/-- The first twelve words: the constant, which tells the length of the key, and the key, a key of 16 bytes twice. -/
def keyPart (key : List Byte) : List W :=
  if key.length = 16 then words (ascii "expand 16-byte k") ++ words key ++ words key else words (ascii "expand 32-byte k") ++ words key

/-- Bernstein's ChaCha with `n` rounds: 8 bytes of block number, 8 bytes of nonce. -/
def bernsteinBlock (n : Nat) (key nonce : List Byte) (counter : Nat) : List Byte := core n (keyPart key ++ words (leBytes 8 counter) ++ words nonce)

/-- `chacha20_block` (RFC 8439 2.3): 4 bytes of block number, 12 bytes of nonce. -/
def chacha20Block (key nonce : List Byte) (counter : Nat) : List Byte := core 20 (keyPart key ++ words (leBytes 4 counter) ++ words nonce)

/-- HChaCha20 (draft 2.2): the first and the last four words after the rounds. -/
def hchacha20 (key nonce : List Byte) : List Byte :=
  let s := rounds 20 (keyPart key ++ words nonce)
  serialize (s.take 4 ++ s.drop 12)

/-- XChaCha20 (draft 2.3): ChaCha20 with a key from the first 16 bytes of the nonce, and 4 bytes of 0 and the last 8 bytes as nonce. -/
def xchacha20Block (key nonce : List Byte) (counter : Nat) : List Byte :=
  chacha20Block (hchacha20 key (nonce.take 16)) ([0, 0, 0, 0] ++ nonce.drop 16) counter

/-- A stream of blocks of 64 bytes. -/
def ofBlocks (block : Nat → List Byte) : Mem := fun q => (block (q / 64)).getD (q % 64) 0

/-- The first `n` bytes of the blocks from number `first` on. -/
def keystream (block : Nat → List Byte) (first n : Nat) : List Byte := ((List.range (n / 64 + 1)).flatMap fun i => block (first + i)).take n

/-- Encryption (RFC 8439 2.4). -/
def encrypt (block : Nat → List Byte) (first : Nat) (text : List Byte) : List Byte := xorBytes text (keystream block first text.length)

/-- `pad16` (RFC 8439 2.8.1) -/
def pad16 (x : List Byte) : List Byte := List.replicate ((16 - x.length % 16) % 16) 0

/-- The authentication code (RFC 8439 2.6, 2.8): the key of Poly1305 is the first half of block 0. -/
def tag (block : Nat → List Byte) (aad ciphertext : List Byte) : List Byte :=
  Poly1305.Spec.poly1305 ((block 0).take 32)
    (aad ++ pad16 aad ++ ciphertext ++ pad16 ciphertext ++ leBytes 8 aad.length ++ leBytes 8 ciphertext.length)

/-- `chacha20_aead_encrypt` (RFC 8439 2.8.1): the text is encrypted from block 1 on. -/
def aeadEncrypt (block : Nat → List Byte) (aad text : List Byte) (n : Nat) : List Byte × List Byte :=
  (encrypt block 1 text, (tag block aad (encrypt block 1 text)).take n)

/-- The text, and whether the authentication code is right. -/
def aeadDecrypt (block : Nat → List Byte) (aad ciphertext mac : List Byte) : List Byte × Bool :=
  (encrypt block 1 ciphertext, (tag block aad ciphertext).take mac.length == mac)

end Verif.Chacha.Spec
