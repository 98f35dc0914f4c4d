import Verif.Chacha.Spec
import Verif.Scrypt.Spec

/-! # Salsa20 and XSalsa20 (Bernstein, "The Salsa20 family of stream ciphers", "Extending the Salsa20 nonce") -/
namespace Verif.Salsa.Spec
open Verif.Chacha.Spec (words serialize ascii)
open Verif.Scrypt.Spec (rowround columnround)

abbrev W := BitVec 32

def doubleround (x : List W) : List W := rowround (columnround x)

/-- The Salsa20 hash function with `r` rounds, on words. -/
def core (r : Nat) (x : List W) : List Byte := serialize (List.zipWith (· + ·) x (Nat.repeat doubleround (r / 2) x))

/-- The Salsa20 expansion function: the constants are on the diagonal. A key of 16 bytes is taken twice. -/
def expand (key n : List Byte) : List W :=
  let c := words (ascii (if key.length = 16 then "expand 16-byte k" else "expand 32-byte k"))
  let k := words (key.take 16)
  let l := words (if key.length = 16 then key else key.drop 16)
  [c.getD 0 0] ++ k ++ [c.getD 1 0] ++ words n ++ [c.getD 2 0] ++ l ++ [c.getD 3 0]

/-- Block number `i` of the keystream of Salsa20/r. -/
def salsaBlock (r : Nat) (key nonce : List Byte) (i : Nat) : List Byte := core r (expand key (nonce ++ leBytes 8 i))

/-- HSalsa20 with `r` rounds. -/
def hsalsa (r : Nat) (key n : List Byte) : List Byte :=
  let z := Nat.repeat doubleround (r / 2) (expand key n)
  serialize [z.getD 0 0, z.getD 5 0, z.getD 10 0, z.getD 15 0, z.getD 6 0, z.getD 7 0, z.getD 8 0, z.getD 9 0]

/-- Block number `i` of the keystream of XSalsa20/r. -/
def xsalsaBlock (r : Nat) (key nonce : List Byte) (i : Nat) : List Byte := salsaBlock r (hsalsa r key (nonce.take 16)) (nonce.drop 16) i

end Verif.Salsa.Spec
