import Verif.Mem
import Verif.Words

/-! # CMAC (NIST SP 800-38B, RFC 4493), for blocks of `b` bytes -/
namespace Verif.Cmac.Spec

/-- The constants `R_b`: the low terms of an irreducible polynomial of degree `8b`. The first two are those of SP 800-38B 5.3; the others are x^256 + x^10 + x^5 + x^2 + 1, x^512 + x^8 + x^5 + x^2 + 1 and x^1024 + x^19 + x^6 + x + 1. -/
def R : Nat → Nat
  | 8 => 0x1b
  | 16 => 0x87
  | 32 => 2 ^ 10 + 2 ^ 5 + 2 ^ 2 + 1
  | 64 => 2 ^ 8 + 2 ^ 5 + 2 ^ 2 + 1
  | _ => 2 ^ 19 + 2 ^ 6 + 2 + 1

/-- SP 800-38B 6.1: `L << 1`, and `⊕ R_b` if the first bit of `L` was 1. -/
def double (b : Nat) (L : List Byte) : List Byte :=
  let v := beVal L
  if v.testBit (8 * b - 1) then beBytes b ((2 * v % 2 ^ (8 * b)) ^^^ R b) else beBytes b (2 * v)

def K1 (E : List Byte → List Byte) (b : Nat) : List Byte := double b (E (List.replicate b 0))
def K2 (E : List Byte → List Byte) (b : Nat) : List Byte := double b (K1 E b)

/-- Cipher block chaining from `c`: `C_i = E(C_{i-1} ⊕ M_i)`, the last of them. -/
def chain (E : List Byte → List Byte) (c : List Byte) (blocks : List (List Byte)) : List Byte := blocks.foldl (fun c m => E (xorBytes c m)) c

/-- SP 800-38B 6.2: all blocks but the last are chained; the last, if it is complete, is combined with `K1`; otherwise it is padded with a one bit and zeros and combined with `K2`. The last block of the empty message is empty. -/
def cmac (E : List Byte → List Byte) (b : Nat) (M : List Byte) : List Byte :=
  let n := (M.length - 1) / b
  let last := M.drop (n * b)
  let final := if last.length = b then xorBytes last (K1 E b) else xorBytes (last ++ 0x80 :: List.replicate (b - 1 - last.length) 0) (K2 E b)
  E (xorBytes (chain E (List.replicate b 0) (chunks b (M.take (n * b)))) final)

/-- CBC-MAC (FIPS 113, ISO 9797-1 padding method 1): the message, padded with zeros to whole blocks, is chained. For the empty message that is the block of zeros. -/
def cbcMac (E : List Byte → List Byte) (b : Nat) (M : List Byte) : List Byte :=
  chain E (List.replicate b 0) (chunks b (M ++ List.replicate ((b - M.length % b) % b) 0))

end Verif.Cmac.Spec
