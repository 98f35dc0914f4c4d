import Verif.Words

/-!
# Specification of big-endian two's complement encodings

Independent of the model: plain integers and byte strings.
-/
namespace Verif.Integer

/-- `v` is representable in `n` bytes of two's complement. -/
def FitsSigned (n : Nat) (v : Int) : Prop := -(2 ^ (8 * n - 1) : Int) ≤ v ∧ v < 2 ^ (8 * n - 1)

/-- The `n`-byte big-endian two's complement representation of `v` (its low `n` bytes when it does not fit). -/
def twosBytes (n : Nat) (v : Int) : List Byte := beBytes n (v % 256 ^ n).toNat

/-- The integer a byte string stands for, read as big-endian two's complement. -/
def ofTwos (bs : List Byte) : Int :=
  if 128 ≤ (bs.headD 0).toNat then (beVal bs : Int) - 256 ^ bs.length else beVal bs

end Verif.Integer
