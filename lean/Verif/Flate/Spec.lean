import Verif.Flate.Bits

/-!
# Specification: canonical Huffman codes

RFC 1951, 3.2.2: all codes of a given length have lexicographically consecutive values, in the same
order as the symbols they stand for, and shorter codes lexicographically precede longer ones.  A code
is given by the list of the code lengths of the symbols 0, 1, 2, ...; length 0 means not used.
-/
namespace Verif.Flate

/-- The smallest code of length `l` (RFC 1951, 3.2.2, step 2). -/
def firstCode (lens : List Nat) : Nat → Nat
  | 0 => 0
  | 1 => 0
  | l + 2 => 2 * (firstCode lens (l + 1) + lens.count (l + 1))

/-- The code of symbol `s` as a number (RFC 1951, 3.2.2, step 3). -/
def codeNum (lens : List Nat) (s : Nat) : Nat :=
  firstCode lens (lens.getD s 0) + (lens.take s).count (lens.getD s 0)

/-- The code of symbol `s` as it is packed into the stream: most significant bit first
(RFC 1951, 3.1.1). -/
def codeBits (lens : List Nat) (s : Nat) : List Bool := (bits (lens.getD s 0) (codeNum lens s)).reverse

/-- The part of the code space that is used, in units of `2^-M`. -/
def kraft (M : Nat) (lens : List Nat) : Nat := (lens.map fun l => if l = 0 then 0 else 2 ^ (M - l)).sum

/-- What RFC 1951 allows as a code: no length exceeds `M`, and the code is complete; or a single
symbol of length one. -/
def ValidCode (M : Nat) (lens : List Nat) : Prop :=
  (∀ l ∈ lens, l ≤ M) ∧ (kraft M lens = 2 ^ M ∨ ((∀ l ∈ lens, l ≤ 1) ∧ lens.count 1 = 1))

end Verif.Flate
