/-!
# Numbers in positional notation
-/
namespace Verif.IntStr.Spec

/-- The number written by the digits, the most significant one first. -/
def positional (radix : Nat) : List Nat → Nat
  | [] => 0
  | d :: ds => d * radix ^ ds.length + positional radix ds

/-- The value of a digit, in either case. -/
def digit? (c : Char) : Option Nat :=
  if c ∈ ['0', '1', '2', '3', '4', '5', '6', '7', '8', '9'] then some (c.toNat - '0'.toNat)
  else if c ∈ ['a', 'b', 'c', 'd', 'e', 'f'] then some (c.toNat - 'a'.toNat + 10)
  else if c ∈ ['A', 'B', 'C', 'D', 'E', 'F'] then some (c.toNat - 'A'.toNat + 10)
  else none

/-- The digits of a base among the characters of a text; everything else is skipped. -/
def digits (radix : Nat) (s : List Char) : List Nat := s.filterMap fun c => (digit? c).filter (· < radix)

/-- The base a last character stands for: h, o and b in either case, and 10 otherwise. -/
def suffixBase (c : Char) : Nat :=
  if c ∈ ['h', 'H'] then 16 else if c ∈ ['o', 'O'] then 8 else if c ∈ ['b', 'B'] then 2 else 10

/-- The number a text stands for. -/
def number (radix : Nat) (s : List Char) : Nat := positional radix (digits radix s)

/-- The bytes of a text of hexadecimal digits in pairs; a last single digit is a byte of its own. -/
def pairs : List Nat → List Nat
  | h :: l :: ds => (16 * h + l) :: pairs ds
  | ds => ds

end Verif.IntStr.Spec
