import Verif.Common

/-!
# RC4 as the literature describes it

A permutation `S` of the 256 bytes and two indices. The key schedule swaps 256 times; every byte of keystream advances `i`, adds `S[i]` to `j`, swaps and looks up `S[i] + S[j]`.
-/
namespace Verif.Arc4.Spec

/-- `S` with the entries at `a` and `b` exchanged. -/
def swap (S : Byte → Byte) (a b : Byte) : Byte → Byte :=
  fun k => if k = b then S a else if k = a then S b else S k

/-- `n` steps of the key schedule, starting from the identity and `j = 0`. -/
def schedule (key : List Byte) : Nat → (Byte → Byte) × Byte
  | 0 => (id, 0)
  | n + 1 =>
    let (S, j) := schedule key n
    let i : Byte := BitVec.ofNat 8 n
    let j := j + S i + key.getD (n % key.length) 0
    (swap S i j, j)

structure Gen where
  i : Byte
  j : Byte
  S : Byte → Byte

/-- One step of the generator. -/
def step (g : Gen) : Gen :=
  let i := g.i + 1
  let j := g.j + g.S i
  ⟨i, j, swap g.S i j⟩

/-- The byte the step that leads to `g` puts out. -/
def out (g : Gen) : Byte := g.S (g.S g.i + g.S g.j)

/-- The generator after `n` bytes. -/
def after (key : List Byte) : Nat → Gen
  | 0 => ⟨0, 0, (schedule key 256).1⟩
  | n + 1 => step (after key n)

/-- Byte `n` of the keystream. -/
def keystream (key : List Byte) (n : Nat) : Byte := out (after key (n + 1))

/-- Bytes `pos, …, pos + n - 1` of the keystream. -/
def segment (key : List Byte) (pos n : Nat) : List Byte := (List.range n).map fun k => keystream key (pos + k)

end Verif.Arc4.Spec
