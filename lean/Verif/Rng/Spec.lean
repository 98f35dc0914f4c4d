import Verif.Rng.Model

/-! # Specifications for random numbers -/
namespace Verif.Rng

/-- In how many ways `x < n` satisfies `p`. -/
def ways (n : Nat) (p : Nat → Bool) : Nat := ((List.range n).filter p).length

/-- A generator gives the number of bytes asked for. -/
def Gen.Ok {σ : Type} (g : Gen σ) : Prop := ∀ s n, (g.block s n).1.length = n

/-- Choose an element for each place in turn: `c` is the distance of the chosen element. -/
def choose {α : Type} : List Nat → List α → List α
  | c :: cs, l@(a :: t) => l.getD c a :: choose cs (if c = 0 then t else t.set (c - 1) a)
  | _, l => l

/-- The choices possible for `n` elements: the first below `n`, the next below `n - 1`, ... -/
def Choices : Nat → List Nat → Prop
  | 0, cs => cs = []
  | n + 1, cs => ∃ c t, cs = c :: t ∧ c ≤ n ∧ Choices n t

/-- The sequence of a Mersenne twister (Matsumoto and Nishimura): the seed words, then the linear recurrence. -/
def IsMT (P : MTParams) (seed : W32) (x : Nat → W32) : Prop :=
  x 0 = seed ∧
  (∀ i, i + 1 < P.N → x (i + 1) = P.F * (x i ^^^ (x i >>> 30)) + BitVec.ofNat 32 (i + 1)) ∧
  ∀ i, x (i + P.N) =
    let y := (x i &&& 0x80000000) ||| (x (i + 1) &&& 0x7FFFFFFF)
    x (i + P.M) ^^^ (y >>> 1) ^^^ (if y &&& 1 = 0 then 0 else P.K)

/-- ANSI X9.17: `I = E(DT)`, `R = E(I ⊕ V)`, and the next `V` is `E(R ⊕ I)`; `DT` counts up. The blocks and the states `V`. -/
def x917V (E : List Byte → List Byte) (n : Nat) (dt : Nat) (v : List Byte) : Nat → List Byte
  | 0 => v
  | k + 1 =>
    let I := E (beBytes n (dt + k))
    let R := E (List.zipWith (· ^^^ ·) (x917V E n dt v k) I)
    E (List.zipWith (· ^^^ ·) R I)

def x917R (E : List Byte → List Byte) (n : Nat) (dt : Nat) (v : List Byte) (k : Nat) : List Byte :=
  E (List.zipWith (· ^^^ ·) (x917V E n dt v k) (E (beBytes n (dt + k))))

end Verif.Rng
