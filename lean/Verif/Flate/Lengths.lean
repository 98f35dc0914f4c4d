import Verif.Flate.Huffman

/-!
# Model of `HuffmanEncoder::GenerateCodeLengths` (zdeflate.cpp:125-197)

`std::sort` is not stable, and which order it leaves equal keys in is not specified: the sort is a
parameter, of which only `IsSort` is known.  Node weights are natural numbers: they are `unsigned` in the
C++, where the counts of one block add up to no more than the size of the match buffer plus one.
-/
namespace Verif.Flate

/-- `HuffmanNode` as it is before the tree is built: symbol and frequency. -/
structure Leaf where
  symbol : Nat
  freq : Nat
deriving DecidableEq, Repr, Inhabited

/-- What is known of `std::sort` with `FreqLessThan`. -/
structure IsSort (srt : List Leaf → List Leaf) : Prop where
  perm : ∀ l, (srt l).Perm l
  sorted : ∀ l, (srt l).Pairwise fun a b => a.freq ≤ b.freq

/-- zdeflate.cpp:131-136 -/
def leaves (counts : List Nat) : List Leaf := counts.mapIdx fun i c => ⟨i, c⟩

/-- The nodes, and the two queues of the merge.  `v i` is the union of `tree[i]`: frequency, then parent,
then depth share one place. -/
structure Tree where
  v : Nat → Nat
  leaf : Nat
  inter : Nat

/-- The choice of `least` in zdeflate.cpp:150 and 153. -/
def pick (n i : Nat) (t : Tree) : Nat :=
  if t.leaf = n ∨ (t.inter < i ∧ t.v t.inter < t.v t.leaf) then t.inter else t.leaf

/-- The increment in zdeflate.cpp:150 and 153. -/
def advance (n i : Nat) (t : Tree) : Tree :=
  if t.leaf = n ∨ (t.inter < i ∧ t.v t.inter < t.v t.leaf) then { t with inter := t.inter + 1 }
  else { t with leaf := t.leaf + 1 }

/-- zdeflate.cpp:150-152 -/
def takeFirst (n i : Nat) (t : Tree) : Tree :=
  { advance n i t with v := put (put t.v i (t.v (pick n i t))) (pick n i t) i }

/-- zdeflate.cpp:153-155 -/
def takeSecond (n i : Nat) (t : Tree) : Tree :=
  { advance n i t with v := put (put t.v i (t.v i + t.v (pick n i t))) (pick n i t) i }

/-- zdeflate.cpp:147-156: `k` steps from `i`. -/
def mergeLoop (n : Nat) : Nat → Nat → Tree → Tree
  | 0, _, t => t
  | k + 1, i, t => mergeLoop n k (i + 1) (takeSecond n i (takeFirst n i t))

/-- zdeflate.cpp:160-161: `i` from `n + k - 1` down to `n`. -/
def depthLoop (n : Nat) : Nat → (Nat → Nat) → Nat → Nat
  | 0, v => v
  | k + 1, v => depthLoop n k (put v (n + k) (v (v (n + k)) + 1))

/-- zdeflate.cpp:162-171: the lengths, cut at the maximum. -/
def cutDepths (maxBits tb N : Nat) (v : Nat → Nat) : List Nat :=
  (List.range' tb N).map fun i => min maxBits (v (v i) + 1)

/-- `while (blCount[bits] == 0) bits--`.  At `bits = 0` the C++ would run below the array; the proofs show
that a code is always found before. -/
def downTo (bl : Nat → Nat) : Nat → Nat
  | 0 => 0
  | b + 1 => if bl (b + 1) = 0 then downTo bl b else b + 1

/-- zdeflate.cpp:177-183 -/
def fixStep (maxBits : Nat) (bl : Nat → Nat) : Nat → Nat :=
  let b := downTo bl (maxBits - 1)
  let bl := put bl b (bl b - 1)
  let bl := put bl (b + 1) (bl (b + 1) + 2)
  put bl maxBits (bl maxBits - 1)

/-- zdeflate.cpp:175 -/
def fixLoop (maxBits : Nat) : Nat → (Nat → Nat) → Nat → Nat
  | 0, bl => bl
  | k + 1, bl => fixLoop maxBits k (fixStep maxBits bl)

/-- zdeflate.cpp:188-195 -/
def handOut : Nat → (Nat → Nat) → List Leaf → (Nat → Nat) → Nat → Nat
  | _, _, [], out => out
  | b, bl, l :: ls, out => handOut (downTo bl b) (put bl (downTo bl b) (bl (downTo bl b) - 1)) ls (put out l.symbol (downTo bl b))

/-- zdeflate.cpp:125 `GenerateCodeLengths(codeBits, maxCodeBits, codeCounts, nCodes)`: the array `codeBits`. -/
def generate (srt : List Leaf → List Leaf) (maxBits : Nat) (counts : List Nat) : List Nat :=
  let n := counts.length
  let tree := srt (leaves counts)
  let tb := (tree.takeWhile fun l => decide (l.freq ≤ 0)).length
  if tb = n then List.replicate n 0
  else
    let N := n - tb
    let t := mergeLoop n (N - 1) n ⟨fun i => (tree.getD i default).freq, tb, n⟩
    let v := depthLoop n (N - 2) (put t.v (n + N - 2) 0)
    let cut := cutDepths maxBits tb N v
    let bl := blCount cut
    let sum : Nat := (cut.map fun d => 2 ^ (maxBits - d)).sum
    let overflow : Nat := if sum > 2 ^ maxBits then sum - 2 ^ maxBits else 0
    let bl := fixLoop maxBits overflow bl
    (List.range n).map (handOut maxBits bl (tree.drop tb) fun _ => 0)

end Verif.Flate
