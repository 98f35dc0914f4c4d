import Verif.SecBlock.Model

/-!
# What the calls of a SecBlock do to its elements

`none` is an element of no particular value.
-/
namespace Verif.SecBlock.Spec

/-- The first `n` elements, and after them new ones. -/
def fit {w : Nat} (n : Nat) (fresh : Option (BitVec w)) (c : List (Option (BitVec w))) : List (Option (BitVec w)) :=
  c.take n ++ List.replicate (n - c.length) fresh

/-- The elements after a call. A block that has the size already keeps its elements in `New`. -/
def after {w : Nat} (c : List (Option (BitVec w))) : Op w → List (Option (BitVec w))
  | .new n => if c.length = n then c else List.replicate n none
  | .cleanNew n => List.replicate n (some 0)
  | .grow n => if c.length < n then fit n none c else c
  | .cleanGrow n => if c.length < n then fit n (some 0) c else c
  | .resize n => fit n none c
  | .assign x => x.map some
  | .append x => c ++ x.map some
  | .appendSelf => c ++ c
  | .set i v => c.set i (some v)

/-- The caller writes within the block. -/
def inside {w : Nat} (c : List (Option (BitVec w))) : Op w → Prop
  | .set i _ => i < c.length
  | _ => True

/-- All calls of a sequence are within the block. -/
def Inside {w : Nat} : List (Option (BitVec w)) → List (Op w) → Prop
  | _, [] => True
  | c, op :: ops => inside c op ∧ Inside (after c op) ops

/-- Given back with zeros only, or never used. -/
def Clean {w : Nat} : Cell w → Prop
  | .unused => True
  | .live _ => False
  | .freed d => ∀ x ∈ d, x = some 0

end Verif.SecBlock.Spec
