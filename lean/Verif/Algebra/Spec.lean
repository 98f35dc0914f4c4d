import Verif.Algebra.Model
import Mathlib.Algebra.Group.Defs

/-!
# What it means to implement a group

`Laws` relates the operations of a group object to a commutative monoid `G` (a group, if inversion is used): `Rep e x` says that a
variable with contents `e` stands for `x`, `Ref e x` the same of a returned reference, and `Src e x` the same of an element that is only
added to others or doubled (it may be less normalised, as an unreduced residue is).
-/
namespace Verif.Algebra

variable {S E : Type}

/-- The computation succeeds, keeps the invariant of the group object, and its result has the property. -/
def Post {α : Type} (Inv : S → Prop) (m : M S α) (P : α → Prop) : Prop :=
  ∀ s, Inv s → ∃ a s', m s = .ok (a, s') ∧ Inv s' ∧ P a

structure Laws {G : Type} [AddCommMonoid G] (grp : Grp S E) (Inv : S → Prop) (Rep Ref Src : E → G → Prop) : Prop where
  toRef : ∀ {e : E} {x : G}, Rep e x → Ref e x
  toSrc : ∀ {e : E} {x : G}, Ref e x → Src e x
  cp : ∀ {e : E} {x : G}, Ref e x → Rep (grp.cp e) x
  cpSrc : ∀ {e : E} {x : G}, Src e x → Src (grp.cp e) x
  ident : Post Inv grp.ident (fun r => Ref r 0)
  add : ∀ {a b : E} {x y : G}, Ref a x → Rep b y → Post Inv (grp.add a b) (fun r => Ref r (x + y))
  acc : ∀ {a b : E} {x y : G}, Rep a x → Src b y → Post Inv (grp.acc a b) (fun r => Rep r (x + y))
  dbl : ∀ {a : E} {x : G}, Src a x → Post Inv (grp.dbl a) (fun r => Ref r (x + x))
  inv : grp.fast = true → ∀ {a : E} {x : G}, Src a x → ∃ y, x + y = 0 ∧ Post Inv (grp.inv a) (fun r => Ref r y)

/-- The virtual multiplications of the group object compute multiples, for the exponents that are `ok`. -/
structure MulsOk {G : Type} [AddCommMonoid G] (ms : Muls S E) (Inv : S → Prop) (Rep Src : E → G → Prop) (ok : Nat → Prop) : Prop where
  down : ∀ {e e' : Nat}, ok e → e' ≤ e → ok e'
  smul : ∀ {b : E} {x : G}, Src b x → ∀ {e}, ok e → Post Inv (ms.smul b e) (fun r => Rep r (e • x))
  casc : ∀ {a b : E} {x y : G}, Rep a x → Rep b y → ∀ {e1 e2}, ok e1 → ok e2 → Post Inv (ms.casc a e1 b e2) (fun r => Rep r (e1 • x + e2 • y))

/-- The C++ standard's notion of a heap (of keys): no key is larger than its parent's. -/
def IsHeap (ks : List Nat) : Prop := ∀ i a b, 0 < i → ks[i]? = some a → ks[(i - 1) / 2]? = some b → a ≤ b

/-- The result `r` of a `pop_heap` on a rearrangement of `l`: a largest exponent is last, and the others form a heap. -/
def Popped (l r : List (E × Nat)) : Prop :=
  r.Perm l ∧ IsHeap (r.dropLast.map (·.2)) ∧ ∀ last, r.getLast? = some last → ∀ m ∈ l, m.2 ≤ last.2

/-- What the C++ standard guarantees of `make_heap` followed by `pop_heap`, and of `push_heap` followed by `pop_heap` on a range that is
a heap except for its last element. -/
structure HeapOk (heap0 heap : List (E × Nat) → List (E × Nat)) : Prop where
  make : ∀ l, Popped l (heap0 l)
  push : ∀ l, IsHeap (l.dropLast.map (·.2)) → Popped l (heap l)

/-- `n₁•g₁ + n₂•g₂ + ...` for a list of bases and exponents. -/
inductive Sum {G : Type} [AddCommMonoid G] (Rep : E → G → Prop) : List (E × Nat) → G → Prop where
  | nil : Sum Rep [] 0
  | cons {e : E} {n : Nat} {g v : G} {l : List (E × Nat)} : Rep e g → Sum Rep l v → Sum Rep ((e, n) :: l) (n • g + v)

end Verif.Algebra
