import Verif.SecBlock.Model

/-!
# FixedSizeSecBlock (secblock.h:575-720, 1244-1250)

Two objects, named by `Bool`. Each holds an array of `S` elements; a pointer is null or points to the array of one of them. The allocator is the one without 16-byte alignment. The fallback allocator is `NullAllocator`, as in `FixedSizeSecBlock`.
-/
namespace Verif.SecBlock.Fixed

/-- What `m_ptr` can be. -/
inductive Ptr where
  | null
  | array (obj : Bool)
deriving DecidableEq

/-- `m_alloc` (secblock.h:717-720), `m_mark`, `m_size`, `m_ptr` (secblock.h:1219-1221). -/
structure Obj (w : Nat) where
  allocated : Bool
  array : List (Option (BitVec w))
  mark : Nat
  size : Nat
  ptr : Ptr
deriving DecidableEq

/-- The two objects. -/
abbrev World (w : Nat) := Bool → Obj w

/-- One object changed. -/
def put {w : Nat} (W : World w) (i : Bool) (o : Obj w) : World w := fun j => if j = i then o else W j

/-- The constructor (secblock.h:1249, 766, 624-633). -/
def make (w S : Nat) (i : Bool) : Obj w := ⟨true, List.replicate S none, elemsMax w, S, .array i⟩

/-- Both constructed. -/
def init (w S : Nat) : World w := fun i => make w S i

/-- The elements of an object: `size()` elements from `m_ptr` on. -/
def elements {w : Nat} (W : World w) (i : Bool) : Option (List (Option (BitVec w))) :=
  match (W i).ptr with
  | .null => if (W i).size = 0 then some [] else none
  | .array j => some ((W j).array.take (W i).size)

/-- `block[k] = v` (secblock.h:829), through `m_ptr`. -/
def set {w : Nat} (W : World w) (i : Bool) (k : Nat) (v : BitVec w) : World w :=
  match (W i).ptr with
  | .null => W
  | .array j => put W j { W j with array := (W j).array.set k (some v) }

/-- `New` (secblock.h:1126-1131) and `resize` (secblock.h:1198-1203) with `reallocate` (secblock.h:682-702), for an object that points to its own array. A size above `S` gets a null pointer from `NullAllocator::allocate` (secblock.h:307-311), after which the old elements are wiped. -/
def new {w : Nat} (S : Nat) (W : World w) (i : Bool) (n : Nat) : World w :=
  let o := W i
  if n ≤ S then
    put W i { o with array := if o.size > n then o.array.take n ++ List.replicate (o.size - n) (some 0) ++ o.array.drop o.size else o.array, size := n, mark := elemsMax w }
  else
    put W i { o with allocated := false, array := List.replicate o.size (some 0) ++ o.array.drop o.size, size := n, ptr := .null, mark := elemsMax w }

/-- `swap` (secblock.h:1209-1216): all members, the array in the allocator included. -/
def swap {w : Nat} (W : World w) : World w := fun i => W (!i)

/-- The destructor (secblock.h:798-799) with `deallocate` (secblock.h:643-663): what is not the own array goes to `NullAllocator`, which does nothing. -/
def destroy {w : Nat} (W : World w) (i : Bool) : World w :=
  let o := W i
  if o.ptr = .array i then
    put W i { o with allocated := false, array := List.replicate (min o.size o.mark) (some 0) ++ o.array.drop (min o.size o.mark) }
  else put W i { o with allocated := false }

end Verif.SecBlock.Fixed
