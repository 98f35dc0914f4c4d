import Verif.Common

/-!
# SecBlock over AllocatorWithCleanup (secblock.h)

The elements are words of `w` bits, a whole number of bytes. The heap is modelled with what happened to every allocation: a freed one keeps what it held when it was given back. A value of `none` is uninitialised memory. The operating system may refuse any allocation: `F k` says whether it refuses the `k`-th. The allocators of fixed size are in `Verif/SecBlock/Fixed.lean`.
-/
namespace Verif.SecBlock

/-- An allocation. -/
inductive Cell (w : Nat) where
  | unused
  | live (d : List (Option (BitVec w)))
  | freed (d : List (Option (BitVec w)))
deriving DecidableEq

/-- The heap; allocations are numbered in order, refused ones too. -/
structure Heap (w : Nat) where
  count : Nat
  cell : Nat → Cell w

/-- One allocation changed. -/
def Heap.put {w : Nat} (h : Heap w) (p : Nat) (c : Cell w) : Heap w := { h with cell := fun i => if i = p then c else h.cell i }

/-- `m_mark`, `m_size`, `m_ptr` (secblock.h:1219-1221). -/
structure Block where
  mark : Nat
  size : Nat
  ptr : Option Nat
deriving DecidableEq

/-- `ELEMS_MAX` (secblock.h:62, 755) for a 64-bit `size_t`. -/
def elemsMax (w : Nat) : Nat := (2 ^ 64 - 1) / (w / 8)

/-- `AllocatorWithCleanup::allocate` (secblock.h:206-220) with `CheckSize` (secblock.h:119-126). For one byte elements no `size_t` is above the limit. `UnalignedAllocate` is `malloc` and throws `bad_alloc` (allocate.cpp:89-95). -/
def allocate {w : Nat} (F : Nat → Bool) (h : Heap w) (n : Nat) : Heap w × Except Err (Option Nat) :=
  if n > elemsMax w then (h, .error .invalidArgument) else
  if n = 0 then (h, .ok none) else
  if F h.count then ({ h with count := h.count + 1 }, .error .other) else
  ({ count := h.count + 1, cell := (h.put h.count (.live (List.replicate n none))).cell }, .ok (some h.count))

/-- `deallocate` (secblock.h:229-244): wipe `size` elements, then give the memory back. Freeing what is not allocated and wiping beyond it are undefined behaviour (`none`). -/
def deallocate {w : Nat} (h : Heap w) (ptr : Option Nat) (size : Nat) : Option (Heap w) :=
  match ptr with
  | none => some h
  | some p =>
    match h.cell p with
    | .live d => if size ≤ d.length then some (h.put p (.freed (List.replicate size (some 0) ++ d.drop size))) else none
    | _ => none

/-- Writing elements from `off` on (`memcpy_s`, `memset_z`, `m_ptr[i] = value`). -/
def write {w : Nat} (h : Heap w) (ptr : Option Nat) (off : Nat) (x : List (Option (BitVec w))) : Option (Heap w) :=
  match ptr with
  | none => if x = [] then some h else none
  | some p =>
    match h.cell p with
    | .live d => if off + x.length ≤ d.length then some (h.put p (.live (d.take off ++ x ++ d.drop (off + x.length)))) else none
    | _ => none

/-- Reading the first `n` elements. -/
def read {w : Nat} (h : Heap w) (ptr : Option Nat) (n : Nat) : Option (List (Option (BitVec w))) :=
  match ptr with
  | none => if n = 0 then some [] else none
  | some p =>
    match h.cell p with
    | .live d => if n ≤ d.length then some (d.take n) else none
    | _ => none

/-- How a call ends: `throw` with the heap and the object it leaves. -/
inductive Out (w : Nat) where
  | ok (h : Heap w) (s : Block)
  | throw (e : Err) (h : Heap w) (s : Block)
  | ub

/-- After a step that may be undefined. -/
def orUb {w : Nat} {β : Type} (x : Option β) (f : β → Out w) : Out w :=
  match x with
  | none => .ub
  | some y => f y

/-- `StandardReallocate` (secblock.h:149-181) through `reallocate` (secblock.h:259-263), and the assignments to `m_ptr` and `m_size` after it (secblock.h:1128-1129, 1164-1165, 1183-1185, 1200-1201). A throw leaves both members as they were. -/
def reallocate {w : Nat} (F : Nat → Bool) (h : Heap w) (s : Block) (newSize : Nat) (preserve : Bool) : Out w :=
  if s.size = newSize then .ok h { s with size := newSize } else
  if preserve then
    match allocate F h newSize with
    | (h, .error e) => .throw e h s
    | (h, .ok newPtr) =>
      orUb (if s.ptr ≠ none ∧ newPtr ≠ none then (read h s.ptr (min s.size newSize)).bind (write h newPtr 0) else some h) fun h =>
      orUb (deallocate h s.ptr s.size) fun h => .ok h { s with ptr := newPtr, size := newSize }
  else
    orUb (deallocate h s.ptr s.size) fun h =>
      match allocate F h newSize with
      | (h, .error e) => .throw e h s
      | (h, .ok newPtr) => .ok h { s with ptr := newPtr, size := newSize }

/-- What follows when a call returns. -/
def Out.bind {w : Nat} (o : Out w) (f : Heap w → Block → Out w) : Out w :=
  match o with
  | .ok h s => f h s
  | o => o

/-- `m_mark = ELEMS_MAX` -/
def unmark (w : Nat) (s : Block) : Block := { s with mark := elemsMax w }

/-- `New` (secblock.h:1126-1131). -/
def new {w : Nat} (F : Nat → Bool) (n : Nat) (h : Heap w) (s : Block) : Out w :=
  (reallocate F h s n false).bind fun h s => .ok h (unmark w s)

/-- `CleanNew` (secblock.h:1143-1148). -/
def cleanNew {w : Nat} (F : Nat → Bool) (n : Nat) (h : Heap w) (s : Block) : Out w :=
  (new F n h s).bind fun h s =>
    orUb (if s.ptr ≠ none then write h s.ptr 0 (List.replicate s.size (some 0)) else some h) fun h => .ok h (unmark w s)

/-- `Grow` (secblock.h:1160-1168). -/
def grow {w : Nat} (F : Nat → Bool) (n : Nat) (h : Heap w) (s : Block) : Out w :=
  if n > s.size then (reallocate F h s n true).bind fun h s => .ok h (unmark w s) else .ok h (unmark w s)

/-- `CleanGrow` (secblock.h:1179-1188). -/
def cleanGrow {w : Nat} (F : Nat → Bool) (n : Nat) (h : Heap w) (s : Block) : Out w :=
  if n > s.size then
    (reallocate F h s n true).bind fun h s' => orUb (write h s'.ptr s.size (List.replicate (n - s.size) (some 0))) fun h => .ok h (unmark w s')
  else .ok h (unmark w s)

/-- `resize` (secblock.h:1198-1203). -/
def resize {w : Nat} (F : Nat → Bool) (n : Nat) (h : Heap w) (s : Block) : Out w :=
  (reallocate F h s n true).bind fun h s => .ok h (unmark w s)

/-- `Assign` (secblock.h:898-937) of the elements of another array or block, or of one value `x.length` times. -/
def assign {w : Nat} (F : Nat → Bool) (x : List (BitVec w)) (h : Heap w) (s : Block) : Out w :=
  (new F x.length h s).bind fun h s => orUb (write h s.ptr 0 (x.map some)) fun h => .ok h (unmark w s)

/-- `Append` (secblock.h:952-992, 1004-1014) of the elements of another array or block, or of one value `x.length` times. -/
def append {w : Nat} (F : Nat → Bool) (x : List (BitVec w)) (h : Heap w) (s : Block) : Out w :=
  if elemsMax w - s.size < x.length then .throw .invalidArgument h s else
  (grow F (s.size + x.length) h s).bind fun h s' => orUb (write h s'.ptr s.size (x.map some)) fun h => .ok h (unmark w s')

/-- `Append(*this)` (secblock.h:973-992). -/
def appendSelf {w : Nat} (F : Nat → Bool) (h : Heap w) (s : Block) : Out w :=
  if elemsMax w - s.size < s.size then .throw .invalidArgument h s else
  (grow F (s.size * 2) h s).bind fun h s' =>
    orUb (if s'.ptr ≠ none then (read h s'.ptr s.size).bind (write h s'.ptr s.size) else some h) fun h => .ok h (unmark w s')

/-- `block[i] = v`, which the caller may do within the block (secblock.h:829). -/
def set {w : Nat} (i : Nat) (v : BitVec w) (h : Heap w) (s : Block) : Out w :=
  orUb (write h s.ptr i [some v]) fun h => .ok h s

/-- The constructor with a size (secblock.h:766-767); when `allocate` throws there is no object. -/
def construct {w : Nat} (F : Nat → Bool) (n : Nat) (h : Heap w) : Heap w × Except Err Block :=
  match allocate F h n with
  | (h, .error e) => (h, .error e)
  | (h, .ok p) => (h, .ok ⟨elemsMax w, n, p⟩)

/-- The copy constructor (secblock.h:773-778). -/
def copy {w : Nat} (F : Nat → Bool) (h : Heap w) (t : Block) : Out w :=
  match allocate F h t.size with
  | (h, .error e) => .throw e h t
  | (h, .ok p) => orUb (if p ≠ none ∧ t.ptr ≠ none then (read h t.ptr t.size).bind (write h p 0) else some h) fun h => .ok h ⟨t.mark, t.size, p⟩

/-- The destructor (secblock.h:798-799). -/
def destroy {w : Nat} (h : Heap w) (s : Block) : Option (Heap w) := deallocate h s.ptr (min s.size s.mark)

/-- The calls that change a block. -/
inductive Op (w : Nat) where
  | new (n : Nat)
  | cleanNew (n : Nat)
  | grow (n : Nat)
  | cleanGrow (n : Nat)
  | resize (n : Nat)
  | assign (x : List (BitVec w))
  | append (x : List (BitVec w))
  | appendSelf
  | set (i : Nat) (v : BitVec w)

/-- One call. -/
def step {w : Nat} (F : Nat → Bool) (h : Heap w) (s : Block) : Op w → Out w
  | .new n => new F n h s
  | .cleanNew n => cleanNew F n h s
  | .grow n => grow F n h s
  | .cleanGrow n => cleanGrow F n h s
  | .resize n => resize F n h s
  | .assign x => assign F x h s
  | .append x => append F x h s
  | .appendSelf => appendSelf F h s
  | .set i v => set i v h s

/-- A sequence of calls, until one throws. -/
def run {w : Nat} (F : Nat → Bool) (h : Heap w) (s : Block) : List (Op w) → Out w
  | [] => .ok h s
  | op :: ops => (step F h s op).bind fun h s => run F h s ops

end Verif.SecBlock
