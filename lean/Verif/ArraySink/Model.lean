import Verif.Mem

/-!
# ArraySink and ArrayXorSink (filters.h:1190-1254, filters.cpp:531-575)

Memory is a function from addresses; a null pointer is `none`. `m_total` stays at most `m_size`, so that `lword` does not wrap.
-/
namespace Verif.ArraySink

/-- The members (filters.h:1229-1231). -/
structure Sink where
  buf : Option Nat
  size : Nat
  total : Nat
deriving DecidableEq

/-- The constructors with a buffer (filters.h:1213-1214, 1249-1250). -/
def make (buf size : Nat) : Sink := ⟨some buf, size, 0⟩

/-- `AvailableSize` (filters.h:1218): `SaturatingSubtract`. -/
def availableSize (s : Sink) : Nat := s.size - s.total

/-- `TotalPutLength` (filters.h:1222). -/
def totalPutLength (s : Sink) : Nat := s.total

/-- `ArraySink::Put2` (filters.cpp:531-545) and, with `xor`, `ArrayXorSink::Put2` (filters.cpp:562-575): the memory, the sink and the number returned. `memmove` reads before it writes. -/
def put2 (xor : Bool) (m : Mem) (s : Sink) (begin_ : Option Nat) (length : Nat) : Mem × Sink × Nat :=
  match s.buf, begin_ with
  | some b, some p =>
    let copied := min length (s.size - s.total)
    let data := if xor then xorBytes (load m (b + s.total) copied) (load m p copied) else load m p copied
    (store m (b + s.total) data, { s with total := s.total + copied }, length - copied)
  | _, _ => (m, s, length)

/-- `ArraySink::CreatePutSpace` (filters.cpp:547-551): the pointer and the size. -/
def createPutSpace (s : Sink) : Option Nat × Nat := (s.buf.map (· + s.total), s.size - s.total)

/-- `IsolatedInitialize` (filters.cpp:553-560) with a buffer among the parameters. -/
def reinit (s : Sink) (buf size : Nat) : Sink := { s with buf := some buf, size := size }

/-- What a caller of `CreatePutSpace` and `Put2` (filters.h:1225-1226) does. `put p x`: it has the bytes `x` at `p` and puts them. `space x`: it asks for space, writes `x` there and puts it. -/
inductive Op where
  | put (p : Nat) (x : List Byte)
  | space (x : List Byte)

/-- The bytes a call passes to `Put2` (filters.cpp:531). -/
def Op.data : Op → List Byte
  | .put _ x => x
  | .space x => x

/-- One call (filters.cpp:531-575), with the number `Put` returns. -/
def step (xor : Bool) (m : Mem) (s : Sink) : Op → Mem × Sink × Nat
  | .put p x => put2 xor (store m p x) s (some p) x.length
  | .space x =>
    match (createPutSpace s).1 with
    | some q => put2 xor (store m q x) s (some q) x.length
    | none => (m, s, x.length)

/-- A sequence of calls (filters.cpp:531-575): memory, sink and the numbers returned. -/
def run (xor : Bool) : Mem → Sink → List Op → Mem × Sink × List Nat
  | m, s, [] => (m, s, [])
  | m, s, op :: ops =>
    let r := step xor m s op
    let t := run xor r.1 r.2.1 ops
    (t.1, t.2.1, r.2.2 :: t.2.2)

end Verif.ArraySink
