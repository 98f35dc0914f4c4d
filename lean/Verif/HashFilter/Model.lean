import Verif.BufFilter.Model
import Verif.Hash.Obj

/-!
# `HashFilter` and `HashVerificationFilter` (filters.h:560-665, filters.cpp:850-946)

On top of the model of `FilterWithBufferedInput`.  Blocking calls only; the attached transformation takes everything it is given; both channels
of `HashFilter` are the default channel.  What reaches the attached transformation is a stream of bytes and message-end signals: `some b` and
`none`.
-/
namespace Verif.HashFilter
open Verif.BufFilter

/-- `AttachedTransformation()->Put(bs)`. -/
def out (bs : List Byte) : List (Option Byte) := bs.map some

variable {σ : Type}

/-! ## `HashFilter` -/

/-- `HashFilter::Put2` (filters.cpp:867-884); `n` is `m_digestSize`. -/
def hashPut (O : Hash.Obj σ) (putMessage : Bool) (n : Nat) (s : σ) (inString : List Byte) (messageEnd : Bool) : Except Err (σ × List (Option Byte)) := do
  let o1 := if putMessage then out inString else []
  let s ← if inString.length ≠ 0 then O.update s inString else .ok s
  if messageEnd then
    let (s, d) ← O.final s n
    return (s, o1 ++ out d ++ [none])
  else return (s, o1)

/-! ## `HashVerificationFilter` -/

/-- `enum Flags` (filters.h:625-640). -/
structure Flags where
  hashAtBegin : Bool
  putMessage : Bool
  putHash : Bool
  putResult : Bool
  throwException : Bool

/-- The fields (filters.h:659-664); `expected` is `m_expectedHash`, empty at first. -/
structure HV (σ : Type) where
  base : Filt
  hash : σ
  verified : Bool
  expected : List Byte

/-- The constructor, `IsolatedInitialize` and `InitializeDerivedAndReturnNewSizes` (filters.cpp:888-907) for a digest size of `n`. -/
def init (junk : Nat → Byte) (fl : Flags) (n : Nat) (hash : σ) : Except Err (HV σ) := do
  let base ← Filt.init junk (if fl.hashAtBegin then n else 0) 1 (if fl.hashAtBegin then 0 else n)
  return ⟨base, hash, false, []⟩

/-- `FirstPut` (filters.cpp:909-918). -/
def firstPut (fl : Flags) (s : HV σ) (inString : List Byte) : HV σ × List (Option Byte) :=
  if fl.hashAtBegin then ({ s with expected := inString }, if fl.putHash then out inString else [])
  else (s, [])

/-- `NextPutMultiple` (filters.cpp:920-925). -/
def nextPut (O : Hash.Obj σ) (fl : Flags) (s : HV σ) (inString : List Byte) : Except Err (HV σ × List (Option Byte)) := do
  let h ← O.update s.hash inString
  return ({ s with hash := h }, if fl.putMessage then out inString else [])

/-- `HashTransformation::TruncatedVerify(digest, n)` (cryptlib.cpp:406-413); reading past the end of the buffer `digest` is undefined.
`VerifyBufsEqual` compares the buffers (C43). -/
def truncatedVerify (O : Hash.Obj σ) (h : σ) (digest : List Byte) (n : Nat) : Except Err (σ × Bool) := do
  let (h, d) ← O.final h n
  let e ← slice digest 0 n
  return (h, decide (d = e))

/-- `LastPut` (filters.cpp:927-946): the new state, the output, and whether `HashVerificationFailed` is thrown at the end. -/
def lastPut (O : Hash.Obj σ) (fl : Flags) (n : Nat) (s : HV σ) (inString : List Byte) : Except Err (HV σ × List (Option Byte) × Bool) := do
  let (s, o1) ← (
    if fl.hashAtBegin then do
      let (h, v) ← truncatedVerify O s.hash s.expected n
      return ({ s with hash := h, verified := v }, [])
    else do
      let (h, v) ← if inString.length = n then truncatedVerify O s.hash inString inString.length else .ok (s.hash, false)
      return ({ s with hash := h, verified := v }, if fl.putHash then out inString else []) : Except Err (HV σ × List (Option Byte)))
  let o2 := if fl.putResult then out [if s.verified then 1 else 0] else []
  return (s, o1 ++ o2, fl.throwException && !s.verified)

/-- The calls of the base class on the derived class, in order. -/
def handle (O : Hash.Obj σ) (fl : Flags) (s : HV σ) : List Ev → Except Err (HV σ × List (Option Byte))
  | [] => .ok (s, [])
  | .first bs :: evs => do
    let (s, o1) := firstPut fl s bs
    let (s, o2) ← handle O fl s evs
    return (s, o1 ++ o2)
  | .next bs :: evs => do
    let (s, o1) ← nextPut O fl s bs
    let (s, o2) ← handle O fl s evs
    return (s, o1 ++ o2)
  | _ :: evs => handle O fl s evs

/-- The `if (messageEnd)` part of `PutMaybeModifiable` (filters.cpp:420-434).  When `LastPut` throws, lines 429-433 are not reached. -/
def finish (O : Hash.Obj σ) (fl : Flags) (n : Nat) (s : HV σ) : Except Err (HV σ × List (Option Byte) × Bool) := do
  let (s, o1) := if !s.base.firstDone ∧ s.base.firstSize = 0 then firstPut fl s [] else (s, [])
  let (x, q) ← s.base.q.getAll
  let s := { s with base := { s.base with q := q } }
  let (s, o2, thrown) ← lastPut O fl n s x
  if thrown then return (s, o1 ++ o2, true)
  else return ({ s with base := { s.base with firstDone := false, q := Ring.reset s.base.junk 1 s.base.firstSize } }, o1 ++ o2 ++ [none], false)

/-- `PutMaybeModifiable` (filters.cpp:347-436). -/
def put (O : Hash.Obj σ) (fl : Flags) (n : Nat) (s : HV σ) (inp : List Byte) (messageEnd : Bool) : Except Err (HV σ × List (Option Byte) × Bool) := do
  let (s, o1) ← (if inp.length ≠ 0 then do
      let (base, evs) ← s.base.putData inp
      handle O fl { s with base := base } evs
    else .ok (s, []) : Except Err (HV σ × List (Option Byte)))
  if messageEnd then do
    let (s, o2, thrown) ← finish O fl n s
    return (s, o1 ++ o2, thrown)
  else return (s, o1, false)

/-- `Flush(true)`: `IsolatedFlush` with `hardFlush` (filters.cpp:335-345, 438-454). -/
def hardFlush (O : Hash.Obj σ) (fl : Flags) (s : HV σ) : Except Err (HV σ × List (Option Byte)) := do
  let (base, evs) ← s.base.forceNextPut .leftToRight
  handle O fl { s with base := base } evs

end Verif.HashFilter
