import Verif.HashFilter.Model

/-! # What the filters must deliver -/
namespace Verif.HashFilter
variable {σ : Type}

/-- What one message comes to: what reached the attached transformation, whether `HashVerificationFailed` was thrown, `GetLastResult()`. -/
structure Result where
  output : List (Option Byte)
  thrown : Bool
  lastResult : Bool
deriving DecidableEq

/-- The rest of the output once hash and message are known; `none` is the message-end signal, not sent when the exception is thrown. -/
def Result.make (fl : Flags) (content : List Byte) (ok : Bool) : Result :=
  let thrown := fl.throwException && !ok
  ⟨(content ++ (if fl.putResult then [if ok then 1 else 0] else [])).map some ++ (if thrown then [] else [none]), thrown, ok⟩

/-- `HASH_AT_END`: the last `n` bytes of `total` are the hash; a message that is too short is all hash and is not accepted. -/
def specEnd (H : List Byte → List Byte) (fl : Flags) (n : Nat) (total : List Byte) : Result :=
  let message := total.take (total.length - n)
  let hash := total.drop (total.length - n)
  Result.make fl ((if fl.putMessage then message else []) ++ (if fl.putHash then hash else [])) (decide (n ≤ total.length ∧ (H message).take n = hash))

/-- `HASH_AT_BEGIN`: the first `n` bytes of `total` are the hash. -/
def specBegin (H : List Byte → List Byte) (fl : Flags) (n : Nat) (total : List Byte) : Result :=
  let hash := total.take n
  let message := total.drop n
  Result.make fl ((if fl.putHash then hash else []) ++ (if fl.putMessage then message else [])) (decide ((H message).take n = hash))

/-- Feed one message in pieces; the last piece carries the message end. -/
def feed (O : Hash.Obj σ) (fl : Flags) (n : Nat) (s : HV σ) : List (List Byte) → Except Err (HV σ × List (Option Byte) × Bool)
  | [] => put O fl n s [] true
  | [last] => put O fl n s last true
  | c :: cs => do
    let (s, o1, _) ← put O fl n s c false
    let (s, o2, t) ← feed O fl n s cs
    return (s, o1 ++ o2, t)

/-- Feed messages one after the other; the application catches `HashVerificationFailed` and carries on with the next message. -/
def run (O : Hash.Obj σ) (fl : Flags) (n : Nat) (s : HV σ) : List (List (List Byte)) → Except Err (List Result)
  | [] => .ok []
  | m :: ms => do
    let (s, o, t) ← feed O fl n s m
    let rs ← run O fl n s ms
    return ⟨o, t, s.verified⟩ :: rs

/-- One message through `HashFilter` in pieces. -/
def hashFeed (O : Hash.Obj σ) (putMessage : Bool) (n : Nat) (s : σ) : List (List Byte) → Except Err (σ × List (Option Byte))
  | [] => hashPut O putMessage n s [] true
  | [last] => hashPut O putMessage n s last true
  | c :: cs => do
    let (s, o1) ← hashPut O putMessage n s c false
    let (s, o2) ← hashFeed O putMessage n s cs
    return (s, o1 ++ o2)

/-- Messages through `HashFilter` one after the other. -/
def hashRun (O : Hash.Obj σ) (putMessage : Bool) (n : Nat) (s : σ) : List (List (List Byte)) → Except Err (List (List (Option Byte)))
  | [] => .ok []
  | m :: ms => do
    let (s, o) ← hashFeed O putMessage n s m
    let os ← hashRun O putMessage n s ms
    return o :: os

end Verif.HashFilter
