import Verif.IterHash.Model

/-! The Merkle-Damgard construction, and histories of calls on a hash object. -/
namespace Verif.IterHash

/-- The compression function on a block of bytes. -/
def compressBlock (P : Params) (st : List Nat) (block : List Byte) : List Nat :=
  P.compress st ((chunks P.k block).map P.order.val)

/-- The compression function folded over the blocks of a byte string. -/
def fold (P : Params) (bytes : List Byte) : List Nat := (chunks P.B bytes).foldl (compressBlock P) P.init

/-- Padding: 0x80, the fewest zeros, and the length in bits as two words, so that whole blocks result. -/
def mdPadding (P : Params) (n : Nat) : List Byte :=
  0x80 :: List.replicate ((P.B - (n + 1 + 2 * P.k) % P.B) % P.B) 0 ++ P.order.bytes (2 * P.k) (8 * n)

/-- The hash of a message. -/
def digest (P : Params) (m : List Byte) : List Byte :=
  ((fold P (m ++ mdPadding P m.length)).flatMap (P.order.bytes P.k)).take P.digestSize

/-- What is required of the parameters; met by every instance in the library. -/
structure Params.Ok (P : Params) : Prop where
  kpos : 1 ≤ P.k
  pow : ∃ j, P.B = 2 ^ j ∧ j ≤ 8 * P.k
  div : P.k ∣ P.B
  room : 2 * P.k < P.B
  dig : P.k ∣ P.digestSize

/-- Calls on a hash object. -/
inductive Op where
  | update (bytes : List Byte) (aligned : Bool)
  | updateInPlace (bytes : List Byte) (aligned : Bool)
  | restart
  | final (size : Nat) (aligned : Bool)

/-- The digests, or exceptions, a history of calls on an object produces. -/
def run (P : Params) (h : State) : List Op → Except Err (List (Except Err (List Byte)))
  | [] => .ok []
  | .update bs a :: ops => do
    let h ← update P h bs a false
    run P h ops
  | .updateInPlace bs a :: ops => do
    let h ← updateInPlace P h bs a
    run P h ops
  | .restart :: ops => run P (restart P h) ops
  | .final n a :: ops =>
    match truncatedFinal P h n a with
    | .error e => do
      let r ← run P h ops
      .ok (.error e :: r)
    | .ok (h, d) => do
      let r ← run P h ops
      .ok (.ok d :: r)

/-- The same for the specification: `m` is the message so far. -/
def specRun (P : Params) (m : List Byte) : List Op → List (Except Err (List Byte))
  | [] => []
  | .update bs _ :: ops => specRun P (m ++ bs) ops
  | .updateInPlace bs _ :: ops => specRun P (m ++ bs) ops
  | .restart :: ops => specRun P [] ops
  | .final n _ :: ops =>
    if n > P.digestSize then .error .invalidArgument :: specRun P m ops
    else .ok ((digest P m).take n) :: specRun P [] ops

/-- The history keeps every message below `256 ^ (2 k)` bytes, and in-place updates within the space offered. -/
def Within (P : Params) (m : List Byte) : List Op → Prop
  | [] => True
  | .update bs _ :: ops => (m ++ bs).length < P.W * P.W ∧ Within P (m ++ bs) ops
  | .updateInPlace bs _ :: ops => (m ++ bs).length < P.W * P.W ∧ bs.length ≤ P.B - m.length % P.B ∧ Within P (m ++ bs) ops
  | .restart :: ops => Within P [] ops
  | .final n _ :: ops => if n > P.digestSize then Within P m ops else Within P [] ops

/-- The object after a history. -/
def exec (P : Params) (h : State) : List Op → Except Err State
  | [] => .ok h
  | .update bs a :: ops => do
    let h ← update P h bs a false
    exec P h ops
  | .updateInPlace bs a :: ops => do
    let h ← updateInPlace P h bs a
    exec P h ops
  | .restart :: ops => exec P (restart P h) ops
  | .final n a :: ops =>
    match truncatedFinal P h n a with
    | .error _ => exec P h ops
    | .ok (h, _) => exec P h ops

/-- The message the object holds after a history. -/
def held (P : Params) (m : List Byte) : List Op → List Byte
  | [] => m
  | .update bs _ :: ops => held P (m ++ bs) ops
  | .updateInPlace bs _ :: ops => held P (m ++ bs) ops
  | .restart :: ops => held P [] ops
  | .final n _ :: ops => if n > P.digestSize then held P m ops else held P [] ops

end Verif.IterHash
