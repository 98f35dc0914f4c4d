import Verif.Hmac.Model

/-! RFC 2104, and histories of calls on one object. -/
namespace Verif.Hmac
open Verif.Hash

/-- The key, hashed if longer than a block, padded with zeros to a block. -/
def blockKey (H : List Byte → List Byte) (B : Nat) (key : List Byte) : List Byte :=
  let k := if key.length > B then H key else key
  k ++ List.replicate (B - k.length) 0

/-- `H((K xor opad) || H((K xor ipad) || m))` -/
def hmac (H : List Byte → List Byte) (B : Nat) (key m : List Byte) : List Byte :=
  H ((blockKey H B key).map (· ^^^ 0x5c) ++ H ((blockKey H B key).map (· ^^^ 0x36) ++ m))

/-- Calls on a keyed object. -/
inductive Op where
  | setKey (key fresh : List Byte)
  | update (bytes : List Byte)
  | restart
  | final (size : Nat)
  | verify (mac : List Byte)

/-- What a call returns to the caller. -/
inductive Result where
  | mac (bytes : List Byte)
  | verdict (accepted : Bool)
  | rejected (e : Err)
deriving DecidableEq

variable {σ : Type} (O : Obj σ)

/-- The results of a history of calls. -/
def run (s : State σ) : List Op → Except Err (List Result)
  | [] => .ok []
  | .setKey key fresh :: ops => do
    let s ← setKey O s fresh key
    run s ops
  | .update x :: ops => do
    let s ← update O s x
    run s ops
  | .restart :: ops => run (restart O s) ops
  | .final n :: ops =>
    match truncatedFinal O s n with
    | .error e => do
      let r ← run s ops
      .ok (.rejected e :: r)
    | .ok (s, d) => do
      let r ← run s ops
      .ok (.mac d :: r)
  | .verify d :: ops =>
    match truncatedVerify O s d with
    | .error e => do
      let r ← run s ops
      .ok (.rejected e :: r)
    | .ok (s, b) => do
      let r ← run s ops
      .ok (.verdict b :: r)

/-- The results the definition demands, with the current key and the message so far. -/
def specRun (H : List Byte → List Byte) (key m : List Byte) : List Op → List Result
  | [] => []
  | .setKey key' _ :: ops => specRun H key' [] ops
  | .update x :: ops => specRun H key (m ++ x) ops
  | .restart :: ops => specRun H key [] ops
  | .final n :: ops =>
    if n > O.digestSize then .rejected .invalidArgument :: specRun H key m ops
    else .mac ((hmac H O.blockSize key m).take n) :: specRun H key [] ops
  | .verify d :: ops =>
    if d.length > O.digestSize then .rejected .invalidArgument :: specRun H key m ops
    else .verdict (d = (hmac H O.blockSize key m).take d.length) :: specRun H key [] ops

/-- Keys and messages stay below the hash's length limit; buffers given to `SetKey` have the right size. -/
def Within (lim : Nat) (m : List Byte) : List Op → Prop
  | [] => True
  | .setKey key fresh :: ops => key.length < lim ∧ 2 * O.blockSize + O.digestSize ≤ fresh.length ∧ Within lim [] ops
  | .update x :: ops => O.blockSize + (m ++ x).length < lim ∧ Within lim (m ++ x) ops
  | .restart :: ops => Within lim [] ops
  | .final n :: ops => if n > O.digestSize then Within lim m ops else Within lim [] ops
  | .verify d :: ops => if d.length > O.digestSize then Within lim m ops else Within lim [] ops

end Verif.Hmac
