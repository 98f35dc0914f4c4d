import Verif.Auth.Model
import Verif.Mem

/-! # What an authenticated cipher must return for every history of calls -/
namespace Verif.Auth.Spec

open Verif.Auth (Op Out)

/-- An algorithm: keystream and authentication code, as functions of whole strings. -/
structure Alg (κ : Type) where
  maxHeader : Nat
  maxMessage : Nat
  maxFooter : Nat
  digestSize : Nat
  ivOk : Nat → Bool
  /-- the input of `ProcessData` is authenticated; otherwise, its output -/
  authInput : Bool
  keystream : κ → List Byte → Mem
  /-- the first `n` bytes of the authentication code for a key, initialisation vector, header, text, footer -/
  tag : κ → List Byte → List Byte → List Byte → List Byte → Nat → List Byte

/-- How far the user has come. -/
inductive Life (κ : Type) where
  | noKey
  | keyed (k : κ)
  | header (k : κ) (iv : List Byte)
  | message (k : κ) (iv : List Byte)
  | footer (k : κ) (iv : List Byte)

/-- What the user has entered since the last initialisation vector: header, authenticated text, footer; `offered` counts the text offered, also after the footer began. -/
structure St (κ : Type) where
  life : Life κ
  H : List Byte
  C : List Byte
  F : List Byte
  offered : Nat

variable {κ : Type} (A : Alg κ)

def begin (k : κ) (iv : List Byte) : St κ × Except Err Out :=
  if A.ivOk iv.length then (⟨.header k iv, [], [], [], 0⟩, .ok .nothing) else (⟨.keyed k, [], [], [], 0⟩, .error .invalidArgument)

/-- The authentication code and the next state, if the calls before allow it. -/
def finish (s : St κ) (n : Nat) : St κ × Except Err (List Byte) :=
  if n > A.digestSize ∨ s.H.length > A.maxHeader ∨ s.F.length > A.maxFooter then (s, .error .invalidArgument)
  else
    match s.life with
    | .noKey => (s, .error .badState)
    | .keyed _ => (s, .error .badState)
    | .header k iv | .message k iv | .footer k iv => ({ s with life := .keyed k }, .ok (A.tag k iv s.H s.C s.F n))

/-- Text `x` enters at the position the text has reached. -/
def text (s : St κ) (k : κ) (iv x : List Byte) : St κ × Except Err Out :=
  let y := xorBytes x (load (A.keystream k iv) s.C.length x.length)
  ({ s with life := .message k iv, C := s.C ++ (if A.authInput then x else y), offered := s.offered + x.length }, .ok (.bytes y))

def step (s : St κ) : Op κ → St κ × Except Err Out
  | .setKey k none => ({ s with life := .keyed k }, .ok .nothing)
  | .setKey k (some iv) => if A.ivOk iv.length then begin A k iv else ({ s with life := .keyed k }, .error .invalidArgument)
  | .resync iv =>
    match s.life with
    | .noKey => (s, .error .badState)
    | .keyed k | .header k _ | .message k _ | .footer k _ => begin A k iv
  | .restart =>
    match s.life with
    | .noKey => (s, .ok .nothing)
    | .keyed k | .header k _ | .message k _ | .footer k _ => ({ s with life := .keyed k }, .ok .nothing)
  | .update x =>
    if x.length = 0 then (s, .ok .nothing)
    else
      match s.life with
      | .noKey => (s, .error .badState)
      | .keyed _ => (s, .error .badState)
      | .header _ _ => ({ s with H := s.H ++ x }, .ok .nothing)
      | .message k iv | .footer k iv => ({ s with life := .footer k iv, F := s.F ++ x }, .ok .nothing)
  | .process x =>
    match s.life with
    | .noKey => (s, .error .badState)
    | .keyed _ => (s, .error .badState)
    | .header k iv | .message k iv => if s.offered + x.length > A.maxMessage then (s, .error .invalidArgument) else text A s k iv x
    | .footer _ _ => if s.offered + x.length > A.maxMessage then (s, .error .invalidArgument) else ({ s with offered := s.offered + x.length }, .error .badState)
  | .final n => ((finish A s n).1, (finish A s n).2.map .bytes)
  | .verify mac => ((finish A s mac.length).1, (finish A s mac.length).2.map fun t => .bool (t == mac))

def run (s : St κ) : List (Op κ) → List (Except Err Out)
  | [] => []
  | op :: ops => (step A s op).2 :: run (step A s op).1 ops

def init : St κ := ⟨.noKey, [], [], [], 0⟩

end Verif.Auth.Spec
