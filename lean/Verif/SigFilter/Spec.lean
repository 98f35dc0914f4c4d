import Verif.SigFilter.Model

/-! # What the signature filters must deliver -/
namespace Verif.SigFilter
variable {σ ρ : Type}

/-- What one message comes to: what reached the attached transformation, whether `SignatureVerificationFailed` was thrown, `GetLastResult()`. -/
structure Result where
  output : List (Option Byte)
  thrown : Bool
  lastResult : Bool
deriving DecidableEq

/-- The rest of the output once signature and message are known; `none` is the message-end signal, not sent when the exception is thrown. -/
def Result.make (fl : Flags) (content : List Byte) (ok : Bool) : Result :=
  let thrown := fl.throwException && !ok
  ⟨(content ++ (if fl.putResult then [if ok then 1 else 0] else [])).map some ++ (if thrown then [] else [none]), thrown, ok⟩

/-- `SIGNATURE_AT_END`: the last `n` bytes of `total` are the signature. -/
def specEnd (valid : List Byte → List Byte → Bool) (fl : Flags) (n : Nat) (total : List Byte) : Result :=
  let message := total.take (total.length - n)
  let signature := total.drop (total.length - n)
  Result.make fl ((if fl.putMessage then message else []) ++ (if fl.putSignature then signature else [])) (valid message signature)

/-- `SIGNATURE_AT_BEGIN`: the first `n` bytes of `total` are the signature. -/
def specBegin (valid : List Byte → List Byte → Bool) (fl : Flags) (n : Nat) (total : List Byte) : Result :=
  let signature := total.take n
  let message := total.drop n
  Result.make fl ((if fl.putSignature then signature else []) ++ (if fl.putMessage then message else [])) (valid message signature)

/-- `V` accepts exactly the signatures, of the scheme's length, that are `valid` for the message; `Rep s m`: `s` has accumulated `m`. -/
structure Ver.Decides (V : Ver σ) (valid : List Byte → List Byte → Bool) (lim : Nat) (Rep : σ → List Byte → Prop) : Prop where
  update : ∀ s m x, Rep s m → (m ++ x).length < lim → ∃ s', V.update s x = .ok s' ∧ Rep s' (m ++ x)
  check : ∀ s m sig, Rep s m → sig.length = V.sigLen → ∃ s', check V s sig = .ok (s', valid m sig) ∧ Rep s' []

/-- Feed one message in pieces; the last piece carries the message end. -/
def feed (V : Ver σ) (fl : Flags) (s : SV σ) : List (List Byte) → Except Err (SV σ × List (Option Byte) × Bool)
  | [] => put V fl s [] true
  | [last] => put V fl s last true
  | c :: cs => do
    let (s, o1, _) ← put V fl s c false
    let (s, o2, t) ← feed V fl s cs
    return (s, o1 ++ o2, t)

/-- Feed messages one after the other; the application catches `SignatureVerificationFailed` and carries on with the next message. -/
def run (V : Ver σ) (fl : Flags) (s : SV σ) : List (List (List Byte)) → Except Err (List Result)
  | [] => .ok []
  | m :: ms => do
    let (s, o, t) ← feed V fl s m
    let rs ← run V fl s ms
    return ⟨o, t, s.verified⟩ :: rs

/-- A new filter, and messages. -/
def verifyAll (V : Ver σ) (junk : Nat → Byte) (fl : Flags) (acc : σ) (ms : List (List (List Byte))) : Except Err (List Result) := do
  let s ← init V junk fl acc
  run V fl s ms

/-- One message through `SignerFilter` in pieces. -/
def signFeed (S : Sgn σ ρ) (putMessage : Bool) (s : SF σ ρ) : List (List Byte) → Except Err (SF σ ρ × List (Option Byte))
  | [] => signPut S putMessage s [] true
  | [last] => signPut S putMessage s last true
  | c :: cs => do
    let (s, o1) ← signPut S putMessage s c false
    let (s, o2) ← signFeed S putMessage s cs
    return (s, o1 ++ o2)

/-- Messages through `SignerFilter` one after the other. -/
def signRun (S : Sgn σ ρ) (putMessage : Bool) (s : SF σ ρ) : List (List (List Byte)) → Except Err (List (List (Option Byte)))
  | [] => .ok []
  | m :: ms => do
    let (s, o) ← signFeed S putMessage s m
    let os ← signRun S putMessage s ms
    return o :: os

/-- A new filter, and messages. -/
def signAll (S : Sgn σ ρ) (putMessage : Bool) (rng : ρ) (ms : List (List (List Byte))) : Except Err (List (List (Option Byte))) := do
  let s ← signInit S rng
  signRun S putMessage s ms

/-- `S` signs: on the message `m` and some state of the generator it makes one of the signatures `good m`. -/
structure Sgn.Signs (S : Sgn σ ρ) (good : List Byte → List Byte → Prop) (lim : Nat) (Rep : σ → List Byte → Prop) : Prop where
  fresh : ∀ r, ∃ s r', S.fresh r = .ok (s, r') ∧ Rep s []
  update : ∀ s m x, Rep s m → (m ++ x).length < lim → ∃ s', S.update s x = .ok s' ∧ Rep s' (m ++ x)
  sign : ∀ r s m, Rep s m → ∃ sig r', S.sign r s = .ok (sig, r') ∧ good m sig

end Verif.SigFilter
