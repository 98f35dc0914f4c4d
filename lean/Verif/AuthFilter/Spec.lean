import Verif.AuthFilter.Model
import Verif.Mem

/-! # What the filters must deliver -/
namespace Verif.AuthFilter

open Verif.BufFilter
variable {σ : Type}

/-- What a cipher does to one message after `Resynchronize`, in terms of whole strings: it xors the text with `ks`, and `tag a x n` is the first `n` bytes of the authentication code when `a` is the additional data and `x` the
text that entered. -/
structure Cipher where
  maxHeader : Nat
  maxMessage : Nat
  ks : Mem
  tag : List Byte → List Byte → Nat → List Byte

/-- The text that comes out. -/
def Cipher.crypt (C : Cipher) (x : List Byte) : List Byte := xorBytes x (load C.ks 0 x.length)

/-- The calls on the object agree with `C`, as long as its lengths are kept: `Hd s a` says that `a` has entered as additional data and no text has, and `Tx s a x` that the text `x` has entered after `a`. -/
structure Aead.Serves (O : Aead σ) (C : Cipher) (Hd : σ → List Byte → Prop) (Tx : σ → List Byte → List Byte → Prop) : Prop where
  weaken : ∀ s a, Hd s a → Tx s a []
  update : ∀ s a x, Hd s a → x.length ≠ 0 → (a ++ x).length ≤ C.maxHeader → ∃ s', O.update s x = .ok s' ∧ Hd s' (a ++ x)
  process : ∀ s a x y, Tx s a x → (x ++ y).length ≤ C.maxMessage → ∃ s', O.process s y = .ok (s', xorBytes y (load C.ks x.length y.length)) ∧ Tx s' a (x ++ y)
  final : ∀ s a x n, Tx s a x → a.length ≤ C.maxHeader → x.length ≤ C.maxMessage → n ≤ O.digestSize → ∃ s', O.final s n = .ok (s', C.tag a x n)

/-- A message of the user: the cipher as `Resynchronize` leaves it, the additional data in pieces, the text (and, for decryption, the code) in pieces. -/
structure Msg (σ : Type) where
  c : σ
  aads : List (List Byte)
  datas : List (List Byte)

/-! ## Encryption -/

section
variable (O : Aead σ)

def Enc.aadAll (putAAD : Bool) (s : Enc σ) : List (List Byte) → Except Err (Enc σ × List Item)
  | [] => .ok (s, [])
  | x :: xs => do
    let (s, o) ← Enc.aad O putAAD s x
    let (s, o') ← Enc.aadAll putAAD s xs
    return (s, o ++ o')

/-- The last piece carries the message end. -/
def Enc.dataAll (cut : Nat → Nat) (n : Nat) (s : Enc σ) : List (List Byte) → Except Err (Enc σ × List Item)
  | [] => Enc.put O cut n s [] true
  | [x] => Enc.put O cut n s x true
  | x :: xs => do
    let (s, o) ← Enc.put O cut n s x false
    let (s, o') ← Enc.dataAll cut n s xs
    return (s, o ++ o')

/-- One message after the other through one filter. -/
def Enc.session (cut : Nat → Nat) (putAAD : Bool) (n : Nat) (s : Enc σ) : List (Msg σ) → Except Err (List (List Item))
  | [] => .ok []
  | m :: ms => do
    let (s, o) ← Enc.aadAll O putAAD { s with c := m.c } m.aads
    let (s, o') ← Enc.dataAll O cut n s m.datas
    let os ← Enc.session cut putAAD n s ms
    return (o ++ o') :: os

/-- A new filter and its messages; `c` is the cipher when the filter is made. -/
def Enc.run (junk : Nat → Byte) (c : σ) (cut : Nat → Nat) (putAAD : Bool) (n : Nat) (ms : List (Msg σ)) : Except Err (List (List Item)) := do
  let s ← Enc.init junk c
  Enc.session O cut putAAD n s ms

end

/-- The additional data if it is asked for, the encrypted text, the first `n` bytes of the code, the message end. -/
def encSpec (C : Cipher) (putAAD : Bool) (n : Nat) (a x : List Byte) : List Item :=
  (if putAAD then a.map .aad else []) ++ (C.crypt x).map .text ++ (C.tag a x n).map .mac ++ [.messageEnd]

/-! ## Decryption -/

/-- What one message comes to: what reached the attached transformation, whether `HashVerificationFailed` was thrown, `GetLastResult()`. -/
structure Result where
  output : List Item
  thrown : Bool
  lastResult : Bool
deriving DecidableEq

section
variable (O : Aead σ)

def Dec.aadAll (fl : Flags) (s : Dec σ) : List (List Byte) → Except Err (Dec σ)
  | [] => .ok s
  | x :: xs => do
    let s ← Dec.aad O fl s x
    Dec.aadAll fl s xs

/-- Pieces on the default channel, no message end. -/
def Dec.dataMore (order : Filt.ArgOrder) (cut : Nat → Nat) (fl : Flags) (n : Nat) (s : Dec σ) : List (List Byte) → Except Err (Dec σ × List Item)
  | [] => .ok (s, [])
  | x :: xs => do
    let (s, o, _) ← Dec.channelPut O order cut fl n s x false
    let (s, o') ← Dec.dataMore order cut fl n s xs
    return (s, o ++ o')

/-- Pieces on the default channel, and then the message end. -/
def Dec.dataAll (order : Filt.ArgOrder) (cut : Nat → Nat) (fl : Flags) (n : Nat) (s : Dec σ) (xs : List (List Byte)) : Except Err (Dec σ × List Item × Bool) := do
  let (s, o) ← Dec.dataMore O order cut fl n s xs
  let (s, o', thrown) ← Dec.channelPut O order cut fl n s [] true
  return (s, o ++ o', thrown)

/-- `MAC_AT_END`: one message after the other through one filter; the application catches `HashVerificationFailed` and carries on. -/
def Dec.session (order : Filt.ArgOrder) (cut : Nat → Nat) (fl : Flags) (n : Nat) (s : Dec σ) : List (Msg σ) → Except Err (List Result)
  | [] => .ok []
  | m :: ms => do
    let s ← Dec.aadAll O fl { s with c := m.c } m.aads
    let (s, o, thrown) ← Dec.dataAll O order cut fl n s m.datas
    let rs ← Dec.session order cut fl n s ms
    return ⟨o, thrown, s.verified⟩ :: rs

/-- A new filter, one piece `b` of additional data, and then text and code with one call of `Put`, and the message end. -/
def Dec.putOnce (junk : Nat → Byte) (c : σ) (cut : Nat → Nat) (throwException : Bool) (n : Nat) (b x : List Byte) : Except Err (Dec σ × List Item × Bool) := do
  let s ← Dec.init junk ⟨false, throwException⟩ n c
  let s ← Dec.aad O ⟨false, throwException⟩ s b
  Dec.put O cut ⟨false, throwException⟩ n s x true

/-- A message for `MAC_AT_BEGIN`: `macs` comes before the additional data. -/
structure BMsg (σ : Type) extends Msg σ where
  macs : List (List Byte)

/-- `MAC_AT_BEGIN` -/
def Dec.sessionB (order : Filt.ArgOrder) (cut : Nat → Nat) (fl : Flags) (n : Nat) (s : Dec σ) : List (BMsg σ) → Except Err (List Result)
  | [] => .ok []
  | m :: ms => do
    let (s, o) ← Dec.dataMore O order cut fl n { s with c := m.c } m.macs
    let s ← Dec.aadAll O fl s m.aads
    let (s, o', thrown) ← Dec.dataAll O order cut fl n s m.datas
    let rs ← Dec.sessionB order cut fl n s ms
    return ⟨o ++ o', thrown, s.verified⟩ :: rs

/-- A new filter and its messages, for `MAC_AT_END` and for `MAC_AT_BEGIN`. -/
def Dec.run (junk : Nat → Byte) (c : σ) (order : Filt.ArgOrder) (cut : Nat → Nat) (throwException : Bool) (n : Nat) (ms : List (Msg σ)) : Except Err (List Result) := do
  let s ← Dec.init junk ⟨false, throwException⟩ n c
  Dec.session O order cut ⟨false, throwException⟩ n s ms

def Dec.runB (junk : Nat → Byte) (c : σ) (order : Filt.ArgOrder) (cut : Nat → Nat) (throwException : Bool) (n : Nat) (ms : List (BMsg σ)) : Except Err (List Result) := do
  let s ← Dec.init junk ⟨true, throwException⟩ n c
  Dec.sessionB O order cut ⟨true, throwException⟩ n s ms

end

/-- Text and code are known: the text is decrypted and passed on in any case; the message end is passed on unless the exception is thrown. -/
def Result.make (C : Cipher) (fl : Flags) (x : List Byte) (ok : Bool) : Result :=
  ⟨(C.crypt x).map .text ++ (if fl.throwException && !ok then [] else [.messageEnd]), fl.throwException && !ok, ok⟩

/-- `MAC_AT_END`: the last `n` bytes are the code; a message that is too short is not accepted. -/
def decSpecEnd (C : Cipher) (fl : Flags) (n : Nat) (a total : List Byte) : Result :=
  let text := total.take (total.length - n)
  let mac := total.drop (total.length - n)
  Result.make C fl text (decide (n ≤ total.length ∧ C.tag a text n = mac))

/-- `MAC_AT_BEGIN`: the first `n` bytes are the code. -/
def decSpecBegin (C : Cipher) (fl : Flags) (n : Nat) (a total : List Byte) : Result :=
  Result.make C fl (total.drop n) (decide (C.tag a (total.drop n) n = total.take n))

end Verif.AuthFilter
